import Verif.Proofs.ConfigSet

namespace Notmuch.ConfigCmd

open Notmuch.Config Notmuch.Cli Notmuch.Args

/-! ## What is written -/

theorem escapeByte_head (sep : Bool) (c : UInt8) (hc : c ≠ 12) :
    ∃ d r, (escapeByte sep true c).1 = d :: r ∧ (d = 32 || d = 9 || d = 10 || d = 12 || d = 13) = false := by
  have key : ∀ c : UInt8, ∀ sep, c ≠ 12 → ((escapeByte sep true c).1.head?.map (fun d => d = 32 || d = 9 || d = 10 || d = 12 || d = 13)) = some false := by
    apply forall_byte
    decide +kernel
  have := key c sep hc
  cases h : (escapeByte sep true c).1 with
  | nil => rw [h] at this; cases this
  | cons d r =>
    rw [h] at this
    exact ⟨d, r, rfl, by simpa using this⟩

theorem chug_cons {d : UInt8} {r : Str} (h : (d = 32 || d = 9 || d = 10 || d = 12 || d = 13) = false) : chug (d :: r) = d :: r := by
  unfold chug
  rw [List.dropWhile_cons_of_neg]
  rw [h]
  decide

theorem chug_escape (sep : Bool) (v r : Str) (hv : v.head? ≠ some 12) (h : v ≠ []) : chug (escape sep true v ++ r) = escape sep true v ++ r := by
  cases v with
  | nil => exact absurd rfl h
  | cons c v =>
    obtain ⟨d, t, e, hd⟩ := escapeByte_head sep c (fun h => hv (by rw [h]; rfl))
    unfold escape
    rw [e]
    exact chug_cons hd

theorem chug_raw (vs : List Str) (hv : ∀ v, vs.head? = some v → v.head? ≠ some 12) : chug (raw vs) = raw vs := by
  match vs, hv with
  | [], _ => rfl
  | [v], hv =>
    unfold raw
    by_cases h : v = []
    · subst h; rfl
    · have := chug_escape false v [] (hv v rfl) h
      simpa using this
  | v :: w :: vs, hv =>
    show chug (List.flatMap _ (v :: w :: vs)) = List.flatMap _ (v :: w :: vs)
    rw [List.flatMap_cons, List.append_assoc]
    by_cases h : v = []
    · subst h
      have e : bs ";" = [59] := by decide +kernel
      rw [e]
      exact chug_cons (by decide)
    · exact chug_escape true v _ (hv v rfl) h

theorem change_set {g k : Str} {f : KeyFile} {vs : List Str} (hne : vs ≠ []) (hg : Name g) (hk : Name k) (hv : ∀ v, vs.head? = some v → v.head? ≠ some 12) :
    change g k f vs = putValue g k (raw vs) f := by
  have : change g k f vs = setValue g k (raw vs) f := by
    match vs, hne with
    | [v], _ => rfl
    | v :: w :: vs, _ => rfl
  rw [this]
  unfold setValue
  rw [name_group hg, name_key hk, chug_raw vs hv]
  rfl

/-- The key that a program set has what it set, and others have what they had. -/
theorem file_change {g k : Str} {f : KeyFile} {vs : List Str} {file : List (Str × Str × Str)} (hf : GoodFile f) (hd : ∀ x ∈ f, 46 ∉ x.1)
    (hg : Name g) (hg' : 46 ∉ g) (hk : Name k) (hu : ∀ v ∈ vs, utf8 v = true) (hv : ∀ v, vs.head? = some v → v.head? ≠ some 12)
    (h : decode (entriesOf f) = some file) :
    ∃ file', decode (entriesOf (change g k f vs)) = some file' ∧
      (∀ K, fileValue file' K = if K = g ++ bs "." ++ k then (if vs = [] then none else some (stored vs)) else fileValue file K) ∧
      ∀ g' k', ¬(g' = g ∧ k' = k) → lookup g' k' (change g k f vs) = lookup g' k' f := by
  obtain ⟨h1, rfl⟩ := decode_iff.1 h
  by_cases hne : vs = []
  · subst hne
    refine ⟨_, decode_iff.2 ⟨?_, rfl⟩, ?_, ?_⟩
    · intro x hx
      exact h1 x (mem_removeKey hx)
    · intro K
      rw [fileValue_decode, fileValue_decode]
      by_cases hK : K = g ++ bs "." ++ k
      · rw [if_pos hK, if_pos rfl, hK]
        show Option.map _ (only (entriesOf (removeKey g k f)) _).getLast? = none
        rw [only_remove g k hg' f hd]
        rfl
      · rw [if_neg hK]
        show Option.map _ (only (entriesOf (removeKey g k f)) _).getLast? = _
        rw [only_remove_ne g k K hK]
    · intro g' k' hgk
      exact lookup_remove_ne hgk f
  · rw [change_set hne hg hk hv]
    refine ⟨_, decode_iff.2 ⟨?_, rfl⟩, ?_, ?_⟩
    · intro x hx
      rcases mem_putValue hx with hx | rfl
      · exact h1 x hx
      · exact utf8_raw vs hu
    · intro K
      rw [fileValue_decode, fileValue_decode]
      by_cases hK : K = g ++ bs "." ++ k
      · rw [if_pos hK, if_neg hne, hK, only_put g k _ hg' f hf hd]
        show some (unescape false (raw vs)) = _
        rw [unescape_raw]
      · rw [if_neg hK, only_put_ne g k _ K hK]
    · intro g' k' hgk
      exact lookup_put_ne hgk f

theorem putKey_keys (k v : Str) (l : List (Str × Str)) : (putKey k v l).map (·.1) = if k ∈ l.map (·.1) then l.map (·.1) else l.map (·.1) ++ [k] := by
  induction l with
  | nil => rfl
  | cons x l ih =>
    unfold putKey
    by_cases hx : x.1 = k
    · simp [hx]
    · rw [if_neg hx, List.map_cons, ih]
      by_cases hm : k ∈ l.map (·.1)
      · rw [if_pos hm, if_pos (by rw [List.map_cons]; exact List.mem_cons_of_mem _ hm)]
        rfl
      · rw [if_neg hm, if_neg]
        · rfl
        · rw [List.map_cons, List.mem_cons, not_or]
          exact ⟨Ne.symm hx, hm⟩

theorem putValue_groups (g k v : Str) (f : KeyFile) : (putValue g k v f).map (·.1) = if g ∈ f.map (·.1) then f.map (·.1) else f.map (·.1) ++ [g] := by
  induction f with
  | nil => rfl
  | cons x l ih =>
    unfold putValue
    by_cases hx : x.1 = g
    · simp [hx]
    · rw [if_neg hx, List.map_cons, ih]
      by_cases hm : g ∈ l.map (·.1)
      · rw [if_pos hm, if_pos (by rw [List.map_cons]; exact List.mem_cons_of_mem _ hm)]
        rfl
      · rw [if_neg hm, if_neg]
        · rfl
        · rw [List.map_cons, List.mem_cons, not_or]
          exact ⟨Ne.symm hx, hm⟩

theorem nodup_snoc {l : List Str} {a : Str} (h : l.Nodup) : (if a ∈ l then l else l ++ [a]).Nodup := by
  split
  · exact h
  · rename_i ha
    rw [List.nodup_append]
    refine ⟨h, by simp, ?_⟩
    intro x hx y hy
    rw [List.mem_singleton] at hy
    intro he
    exact ha (by rw [← hy, ← he]; exact hx)

theorem putKey_nodup {k v : Str} {l : List (Str × Str)} (h : (l.map (·.1)).Nodup) : ((putKey k v l).map (·.1)).Nodup := by
  rw [putKey_keys]
  exact nodup_snoc h

theorem good_putValue (g k v : Str) {f : KeyFile} (h : GoodFile f) : GoodFile (putValue g k v f) := by
  refine ⟨by rw [putValue_groups]; exact nodup_snoc h.1, ?_⟩
  have h2 := h.2
  clear h
  induction f with
  | nil =>
    intro x hx
    have : x = (g, [(k, v)]) := by simpa [putValue] using hx
    rw [this]
    simp
  | cons y f ih =>
    intro x hx
    unfold putValue at hx
    split at hx
    · rcases List.mem_cons.1 hx with hx | hx
      · rw [hx]
        exact putKey_nodup (h2 y (by simp))
      · exact h2 x (by simp [hx])
    · rcases List.mem_cons.1 hx with hx | hx
      · exact h2 x (by simp [hx])
      · exact ih (fun z hz => h2 z (by simp [hz])) x hx

theorem removeKey_groups (g k : Str) (f : KeyFile) : (removeKey g k f).map (·.1) = f.map (·.1) := by
  unfold removeKey
  rw [List.map_map]
  apply List.map_congr_left
  intro x _
  show (if x.1 = g then (x.1, x.2.filter (fun y => y.1 ≠ k)) else x).1 = x.1
  split <;> rfl

theorem good_removeKey (g k : Str) {f : KeyFile} (h : GoodFile f) : GoodFile (removeKey g k f) := by
  refine ⟨by rw [removeKey_groups]; exact h.1, ?_⟩
  intro x hx
  obtain ⟨y, hy, rfl⟩ := List.mem_map.1 hx
  split
  · exact (List.filter_sublist.map _).nodup (h.2 y hy)
  · exact h.2 y hy

theorem setValue_cases (g k v : Str) (f : KeyFile) : setValue g k v f = f ∨ setValue g k v f = putValue g k (chug v) f := by
  unfold setValue
  split
  · exact Or.inr rfl
  · exact Or.inl rfl

/-- What is written is a file again. -/
theorem good_change (g k : Str) {f : KeyFile} (vs : List Str) (h : GoodFile f) (hg : 46 ∉ g) (hd : ∀ x ∈ f, 46 ∉ x.1) :
    GoodFile (change g k f vs) ∧ ∀ x ∈ change g k f vs, 46 ∉ x.1 := by
  have hset : ∀ v, GoodFile (setValue g k v f) ∧ ∀ x ∈ setValue g k v f, 46 ∉ x.1 := by
    intro v
    rcases setValue_cases g k v f with e | e
    · rw [e]; exact ⟨h, hd⟩
    · rw [e]
      refine ⟨good_putValue g k _ h, ?_⟩
      intro x hx
      have := List.mem_map_of_mem (f := fun x : Str × List (Str × Str) => x.1) hx
      rw [putValue_groups] at this
      have hmem : x.1 ∈ f.map (·.1) ∨ x.1 = g := by
        split at this
        · exact Or.inl this
        · rcases List.mem_append.1 this with h' | h'
          · exact Or.inl h'
          · exact Or.inr (by simpa using h')
      rcases hmem with h' | h'
      · obtain ⟨y, hy, he⟩ := List.mem_map.1 h'
        rw [← he]
        exact hd y hy
      · rw [h']; exact hg
  match vs with
  | [] =>
    refine ⟨good_removeKey g k h, ?_⟩
    intro x hx
    have := List.mem_map_of_mem (f := fun x : Str × List (Str × Str) => x.1) hx
    rw [show change g k f [] = removeKey g k f from rfl, removeKey_groups] at this
    obtain ⟨y, hy, he⟩ := List.mem_map.1 this
    rw [← he]
    exact hd y hy
  | [v] => exact hset _
  | v :: w :: vs => exact hset _

/-! ## Databases -/

theorem setMeta_nodup' {mdata : List (Str × Str)} (k v : Str) (h : (mdata.map (·.1)).Nodup) : ((setMeta mdata k v).map (·.1)).Nodup := by
  unfold setMeta
  rw [List.map_append, List.nodup_append]
  refine ⟨(List.filter_sublist.map _).nodup h, by split <;> simp, ?_⟩
  intro a ha b hb hab
  obtain ⟨x, hx, rfl⟩ := List.mem_map.1 ha
  split at hb
  · simp at hb
  · have : b = k := by simpa using hb
    rw [List.mem_filter] at hx
    have := hx.2
    simp_all

theorem setMeta_not_mem {mdata : List (Str × Str)} {k v K : Str} (hK : K ≠ k) (h : K ∉ mdata.map (·.1)) : K ∉ (setMeta mdata k v).map (·.1) := by
  intro hm
  obtain ⟨x, hx, rfl⟩ := List.mem_map.1 hm
  unfold setMeta at hx
  rcases List.mem_append.1 hx with hx | hx
  · exact h (List.mem_map.2 ⟨x, (List.mem_filter.1 hx).1, rfl⟩)
  · split at hx
    · cases hx
    · have : x = (k, v) := by simpa using hx
      exact hK (by rw [this])

theorem dbValue_setMeta' (mdata : List (Str × Str)) (k v k' : Str) :
    dbValue (setMeta mdata k v) k' = if k' = k then (if v = [] then none else some v) else dbValue mdata k' := by
  unfold dbValue setMeta
  rw [List.find?_append, List.find?_filter]
  by_cases hk : k' = k
  · subst hk
    rw [if_pos rfl]
    rw [show (List.find? (fun a => decide (decide (a.1 ≠ k') = true ∧ decide (a.1 = k') = true)) mdata) = none from by
      rw [List.find?_eq_none]
      intro x _
      by_cases hx : x.1 = k' <;> simp [hx]]
    by_cases hv : v = []
    · simp [hv]
    · simp [hv]
  · rw [if_neg hk]
    have e : (fun a : Str × Str => decide (decide (a.1 ≠ k) = true ∧ decide (a.1 = k') = true)) = (fun a => decide (a.1 = k')) := by
      funext a
      by_cases ha : a.1 = k'
      · have : a.1 ≠ k := fun h => hk (ha ▸ h)
        simp [ha, hk]
      · simp [ha]
    rw [e]
    have : List.find? (fun x : Str × Str => decide (x.1 = k')) (if v = [] then [] else [(k, v)]) = none := by
      rw [List.find?_eq_none]
      intro x hx
      split at hx
      · cases hx
      · obtain rfl : x = (k, v) := by simpa using hx
        simpa using fun h => hk h.symm
    rw [this, Option.or_none]

/-! ## Arguments -/

theorem parse_command (opts : List Opt) (c : Str) (rest : List Str) (hc : ¬(bs "--" <+: c)) (hp : positions opts = []) : parse opts (c :: rest) = (.rest (c :: rest), []) := by
  unfold parse
  show parseArguments opts (rest.length + 1) 0 (c :: rest) = _
  unfold parseArguments
  rw [if_neg hc]
  unfold positionArg
  rw [hp]
  rfl

theorem minimal_command (W : World) (sh : Shared) (hs : sh.version = false ∧ sh.help = false) (c : Str) (rest : List Str) (hc : ¬(bs "--" <+: c)) :
    Main.minimalOptions W.sys sh (some (bs "config")) (c :: rest) = .inr (c :: rest) := by
  unfold Main.minimalOptions
  rw [parse_command _ _ _ hc rfl]
  show (match processShared W.sys none sh (some (bs "config")) with | some e => Sum.inl e | none => Sum.inr (c :: rest)) = _
  unfold processShared
  rw [hs.1, hs.2]
  rfl

theorem parse_database (item : Str) (vs : List Str) (hc : ¬(bs "--" <+: item)) : ∃ w, parse configOptions (bs "--database" :: item :: vs) = (.rest (item :: vs), w) ∧ boolVar 10 false w = true := by
  unfold parse
  show ∃ w, parseArguments configOptions (vs.length + 1 + 1) 0 (bs "--database" :: item :: vs) = _ ∧ _
  unfold parseArguments
  rw [if_pos (by decide +kernel), if_neg (by decide +kernel)]
  have e : parseOption ((bs "--database").drop 2) (item :: vs) configOptions = (.rest (item :: vs), [.bool 10 true]) := by
    rfl
  rw [e]
  have := parse_command configOptions item vs hc rfl
  unfold parse at this
  rw [List.length_cons] at this
  simp only [this]
  exact ⟨_, rfl, rfl⟩

end Notmuch.ConfigCmd
