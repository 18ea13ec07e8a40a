import Verif.Proofs.ConfigLoad

namespace Notmuch.ConfigCmd

open Notmuch.Config Notmuch.Cli

/-! ## Entries of a file -/

/-- The entries of a key. -/
def only (l : List (Str × Str × Str)) (K : Str) : List (Str × Str × Str) := l.filter (fun x => x.1 ++ bs "." ++ x.2.1 = K)

theorem only_append (a b : List (Str × Str × Str)) (K : Str) : only (a ++ b) K = only a K ++ only b K := List.filter_append ..

/-- The entries of a group. -/
def groupEntries (g : Str) (l : List (Str × Str)) : List (Str × Str × Str) := l.map (fun y => (g, y.1, y.2))

theorem entriesOf_cons (x : Str × List (Str × Str)) (f : KeyFile) : entriesOf (x :: f) = groupEntries x.1 x.2 ++ entriesOf f := rfl

theorem only_groupEntries_ne (g k v K : Str) (h : K ≠ g ++ bs "." ++ k) (l : List (Str × Str)) :
    only (groupEntries g (putKey k v l)) K = only (groupEntries g l) K := by
  induction l with
  | nil =>
    simp only [putKey, groupEntries, List.map_cons, List.map_nil, only]
    rw [List.filter_cons_of_neg (by simpa using Ne.symm h)]
  | cons y l ih =>
    unfold putKey
    split
    · rename_i hy
      unfold groupEntries only
      rw [List.map_cons, List.map_cons, List.filter_cons_of_neg (by simpa using Ne.symm h), List.filter_cons_of_neg (by simpa [hy] using Ne.symm h)]
    · unfold groupEntries only at ih ⊢
      rw [List.map_cons, List.map_cons, List.filter_cons, List.filter_cons, ih]

theorem only_put_ne (g k v K : Str) (h : K ≠ g ++ bs "." ++ k) (f : KeyFile) : only (entriesOf (putValue g k v f)) K = only (entriesOf f) K := by
  induction f with
  | nil => exact only_groupEntries_ne g k v K h []
  | cons x f ih =>
    unfold putValue
    split
    · rename_i hx
      rw [entriesOf_cons, entriesOf_cons, only_append, only_append, only_groupEntries_ne g k v K h, hx]
    · rw [entriesOf_cons, entriesOf_cons, only_append, only_append, ih]

theorem only_remove_ne (g k K : Str) (h : K ≠ g ++ bs "." ++ k) (f : KeyFile) : only (entriesOf (removeKey g k f)) K = only (entriesOf f) K := by
  unfold removeKey
  induction f with
  | nil => rfl
  | cons x f ih =>
    rw [List.map_cons, entriesOf_cons, entriesOf_cons, only_append, only_append, ih]
    congr 1
    split
    · rename_i hx
      simp only
      unfold groupEntries only
      rw [List.filter_map, List.filter_map, List.filter_filter]
      congr 1
      apply List.filter_congr
      intro y _
      by_cases hy : y.1 = k
      · have : ¬(x.1 ++ bs "." ++ y.1 = K) := by rw [hx, hy]; exact Ne.symm h
        simp [hy, this]
        intro h'
        rw [hy] at this
        exact absurd h' (by simpa using this)
      · simp [hy]
    · rfl

/-- Keys of groups without a dot are those. -/
theorem abs_inj {g g' k k' : Str} (hg : 46 ∉ g) (hg' : 46 ∉ g') (h : g' ++ bs "." ++ k' = g ++ bs "." ++ k) : g' = g ∧ k' = k := by
  have e : bs "." = [46] := by decide +kernel
  rw [e] at h
  induction g generalizing g' with
  | nil =>
    cases g' with
    | nil => simpa using h
    | cons c g' =>
      exfalso
      simp at h
      exact hg' (by simp [h.1])
  | cons c g ih =>
    cases g' with
    | nil =>
      exfalso
      simp at h
      exact hg (by simp [← h.1])
    | cons c' g' =>
      simp only [List.cons_append, List.cons.injEq] at h
      obtain ⟨h1, h2⟩ := ih (by intro hm; exact hg (by simp [hm])) (g' := g') (by intro hm; exact hg' (by simp [hm])) h.2
      exact ⟨by rw [h.1, h1], h2⟩

theorem only_none {g k : Str} (hg : 46 ∉ g) (l : List (Str × Str × Str)) (hd : ∀ x ∈ l, 46 ∉ x.1) (h : ∀ x ∈ l, ¬(x.1 = g ∧ x.2.1 = k)) :
    only l (g ++ bs "." ++ k) = [] := by
  unfold only
  rw [List.filter_eq_nil_iff]
  intro x hx he
  have he : x.1 ++ bs "." ++ x.2.1 = g ++ bs "." ++ k := by simpa using he
  exact h x hx (abs_inj hg (hd x hx) he)

theorem mem_entriesOf {f : KeyFile} {x : Str × Str × Str} : x ∈ entriesOf f ↔ ∃ y ∈ f, y.1 = x.1 ∧ (x.2.1, x.2.2) ∈ y.2 := by
  unfold entriesOf
  rw [List.mem_flatMap]
  constructor
  · rintro ⟨y, hy, h⟩
    obtain ⟨z, hz, rfl⟩ := List.mem_map.1 h
    exact ⟨y, hy, rfl, hz⟩
  · rintro ⟨y, hy, h1, h2⟩
    exact ⟨y, hy, List.mem_map.2 ⟨_, h2, by rw [h1]⟩⟩

theorem only_group_put (g k v : Str) (hg : 46 ∉ g) (l : List (Str × Str)) (hl : (l.map (·.1)).Nodup) :
    only (groupEntries g (putKey k v l)) (g ++ bs "." ++ k) = [(g, k, v)] := by
  have hsome : ∀ l : List (Str × Str), k ∉ l.map (·.1) → only (groupEntries g l) (g ++ bs "." ++ k) = [] := by
    intro l hk
    apply only_none hg
    · intro x hx
      obtain ⟨y, _, rfl⟩ := List.mem_map.1 hx
      exact hg
    · rintro x hx ⟨_, h2⟩
      obtain ⟨y, hy, rfl⟩ := List.mem_map.1 hx
      exact hk (List.mem_map.2 ⟨y, hy, h2⟩)
  induction l with
  | nil =>
    simp only [putKey, groupEntries, List.map_cons, List.map_nil, only]
    rw [List.filter_cons_of_pos (by simp)]
    rfl
  | cons y l ih =>
    rw [List.map_cons, List.nodup_cons] at hl
    unfold putKey
    split
    · rename_i hy
      have := hsome l (by rw [← hy]; exact hl.1)
      unfold groupEntries only at this ⊢
      rw [List.map_cons, List.filter_cons_of_pos (by simp), this]
    · rename_i hy
      have := ih hl.2
      unfold groupEntries only at this ⊢
      rw [List.map_cons, List.filter_cons_of_neg (by simpa using hy), this]

theorem only_put (g k v : Str) (hg : 46 ∉ g) (f : KeyFile) (hf : GoodFile f) (hd : ∀ x ∈ f, 46 ∉ x.1) : only (entriesOf (putValue g k v f)) (g ++ bs "." ++ k) = [(g, k, v)] := by
  induction f with
  | nil =>
    have := only_group_put g k v hg [] .nil
    unfold putValue
    rw [entriesOf_cons, only_append]
    have e : putKey k v [] = [(k, v)] := rfl
    rw [e] at this
    rw [this]
    rfl
  | cons x f ih =>
    obtain ⟨h1, h2⟩ := hf
    rw [List.map_cons, List.nodup_cons] at h1
    unfold putValue
    split
    · rename_i hx
      rw [entriesOf_cons, only_append, only_group_put g k v hg _ (h2 x (by simp)), only_none hg]
      · rfl
      · intro y hy
        obtain ⟨z, hz, h, _⟩ := mem_entriesOf.1 hy
        rw [← h]
        exact hd z (by simp [hz])
      · rintro y hy ⟨h, _⟩
        obtain ⟨z, hz, h', _⟩ := mem_entriesOf.1 hy
        exact h1.1 (List.mem_map.2 ⟨z, hz, by rw [h', h, hx]⟩)
    · rename_i hx
      rw [entriesOf_cons, only_append, ih ⟨h1.2, fun y hy => h2 y (by simp [hy])⟩ (fun y hy => hd y (by simp [hy])), only_none hg]
      · rfl
      · intro y hy
        obtain ⟨z, _, rfl⟩ := List.mem_map.1 hy
        exact hd x (by simp)
      · rintro y hy ⟨h, _⟩
        obtain ⟨z, _, rfl⟩ := List.mem_map.1 hy
        exact hx h

theorem only_remove (g k : Str) (hg : 46 ∉ g) (f : KeyFile) (hd : ∀ x ∈ f, 46 ∉ x.1) : only (entriesOf (removeKey g k f)) (g ++ bs "." ++ k) = [] := by
  apply only_none hg
  · intro x hx
    obtain ⟨y, hy, h, _⟩ := mem_entriesOf.1 hx
    obtain ⟨z, hz, rfl⟩ := List.mem_map.1 hy
    rw [← h]
    split
    · exact hd z hz
    · exact hd z hz
  · rintro x hx ⟨h1, h2⟩
    obtain ⟨y, hy, h, h3⟩ := mem_entriesOf.1 hx
    obtain ⟨z, hz, rfl⟩ := List.mem_map.1 hy
    split at h3
    · rw [List.mem_filter] at h3
      simp [h2] at h3
    · rename_i hz'
      rw [if_neg hz', h1] at h
      exact hz' h

theorem mem_putKey {k v : Str} {l : List (Str × Str)} {y : Str × Str} (h : y ∈ putKey k v l) : y ∈ l ∨ y = (k, v) := by
  induction l with
  | nil => right; simpa [putKey] using h
  | cons z l ih =>
    unfold putKey at h
    split at h
    · rcases List.mem_cons.1 h with h | h
      · exact Or.inr h
      · exact Or.inl (by simp [h])
    · rcases List.mem_cons.1 h with h | h
      · exact Or.inl (by simp [h])
      · rcases ih h with h | h
        · exact Or.inl (by simp [h])
        · exact Or.inr h

theorem mem_putValue {g k v : Str} {f : KeyFile} {x : Str × Str × Str} (h : x ∈ entriesOf (putValue g k v f)) : x ∈ entriesOf f ∨ x = (g, k, v) := by
  induction f with
  | nil => right; simpa [putValue, entriesOf] using h
  | cons y f ih =>
    unfold putValue at h
    split at h
    · rename_i hy
      rw [entriesOf_cons] at h
      rcases List.mem_append.1 h with h | h
      · obtain ⟨z, hz, rfl⟩ := List.mem_map.1 h
        rcases mem_putKey hz with hz | rfl
        · left
          rw [entriesOf_cons]
          exact List.mem_append_left _ (List.mem_map.2 ⟨z, hz, by rw [hy]⟩)
        · right; rfl
      · left; rw [entriesOf_cons]; exact List.mem_append_right _ h
    · rw [entriesOf_cons] at h
      rcases List.mem_append.1 h with h | h
      · left; rw [entriesOf_cons]; exact List.mem_append_left _ h
      · rcases ih h with h | h
        · left; rw [entriesOf_cons]; exact List.mem_append_right _ h
        · exact Or.inr h

theorem mem_removeKey {g k : Str} {f : KeyFile} {x : Str × Str × Str} (h : x ∈ entriesOf (removeKey g k f)) : x ∈ entriesOf f := by
  obtain ⟨y, hy, h1, h2⟩ := mem_entriesOf.1 h
  obtain ⟨z, hz, rfl⟩ := List.mem_map.1 hy
  refine mem_entriesOf.2 ⟨z, hz, ?_, ?_⟩
  · split at h1 <;> exact h1
  · split at h2
    · exact (List.mem_filter.1 h2).1
    · exact h2

/-! ## Reading -/

theorem decode_iff {l l' : List (Str × Str × Str)} : decode l = some l' ↔ (∀ x ∈ l, utf8 x.2.2 = true) ∧ l' = l.map (fun x => (x.1, x.2.1, unescape false x.2.2)) := by
  induction l generalizing l' with
  | nil =>
    show some [] = some l' ↔ _
    constructor
    · intro h
      cases h
      exact ⟨fun x hx => by simp at hx, rfl⟩
    · rintro ⟨_, rfl⟩
      rfl
  | cons x l ih =>
    unfold decode getString
    by_cases hx : utf8 x.2.2 = true
    · simp only [hx, if_true, Option.bind_some]
      cases hd : decode l with
      | none =>
        have : ¬∀ x ∈ l, utf8 x.2.2 = true := by
          intro h
          have := ih.2 ⟨h, rfl⟩
          rw [hd] at this
          cases this
        exact ⟨fun h => by simp at h, fun h => absurd (fun y hy => h.1 y (by simp [hy])) this⟩
      | some d =>
        obtain ⟨h1, rfl⟩ := ih.1 hd
        simp only [Option.map_some, Option.some.injEq, List.forall_mem_cons, hx, true_and, List.map_cons]
        exact ⟨fun h => ⟨h1, h.symm⟩, fun h => h.2.symm⟩
    · simp [hx]

theorem fileValue_decode (l : List (Str × Str × Str)) (K : Str) :
    fileValue (l.map (fun x => (x.1, x.2.1, unescape false x.2.2))) K = ((only l K).getLast?).map (fun x => unescape false x.2.2) := by
  unfold fileValue only
  rw [List.filter_map, List.getLast?_map, Option.map_map]
  rfl

/-! ## Lookup -/

theorem lookup_putKey_ne {k v k' : Str} (h : k' ≠ k) (l : List (Str × Str)) : (putKey k v l).find? (fun y => y.1 = k') = l.find? (fun y => y.1 = k') := by
  induction l with
  | nil => simp [putKey, Ne.symm h]
  | cons y l ih =>
    unfold putKey
    split
    · rename_i hy
      simp [List.find?_cons, Ne.symm h, hy]
    · rw [List.find?_cons, List.find?_cons, ih]

theorem lookup_put_ne {g k v g' k' : Str} (h : ¬(g' = g ∧ k' = k)) (f : KeyFile) : lookup g' k' (putValue g k v f) = lookup g' k' f := by
  unfold lookup
  congr 1
  induction f with
  | nil =>
    unfold putValue
    by_cases hg : g = g'
    · have : ¬k = k' := fun hk => h ⟨hg.symm, hk.symm⟩
      simp [hg, this]
    · simp [hg]
  | cons x f ih =>
    unfold putValue
    split
    · rename_i hx
      by_cases hg : g = g'
      · have : ¬k = k' := fun hk => h ⟨hg.symm, hk.symm⟩
        subst hg
        simp only [List.find?_cons, hx, decide_true, Option.bind_some]
        exact lookup_putKey_ne (Ne.symm this) x.2
      · simp [List.find?_cons, hx, hg]
    · rw [List.find?_cons, List.find?_cons]
      cases hd : decide (x.1 = g') with
      | true => rfl
      | false => exact ih

theorem lookup_remove_ne {g k g' k' : Str} (h : ¬(g' = g ∧ k' = k)) (f : KeyFile) : lookup g' k' (removeKey g k f) = lookup g' k' f := by
  unfold lookup removeKey
  congr 1
  induction f with
  | nil => rfl
  | cons x f ih =>
    rw [List.map_cons, List.find?_cons, List.find?_cons]
    by_cases hx : x.1 = g
    · rw [if_pos hx]
      by_cases hg : g = g'
      · have hk : ¬k' = k := fun hk => h ⟨hg.symm, hk⟩
        simp only [hx, hg, decide_true, Option.bind_some]
        rw [List.find?_filter]
        congr 1
        funext y
        by_cases hy : y.1 = k'
        · simp [hy, hk]
        · simp [hy]
      · simp only [hx, hg, decide_false]
        exact ih
    · rw [if_neg hx]
      cases hd : decide (x.1 = g') with
      | true => rfl
      | false => exact ih

/-! ## Names and values -/

theorem itemSplit_iff {item g k : Str} : itemSplit item = some (g, k) ↔ item = g ++ bs "." ++ k ∧ 46 ∉ g ∧ k ≠ [] := by
  have e : bs "." = [46] := by decide +kernel
  rw [e]
  unfold itemSplit
  simp only
  constructor
  · intro h
    split at h
    · rename_i d c k' hd
      cases h
      have hdd : d = 46 := by
        have := List.head?_dropWhile_not (fun c : UInt8 => decide (c ≠ 46)) item
        rw [hd] at this
        simpa using this
      refine ⟨?_, ?_, by simp⟩
      · have := List.takeWhile_append_dropWhile (p := fun c : UInt8 => decide (c ≠ 46)) (l := item)
        rw [hd, hdd] at this
        have h2 : item.takeWhile (fun c : UInt8 => decide (c ≠ 46)) ++ [46] ++ c :: k' = item := by
          rw [List.append_assoc]
          exact this
        exact h2.symm
      · intro hm
        have := List.all_eq_true.1 (List.all_takeWhile (p := fun c : UInt8 => decide (c ≠ 46)) (l := item)) 46 hm
        simp at this
    · cases h
  · rintro ⟨rfl, h1, h2⟩
    have ht : ∀ (g : Str), 46 ∉ g → ((g ++ [46] ++ k).takeWhile (· ≠ 46)) = g ∧ ((g ++ [46] ++ k).dropWhile (· ≠ 46)) = 46 :: k := by
      intro g hg
      induction g with
      | nil => simp
      | cons c g ih =>
        have hc : c ≠ 46 := fun h => hg (by simp [h])
        obtain ⟨i1, i2⟩ := ih (fun h => hg (by simp [h]))
        rw [List.cons_append, List.cons_append, List.takeWhile_cons, List.dropWhile_cons]
        simp only [ne_eq, hc, not_false_eq_true, decide_true, if_true]
        exact ⟨by rw [i1], i2⟩
    obtain ⟨t1, t2⟩ := ht g h1
    rw [t1, t2]
    cases k with
    | nil => exact absurd rfl h2
    | cons c k => rfl

theorem name_group {g : Str} (h : Name g) : groupName g = true := by
  unfold groupName
  simp only [Bool.and_eq_true, decide_eq_true_eq, List.all_eq_true]
  refine ⟨by simpa using h.1, ?_⟩
  intro c hc
  obtain ⟨h1, h2, h3, h4, h5, h6⟩ := h.2 c hc
  simp [h2, h5, h6, UInt8.le_of_lt h1]

theorem name_key {k : Str} (h : Name k) : keyName k = true := by
  unfold keyName
  simp only [Bool.and_eq_true, decide_eq_true_eq, List.all_eq_true]
  refine ⟨⟨⟨by simpa using h.1, ?_⟩, ?_⟩, ?_⟩
  · intro c hc
    obtain ⟨h1, h2, h3, h4, h5, h6⟩ := h.2 c hc
    simp [h4, h5, h6]
  · intro hh
    have := (h.2 32 (List.mem_of_mem_head? hh)).1
    exact absurd this (by decide)
  · intro hh
    have := (h.2 32 (List.mem_of_mem_getLast? hh)).1
    exact absurd this (by decide)

end Notmuch.ConfigCmd
