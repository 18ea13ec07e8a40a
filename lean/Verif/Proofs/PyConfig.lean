import Verif.Spec.PyConfig
import Verif.Proofs.ConfigOpen

namespace Notmuch.PyConfig
open Notmuch.StringMap Notmuch.Config Notmuch.PyConfigSpec
open Notmuch.StringMapSpec (LexLe walk QSort)
open Notmuch.Props

theorem cstr_id {s : Str} (h : 0 ∉ s) : cstr s = s := by
  unfold cstr
  induction s with
  | nil => rfl
  | cons c s ih =>
    have hc : c ≠ 0 := fun e => h (e ▸ List.mem_cons_self ..)
    rw [List.takeWhile_cons_of_pos (by simpa using hc), ih (fun hm => h (List.mem_cons_of_mem _ hm))]

/-! ## Dictionaries -/

theorem look_mem {d : Dict} (h : Good d) (k v : Str) : look d k = some v ↔ (k, v) ∈ d := by
  obtain ⟨h1, h2⟩ := h
  induction d with
  | nil => simp [look]
  | cons x d ih =>
    have hx := (List.pairwise_cons.1 h1).1
    have ih := ih (List.pairwise_cons.1 h1).2 (fun y hy => h2 y (List.mem_cons_of_mem _ hy))
    unfold look at ih ⊢
    rw [List.find?_cons]
    by_cases hk : x.1 = k
    · simp only [hk, decide_true]
      constructor
      · intro h
        have : x.2 = v := by simpa using h
        rw [← hk, ← this]; exact List.mem_cons_self ..
      · intro h
        rcases List.mem_cons.1 h with h | h
        · rw [← h]; rfl
        · exact absurd hk (hx _ h).2
    · simp only [hk, decide_false]
      rw [ih]
      constructor
      · exact List.mem_cons_of_mem _
      · intro h
        rcases List.mem_cons.1 h with h | h
        · rw [← h] at hk; exact absurd rfl hk
        · exact h

theorem good_tail {x : Str × Str} {d : Dict} (h : Good (x :: d)) : Good d := ⟨(List.pairwise_cons.1 h.1).2, fun y hy => h.2 y (List.mem_cons_of_mem _ hy)⟩

theorem look_head_tail {x : Str × Str} {d : Dict} (h : Good (x :: d)) : look d x.1 = none := by
  cases hl : look d x.1 with
  | none => rfl
  | some v =>
    have := (look_mem (good_tail h) _ _).1 hl
    exact absurd rfl ((List.pairwise_cons.1 h.1).1 _ this).2

theorem look_tail_ne {x : Str × Str} {d : Dict} {k : Str} (hk : k ≠ x.1) : look (x :: d) k = look d k := by
  unfold look
  rw [List.find?_cons]
  have : decide (x.1 = k) = false := by simpa using fun e => hk e.symm
  rw [this]

theorem good_ext : ∀ {d d' : Dict}, Good d → Good d' → (∀ k, look d k = look d' k) → d = d' := by
  intro d
  induction d with
  | nil =>
    intro d' _ h' e
    cases d' with
    | nil => rfl
    | cons y d' =>
      have := e y.1
      rw [(look_mem h' y.1 y.2).2 (List.mem_cons_self ..)] at this
      cases this
  | cons x d ih =>
    intro d' h h' e
    cases d' with
    | nil =>
      have := e x.1
      rw [(look_mem h x.1 x.2).2 (List.mem_cons_self ..)] at this
      cases this
    | cons y d' =>
      have hxm : (x.1, x.2) ∈ y :: d' := (look_mem h' _ _).1 (by rw [← e]; exact (look_mem h _ _).2 (List.mem_cons_self ..))
      have hym : (y.1, y.2) ∈ x :: d := (look_mem h _ _).1 (by rw [e]; exact (look_mem h' _ _).2 (List.mem_cons_self ..))
      have hxy : x = y := by
        rcases List.mem_cons.1 hxm with hx | hx
        · exact hx
        · rcases List.mem_cons.1 hym with hy | hy
          · exact hy.symm
          · have a := (List.pairwise_cons.1 h.1).1 _ hy
            have b := (List.pairwise_cons.1 h'.1).1 _ hx
            exact absurd (lexLe_antisymm _ _ a.1 b.1) a.2
      subst hxy
      congr 1
      apply ih (good_tail h) (good_tail h')
      intro k
      by_cases hk : k = x.1
      · rw [hk, look_head_tail h, look_head_tail h']
      · have := e k
        rw [look_tail_ne hk, look_tail_ne hk] at this
        exact this

/-! ## The dictionary of a map -/

variable {qs : List Pair → List Pair}

/-- The items of the map. -/
def dict (qs : List Pair → List Pair) (m : Map) : Dict := (sort qs m).pairs.filter (fun p => p.2 ≠ [])

theorem sort_sort (m : Map) : sort qs (sort qs m) = sort qs m := by
  by_cases h0 : m.pairs.length = 0
  · have : sort qs m = m := by unfold sort; rw [if_pos h0]
    rw [this, this]
  · by_cases hs : m.sorted = true
    · have : sort qs m = m := by unfold sort; rw [if_neg h0, if_pos hs]
      rw [this, this]
    · have e : sort qs m = ⟨true, qs m.pairs⟩ := by unfold sort; rw [if_neg h0, if_neg hs]
      rw [e]
      unfold sort
      split
      · rfl
      · rfl

theorem dict_sort (m : Map) : dict qs (sort qs m) = dict qs m := by unfold dict; rw [sort_sort]

variable (hq : QSort cmppair qs)
include hq

theorem rep_sort {m : Map} {f : Str → Option Str} (h : Rep m f) : Rep (sort qs m) f := by
  obtain ⟨h1, h2, h3⟩ := h
  obtain ⟨s1, s2, s3⟩ := sort_spec hq h1
  exact ⟨s3, (s2.map _).nodup_iff.2 h2, fun k v => by rw [s2.mem_iff]; exact h3 k v⟩

theorem dict_good {m : Map} {f : Str → Option Str} (h : Rep m f) : Good (dict qs m) := by
  have hs := (sort_spec hq h.1).1
  have hn := (rep_sort hq h).2.1
  refine ⟨?_, fun x hx => by simpa using (List.mem_filter.1 hx).2⟩
  have : (sort qs m).pairs.Pairwise (fun a b => LexLe a.1 b.1 ∧ a.1 ≠ b.1) := by
    have hn' : (sort qs m).pairs.Pairwise (fun a b => a.1 ≠ b.1) := List.pairwise_map.1 hn
    exact hs.and hn'
  exact this.filter _

theorem dict_look {m : Map} {f : Str → Option Str} (h : Rep m f) (k v : Str) : look (dict qs m) k = some v ↔ f k = some v ∧ v ≠ [] := by
  rw [look_mem (dict_good hq h)]
  unfold dict
  rw [List.mem_filter, (rep_sort hq h).2.2 k v]
  simp

theorem dict_look_none {m : Map} {f : Str → Option Str} (h : Rep m f) (k : Str) : look (dict qs m) k = none ↔ f k = none ∨ f k = some [] := by
  constructor
  · intro hl
    cases hf : f k with
    | none => exact .inl rfl
    | some v =>
      right
      cases v with
      | nil => rfl
      | cons c t => rw [(dict_look hq h k (c :: t)).2 ⟨hf, by simp⟩] at hl; cases hl
  · intro hf
    cases hl : look (dict qs m) k with
    | none => rfl
    | some v =>
      have := (dict_look hq h k v).1 hl
      rcases hf with hf | hf
      · rw [hf] at this; cases this.1
      · rw [hf] at this; exact absurd (Option.some.inj this.1).symm this.2

/-! ## The operations -/

theorem getItem_spec {s : State} {f : Str → Option Str} (h : Rep s.map f) {k : Str} (hk : 0 ∉ k) :
    getItem qs s k = some ({ s with map := sort qs s.map }, look (dict qs s.map) k) := by
  obtain ⟨m', hg, _⟩ := rep_get hq h k
  obtain ⟨m2, r, hg2, hm2, _⟩ := smGet_spec hq h.1 k
  rw [hg] at hg2
  have e : m' = sort qs s.map := by
    have : (m', f k) = (m2, r) := Option.some.inj hg2
    rw [(Prod.mk.inj this).1, hm2]
  subst e
  unfold getItem
  rw [cstr_id hk, hg]
  dsimp only
  have key : notEmpty ((f k).getD []) = look (dict qs s.map) k := by
    cases hf : f k with
    | none => rw [(dict_look_none hq h k).2 (.inl hf)]; rfl
    | some v =>
      cases v with
      | nil => rw [(dict_look_none hq h k).2 (.inr hf)]; rfl
      | cons c t => rw [(dict_look hq h k (c :: t)).2 ⟨hf, by simp⟩]; rfl
  rw [key]

theorem setItem_spec {s : State} {f : Str → Option Str} (h : Rep s.map f) (hw : s.writable = true) {k v : Str} (hk : 0 ∉ k) (hv : 0 ∉ v) :
    ∃ s', setItem qs s k v = some (s', true) ∧ s'.writable = true ∧ Rep s'.map (put f k v) := by
  obtain ⟨m', hs, hr⟩ := rep_set hq h k v
  refine ⟨{ s with map := m', mdata := setMeta s.mdata k v }, ?_, hw, hr⟩
  unfold setItem
  rw [if_pos hw, cstr_id hk, cstr_id hv]
  unfold Config.setConfig
  rw [hs]
  rfl

theorem put_look {m m' : Map} {f : Str → Option Str} (h : Rep m f) {k v : Str} (h' : Rep m' (put f k v)) :
    look (dict qs m') k = (if v = [] then none else some v) ∧ ∀ k', k' ≠ k → look (dict qs m') k' = look (dict qs m) k' := by
  constructor
  · by_cases hv : v = []
    · rw [if_pos hv]
      exact (dict_look_none hq h' k).2 (.inr (by simp [put, hv]))
    · rw [if_neg hv]
      exact (dict_look hq h' k v).2 ⟨by simp [put], hv⟩
  · intro k' hk
    cases hl : look (dict qs m) k' with
    | none =>
      have := (dict_look_none hq h k').1 hl
      exact (dict_look_none hq h' k').2 (by simpa [put, hk] using this)
    | some w =>
      have := (dict_look hq h k' w).1 hl
      exact (dict_look hq h' k' w).2 ⟨by simpa [put, hk] using this.1, this.2⟩

omit hq in
theorem iterate_walk (m : Map) : ∀ (n : Nat) (it : Iter), iterate m n it = ((walk m n it).filter (fun p => p.2 ≠ [])).map (·.1) := by
  intro n
  induction n with
  | zero => intro it; rfl
  | succ n ih =>
    intro it
    unfold iterate walk
    cases iterPair m it with
    | none => rfl
    | some p =>
      dsimp only
      rw [List.filter_cons]
      by_cases hp : p.2 ≠ []
      · rw [if_pos hp, if_pos (by simpa using hp), List.map_cons, ih]
      · rw [if_neg hp, if_neg (by simpa using hp), ih]

theorem listKeys_spec {s : State} {f : Str → Option Str} (h : Rep s.map f) : listKeys qs s = some ({ s with map := sort qs s.map }, (dict qs s.map).map (·.1)) := by
  obtain ⟨h1, h2, h3⟩ := sort_spec hq h.1
  obtain ⟨c, hc, hn, hs⟩ := bsearchFirst_spec h1 (bs "") false
  have e : iterCreate qs s.map (bs "") false = some (sort qs s.map, ⟨c, false, bs ""⟩) := by simp [iterCreate, hc]
  unfold listKeys
  rw [e]
  dsimp only
  rw [iterate_walk]
  have hall : ∀ p : Pair, stringCmp (bs "") p.1 false = .eq := by
    intro p
    rw [stringCmp_eq]
    show bs "" <+: p.1
    exact List.nil_prefix
  have hw : walk (sort qs s.map) (sort qs s.map).pairs.length ⟨c, false, bs ""⟩ = (sort qs s.map).pairs := by
    cases c with
    | none =>
      have : (sort qs s.map).pairs = [] := by
        cases hp : (sort qs s.map).pairs with
        | nil => rfl
        | cons p l =>
          have := hn rfl p (by rw [hp]; exact List.mem_cons_self ..)
          rw [← stringCmp_eq] at this
          exact absurd (hall p) this
      rw [this]
      rfl
    | some i =>
      obtain ⟨p, hp, hmt, hb⟩ := hs i rfl
      rw [walk_eq _ _ _ _ i (by omega), ← filter_from_first h1 (bs "") false i hb]
      · exact List.filter_eq_self.2 (fun p _ => by simpa using hall p)
      · intro p' hp'
        exact hall p'
  rw [hw]
  rfl

omit hq in
/-- No key has a NUL. -/
def NoNul (f : Str → Option Str) : Prop := ∀ k, f k ≠ none → 0 ∉ k

omit hq in
theorem noNul_put {f : Str → Option Str} (h : NoNul f) {k : Str} (v : Str) (hk : 0 ∉ k) : NoNul (put f k v) := by
  intro x hx
  by_cases e : x = k
  · rw [e]; exact hk
  · exact h x (by simpa [put, e] using hx)

theorem popItem_nil {s : State} {f : Str → Option Str} (h : Rep s.map f) (hd : dict qs s.map = []) : popItem qs s = some ({ s with map := sort qs s.map }, .keyError) := by
  unfold popItem
  rw [listKeys_spec hq h, hd]
  rfl

theorem popItem_cons {s : State} {f : Str → Option Str} (h : Rep s.map f) (hn : NoNul f) {k v : Str} {d : Dict} (hd : dict qs s.map = (k, v) :: d) :
    (s.writable = false → popItem qs s = some ({ s with map := sort qs s.map }, .notmuchError)) ∧
    (s.writable = true → ∃ s' f', popItem qs s = some (s', .item k v) ∧ s'.writable = true ∧ Rep s'.map f' ∧ NoNul f' ∧ dict qs s'.map = d) := by
  have hg := dict_good hq h
  rw [hd] at hg
  have hl : look (dict qs s.map) k = some v := (look_mem (dict_good hq h) k v).2 (by rw [hd]; exact List.mem_cons_self ..)
  have hk : 0 ∉ k := hn k (by rw [((dict_look hq h k v).1 hl).1]; simp)
  have hsr : Rep (sort qs s.map) f := rep_sort hq h
  have hget : getItem qs { s with map := sort qs s.map } k = some ({ s with map := sort qs s.map }, some v) := by
    rw [getItem_spec hq (s := { s with map := sort qs s.map }) hsr hk]
    dsimp only
    rw [sort_sort, dict_sort, hl]
  constructor
  · intro hw
    unfold popItem
    rw [listKeys_spec hq h, hd]
    rw [List.map_cons]
    dsimp only
    rw [hget]
    dsimp only
    unfold delItem setItem
    rw [if_neg (by simp [hw])]
    rfl
  · intro hw
    obtain ⟨s', h1, h2, h3⟩ := setItem_spec hq (s := { s with map := sort qs s.map }) hsr hw hk (v := []) (by simp)
    refine ⟨s', put f k [], ?_, h2, h3, noNul_put hn _ hk, ?_⟩
    · unfold popItem
      rw [listKeys_spec hq h, hd]
      rw [List.map_cons]
      dsimp only
      rw [hget]
      dsimp only
      unfold delItem
      rw [h1]
      rfl
    · obtain ⟨l1, l2⟩ := put_look hq hsr h3
      rw [if_pos rfl] at l1
      apply good_ext (dict_good hq h3) (good_tail hg)
      intro x
      by_cases hx : x = k
      · rw [hx, l1]; exact (look_head_tail hg).symm
      · rw [l2 x hx, dict_sort, hd]; exact look_tail_ne hx

theorem clear_spec : ∀ (n : Nat) (s : State) (f : Str → Option Str), Rep s.map f → NoNul f → s.writable = true → (dict qs s.map).length < n →
    ∃ s' f', clear qs n s = some (s', .done) ∧ s'.writable = true ∧ Rep s'.map f' ∧ NoNul f' ∧ dict qs s'.map = [] := by
  intro n
  induction n with
  | zero => intro _ _ _ _ _ h; omega
  | succ n ih =>
    intro s f h hn hw hlt
    unfold clear
    cases hd : dict qs s.map with
    | nil =>
      rw [popItem_nil hq h hd]
      exact ⟨_, f, rfl, hw, rep_sort hq h, hn, by rw [dict_sort]; exact hd⟩
    | cons x d =>
      obtain ⟨s', f', e, w, r, nn, hd'⟩ := (popItem_cons hq h hn (k := x.1) (v := x.2) hd).2 hw
      rw [e]
      dsimp only
      exact ih s' f' r nn w (by rw [hd'] ; rw [hd] at hlt; simp at hlt; omega)

theorem step_spec {s : State} {f : Str → Option Str} (h : Rep s.map f) (hn : NoNul f) (o : Op) (ho : OpOk o) :
    ∃ s' r f', step qs s o = some (s', r) ∧ s'.writable = s.writable ∧ Rep s'.map f' ∧ NoNul f' ∧ Does s.writable (dict qs s.map) o (dict qs s'.map) r := by
  have hsr := rep_sort hq h
  cases o with
  | get k =>
    have e := getItem_spec hq h (k := k) ho
    cases hl : look (dict qs s.map) k with
    | none => exact ⟨{ s with map := sort qs s.map }, .keyError, f, by simp [step, e, hl], rfl, hsr, hn, by dsimp only; rw [dict_sort]; exact .getNone hl⟩
    | some v => exact ⟨{ s with map := sort qs s.map }, .value v, f, by simp [step, e, hl], rfl, hsr, hn, by dsimp only; rw [dict_sort]; exact .get hl⟩
  | contains k =>
    have e := getItem_spec hq h (k := k) ho
    exact ⟨{ s with map := sort qs s.map }, .bool (look (dict qs s.map) k).isSome, f, by simp [step, e], rfl, hsr, hn, by dsimp only; rw [dict_sort]; exact .contains⟩
  | set k v =>
    cases hw : s.writable with
    | false => exact ⟨s, .notmuchError, f, by simp [step, setItem, hw], hw, h, hn, .setError⟩
    | true =>
      obtain ⟨s', e, w, r⟩ := setItem_spec hq h hw ho.1 ho.2
      obtain ⟨l1, l2⟩ := put_look hq h r
      refine ⟨s', .done, put f k v, by simp [step, e], w, r, noNul_put hn _ ho.1, ?_⟩
      by_cases hv : v = []
      · subst hv
        rw [if_pos rfl] at l1
        exact .setEmpty (dict_good hq r) l1 l2
      · rw [if_neg hv] at l1
        exact .set hv (dict_good hq r) l1 l2
  | del k =>
    cases hw : s.writable with
    | false => exact ⟨s, .notmuchError, f, by simp [step, delItem, setItem, hw], hw, h, hn, .delError⟩
    | true =>
      obtain ⟨s', e, w, r⟩ := setItem_spec hq h hw (k := k) ho (v := []) (by simp)
      obtain ⟨l1, l2⟩ := put_look hq h r
      rw [if_pos rfl] at l1
      exact ⟨s', .done, put f k [], by simp [step, delItem, e], w, r, noNul_put hn _ ho, .del (dict_good hq r) l1 l2⟩
  | keys => exact ⟨{ s with map := sort qs s.map }, _, f, by simp only [step, listKeys_spec hq h, Option.map_some]; rfl, rfl, hsr, hn, by dsimp only; rw [dict_sort]; exact .keys⟩
  | len =>
    refine ⟨{ s with map := sort qs s.map }, .number (dict qs s.map).length, f, by simp [step, listKeys_spec hq h], rfl, hsr, hn, ?_⟩
    dsimp only
    rw [dict_sort]
    exact .len
  | popitem =>
    cases hd : dict qs s.map with
    | nil =>
      refine ⟨{ s with map := sort qs s.map }, .keyError, f, popItem_nil hq h hd, rfl, hsr, hn, ?_⟩
      dsimp only
      rw [dict_sort, hd]
      exact .popNone
    | cons x d =>
      obtain ⟨h1, h2⟩ := popItem_cons hq h hn (k := x.1) (v := x.2) hd
      cases hw : s.writable with
      | false =>
        refine ⟨{ s with map := sort qs s.map }, .notmuchError, f, h1 hw, hw, hsr, hn, ?_⟩
        dsimp only
        rw [dict_sort, hd]
        exact .popError
      | true =>
        obtain ⟨s', f', e, w, r, nn, hd'⟩ := h2 hw
        refine ⟨s', .item x.1 x.2, f', e, w, r, nn, ?_⟩
        rw [hd']
        exact .popitem
  | clear =>
    cases hw : s.writable with
    | true =>
      have hle : (dict qs s.map).length < s.map.pairs.length + 1 := by
        have h1 : (dict qs s.map).length ≤ (sort qs s.map).pairs.length := List.length_filter_le _ _
        rw [(sort_spec hq h.1).2.1.length_eq] at h1
        omega
      obtain ⟨s', f', e, w, r, nn, hd'⟩ := clear_spec hq _ s f h hn hw hle
      refine ⟨s', .done, f', e, w, r, nn, ?_⟩
      rw [hd']
      exact .clear
    | false =>
      cases hd : dict qs s.map with
      | nil =>
        refine ⟨{ s with map := sort qs s.map }, .done, f, ?_, hw, hsr, hn, ?_⟩
        · show clear qs (s.map.pairs.length + 1) s = _
          unfold clear
          rw [popItem_nil hq h hd]
        · dsimp only
          rw [dict_sort, hd]
          exact .clearNone
      | cons x d =>
        refine ⟨{ s with map := sort qs s.map }, .notmuchError, f, ?_, hw, hsr, hn, ?_⟩
        · show clear qs (s.map.pairs.length + 1) s = _
          unfold clear
          rw [(popItem_cons hq h hn (k := x.1) (v := x.2) hd).1 hw]
        · dsimp only
          rw [dict_sort, hd]
          exact .clearError

theorem run_spec : ∀ (os : List Op) (s : State) (f : Str → Option Str), Rep s.map f → NoNul f → (∀ o ∈ os, OpOk o) →
    ∃ s' rs, run qs s os = some (s', rs) ∧ Runs s.writable (dict qs s.map) os (dict qs s'.map) rs := by
  intro os
  induction os with
  | nil => intro s f _ _ _; exact ⟨s, [], rfl, .nil⟩
  | cons o os ih =>
    intro s f h hn ho
    obtain ⟨s', r, f', e, w, hr, nn, hd⟩ := step_spec hq h hn o (ho o (List.mem_cons_self ..))
    obtain ⟨s'', rs, e2, h2⟩ := ih s' f' hr nn (fun x hx => ho x (List.mem_cons_of_mem _ hx))
    refine ⟨s'', r :: rs, ?_, .cons hd (by rw [← w]; exact h2)⟩
    unfold run
    rw [e]
    dsimp only
    rw [e2]
    rfl

end Notmuch.PyConfig
