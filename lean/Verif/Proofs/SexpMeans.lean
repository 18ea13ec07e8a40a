import Verif.Proofs.Sexp

namespace Notmuch.Sexp

open Notmuch.StringUtil (stripTrailing)

variable {c : Ctx}

theorem means_congr {π : Place} {e : Env} {sx : Sexp} {S S' : Doc → Prop} (h : Means c π e sx S) (hs : ∀ d, S d ↔ S' d) : Means c π e sx S' := by
  have : S = S' := funext (fun d => propext (hs d))
  exact this ▸ h

theorem fieldList_names : ∀ n, (n ∈ phraseFields ∨ n ∈ termFields) ↔ ∃ p ∈ prefixes.filter (fun p => p.flags.contains .field), p.name = n := by
  have h1 : ∀ n ∈ phraseFields ++ termFields, n ∈ (prefixes.filter (fun p => p.flags.contains .field)).map (·.name) := by decide +kernel
  have h2 : ∀ n ∈ (prefixes.filter (fun p => p.flags.contains .field)).map (·.name), n ∈ phraseFields ++ termFields := by decide +kernel
  intro n
  rw [← List.mem_append]
  constructor
  · intro h
    exact List.mem_map.1 (h1 n h)
  · intro h
    exact h2 n (List.mem_map.2 h)

/-- What an atom makes, in all cases. -/
theorem atom_sound {parent : Option Prefix} {π : Place} (hr : Rel parent π) {e : Env} {q : Bool} {v : Str} (hp : param (.atom q v) = none) {qu : Query}
    (h : evalAtom c parent q v = .ok qu) : Means c π e (.atom q v) (fun d => qu.holds c d = true) := by
  unfold evalAtom at h
  by_cases hs : q = false ∧ v = bs "*"
  · rw [if_pos (by simp [hs.1, hs.2])] at h
    obtain ⟨h1, h2⟩ := (wildcard_holds hr [] qu).1 h
    rw [hs.1, hs.2]
    exact means_congr (.star h1) (fun d => (h2 d).symm)
  · have hs' : q = true ∨ v ≠ bs "*" := by
      cases q
      · right; intro hv; exact hs ⟨rfl, hv⟩
      · left; rfl
    rw [if_neg (by cases q <;> simp_all)] at h
    cases hr with
    | top =>
      simp only at h
      cases h
      refine means_congr (.anywhere hp hs') (fun d => ?_)
      rw [holds_fold_fields]
      simp only [Query.holds, Bool.false_eq_true, false_or, oneTerm_holds]
      constructor
      · rintro ⟨n, hn, ht⟩
        obtain ⟨p, hpm, hpn⟩ := (fieldList_names n).1 hn
        exact ⟨p, hpm, by rw [hpn]; exact ht⟩
      · rintro ⟨p, hpm, ht⟩
        exact ⟨p.name, (fieldList_names _).2 ⟨p, hpm, rfl⟩, ht⟩
    | @field n hn =>
      obtain ⟨_, _, _, hb, hpn⟩ := fieldP_flags n hn
      have hname := (fieldP_facts n hn).2.1
      simp only [hb, hpn, hname] at h
      by_cases ht : n ∈ termFields
      · rw [if_pos (by simpa using ht)] at h
        cases h
        refine means_congr (.exact hp hs' ht) (fun d => ?_)
        simp only [Query.holds, List.contains_iff_mem, decide_eq_true_eq]
      · have hph : n ∈ phraseFields := (List.mem_append.1 hn).resolve_right ht
        rw [if_neg (by simpa using ht)] at h
        have := (phrase_facts n hph).2.2
        simp only [this, decide_false, Bool.false_eq_true, if_false] at h
        cases h
        exact means_congr (.words hp hs' hph) (fun d => (oneTerm_holds _ _ _ _ _).symm)
    | @user n =>
      have h : Res.ok (oneTerm c (c.termPrefix n) q v) = .ok qu := h
      cases h
      exact means_congr (.userWords hp hs') (fun d => (oneTerm_holds _ _ _ _ _).symm)

theorem atom_complete {parent : Option Prefix} {π : Place} (hr : Rel parent π) {q : Bool} {v : Str} (hw : q = false ∧ v = bs "*" → π.wildcards) :
    ∃ qu, evalAtom c parent q v = .ok qu := by
  unfold evalAtom
  by_cases hs : q = false ∧ v = bs "*"
  · rw [if_pos (by simp [hs.1, hs.2])]
    exact (wildcard_holds hr [] .all).2 (hw hs)
  · rw [if_neg (by cases q <;> simp_all)]
    cases hr with
    | top => exact ⟨_, rfl⟩
    | field hn =>
      simp only
      split <;> exact ⟨_, rfl⟩
    | user => exact ⟨oneTerm c _ q v, rfl⟩

/-! ## Ranges -/

theorem starEmpty_iff (s : Str) : starEmpty s = [] ↔ noBound s := by
  unfold starEmpty noBound
  split
  · simp [*]
  · simp [*]

theorem starEmpty_of {s : Str} (h : ¬ noBound s) : starEmpty s = s := by
  unfold starEmpty
  rw [if_neg (fun h' => h (Or.inl h'))]

theorem starEmpty_bang (s : Str) : starEmpty s = bs "!" ↔ s = bs "!" := by
  unfold starEmpty
  split
  · rename_i h
    rw [h]
    decide +kernel
  · exact Iff.rfl

theorem ite_bound {a : Str} {p q : Prop} : (if noBound a then p else q) ↔ (noBound a ∧ p) ∨ (¬ noBound a ∧ q) := by
  by_cases h : noBound a
  · rw [if_pos h]; simp [h]
  · rw [if_neg h]; simp [h]

theorem date_range (a b : Str) : (DatesUnderstood c a b ↔ ∃ q, dateRange c (starEmpty a) (starEmpty b) = .ok q) ∧
    ∀ q, dateRange c (starEmpty a) (starEmpty b) = .ok q → ∀ d, q.holds c d = true ↔ InDates c a b d := by
  unfold dateRange DatesUnderstood InDates
  simp only [ite_bound]
  by_cases ha : noBound a
  · have ha' := (starEmpty_iff a).2 ha
    simp only [ha', if_true, ne_eq, not_true_eq_false, and_false, if_false, ha, true_or, true_and]
    by_cases hb : noBound b
    · have hb' := (starEmpty_iff b).2 hb
      simp only [hb', if_true, hb, true_or, true_iff, and_true]
      refine ⟨⟨_, rfl⟩, ?_⟩
      intro q hq d
      cases hq
      simp [Query.holds]
      omega
    · have hb' := starEmpty_of hb
      have hb2 : b ≠ [] := fun h => hb (Or.inr h)
      rw [hb']
      simp only [hb2, if_false, hb, false_or]
      cases hd : c.date b true with
      | none => simp
      | some t =>
        refine ⟨by simp, ?_⟩
        intro q hq d
        cases hq
        simp [Query.holds]
        omega
  · have ha' := starEmpty_of ha
    have ha2 : a ≠ [] := fun h => ha (Or.inr h)
    rw [ha']
    simp only [ha2, if_false, ne_eq, not_false_eq_true, and_true, ha, false_or]
    cases hda : c.date a false with
    | none => simp
    | some s =>
      by_cases hb : noBound b
      · have hb' := (starEmpty_iff b).2 hb
        simp only [hb', if_true, hb, true_or, and_true]
        refine ⟨by simp, ?_⟩
        intro q hq d
        cases hq
        simp [Query.holds]
      · have hb' := starEmpty_of hb
        have hb2 : b ≠ [] := fun h => hb (Or.inr h)
        rw [hb']
        simp only [hb2, if_false, hb, false_or]
        cases hd : c.date (if b = bs "!" then a else b) true with
        | none => simp
        | some t =>
          refine ⟨by simp, ?_⟩
          intro q hq d
          cases hq
          simp [Query.holds]

theorem lastmod_range (a b : Str) : (RevisionsUnderstood a b ↔ ∃ q, lastmodRange c (starEmpty a) (starEmpty b) = .ok q) ∧
    ∀ q, lastmodRange c (starEmpty a) (starEmpty b) = .ok q → ∀ d, q.holds c d = true ↔ InRevisions c a b d := by
  unfold lastmodRange RevisionsUnderstood InRevisions
  simp only [ite_bound]
  have h0 : relative c 0 = 0 := rfl
  by_cases ha : noBound a
  · have ha' := (starEmpty_iff a).2 ha
    simp only [ha', if_true, ha, true_or, true_and]
    by_cases hb : noBound b
    · have hb' := (starEmpty_iff b).2 hb
      simp only [hb', if_true, hb, true_or, true_iff, and_true]
      refine ⟨⟨_, rfl⟩, ?_⟩
      intro q hq d
      cases hq
      simp [Query.holds, h0]
    · have hb' := starEmpty_of hb
      have hb2 : b ≠ [] := fun h => hb (Or.inr h)
      rw [hb']
      simp only [hb2, if_false, hb, false_or]
      cases hd : stol b with
      | none => simp
      | some t =>
        refine ⟨by simp, ?_⟩
        intro q hq d
        cases hq
        simp [Query.holds, h0, relative]
  · have ha' := starEmpty_of ha
    have ha2 : a ≠ [] := fun h => ha (Or.inr h)
    rw [ha']
    simp only [ha2, if_false, ha, false_or]
    cases hda : stol a with
    | none => simp
    | some s =>
      by_cases hb : noBound b
      · have hb' := (starEmpty_iff b).2 hb
        simp only [hb', if_true, hb, true_or, and_true]
        refine ⟨by simp, ?_⟩
        intro q hq d
        cases hq
        simp [Query.holds, relative]
        exact decide_eq_true_iff
      · have hb' := starEmpty_of hb
        have hb2 : b ≠ [] := fun h => hb (Or.inr h)
        rw [hb']
        simp only [hb2, if_false, hb, false_or]
        cases hd : stol b with
        | none => simp
        | some t =>
          refine ⟨by simp, ?_⟩
          intro q hq d
          cases hq
          simp [Query.holds, relative]
          exact fun _ => decide_eq_true_iff

end Notmuch.Sexp
