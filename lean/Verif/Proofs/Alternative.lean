import Verif.Spec.Alternative

namespace Notmuch.AlternativeProofs
open Notmuch.Alternative Notmuch.AlternativeSpec

variable {τ : Type} [DecidableEq τ]

theorem filter_no (p : τ → Bool) (e : τ) (he : p e = true) (l : List τ) :
    (l.filter fun x => decide (x ≠ e)).filter (fun x => !p x) = l.filter fun x => !p x := by
  rw [List.filter_filter]
  refine List.filter_congr ?_
  intro x _
  by_cases h : x = e
  · subst h; simp [he]
  · simp [h]

theorem moveAll_aux (p : τ → Bool) : ∀ (copy A B : List τ), (∀ x ∈ A, p x = true → x ∈ copy) → (∀ x ∈ B, p x = true) →
    (∀ x ∈ copy, x ∈ A ∨ x ∈ B) →
    ∃ B', moveAll p copy (A ++ B) = (A.filter fun x => !p x) ++ B' ∧ (∀ x ∈ B', p x = true) ∧ (∀ x, x ∈ B' ↔ (x ∈ A ∨ x ∈ B) ∧ p x = true) ∧
      ((copy ++ B).Nodup → B' = B ++ copy.filter p) ∧ B'.Sublist (B ++ copy.filter p)
  | [], A, B, hA, hB, _ => by
    refine ⟨B, ?_, hB, ?_, ?_, by simp⟩
    · unfold moveAll
      rw [List.filter_eq_self.2]
      intro x hx
      cases h : p x with
      | false => rfl
      | true => cases hA x hx h
    · intro x
      constructor
      · intro h; exact ⟨Or.inr h, hB x h⟩
      · rintro ⟨h | h, hp⟩
        · cases hA x h hp
        · exact h
    · intro _; simp
  | e :: copy, A, B, hA, hB, hC => by
    unfold moveAll
    cases he : p e with
    | false =>
      simp only [Bool.false_eq_true, if_false]
      obtain ⟨B', h1, h2, h3, h4, h5⟩ := moveAll_aux p copy A B (fun x hx hp => by
        rcases List.mem_cons.1 (hA x hx hp) with rfl | h
        · rw [he] at hp; cases hp
        · exact h) hB (fun x hx => hC x (List.mem_cons_of_mem _ hx))
      refine ⟨B', h1, h2, h3, ?_, by rw [List.filter_cons_of_neg (by rw [he]; simp)]; exact h5⟩
      intro hn
      rw [h4 (List.nodup_cons.1 hn).2, List.filter_cons_of_neg (by rw [he]; simp)]
    | true =>
      simp only [if_true]
      rw [List.filter_append, List.append_assoc]
      obtain ⟨B', h1, h2, h3, h4, h5⟩ := moveAll_aux p copy (A.filter fun x => decide (x ≠ e)) ((B.filter fun x => decide (x ≠ e)) ++ [e])
        (by
          intro x hx hp
          have := List.mem_filter.1 hx
          rcases List.mem_cons.1 (hA x this.1 hp) with h | h
          · subst h; simp at this
          · exact h)
        (by
          intro x hx
          rcases List.mem_append.1 hx with h | h
          · exact hB x (List.mem_filter.1 h).1
          · rw [List.mem_singleton.1 h]; exact he)
        (by
          intro x hx
          by_cases h : x = e
          · right; simp [h]
          · rcases hC x (List.mem_cons_of_mem _ hx) with h' | h'
            · left; exact List.mem_filter.2 ⟨h', by simp [h]⟩
            · right; exact List.mem_append_left _ (List.mem_filter.2 ⟨h', by simp [h]⟩))
      refine ⟨B', ?_, h2, ?_, ?_, ?_⟩
      · rw [h1, filter_no p e he]
      · intro x
        rw [h3 x]
        by_cases h : x = e
        · subst h
          simp only [he, and_true]
          have := hC x (List.mem_cons_self ..)
          simp [this]
        · simp [h]
      · intro hn
        rw [List.cons_append, List.nodup_cons] at hn
        have eB : B.filter (fun x => decide (x ≠ e)) = B := by
          rw [List.filter_eq_self]
          intro x hx
          refine decide_eq_true ?_
          intro h
          subst h
          exact hn.1 (List.mem_append_right _ hx)
        rw [h4 ?_, eB, List.filter_cons_of_pos he]
        · simp
        · rw [eB]
          have := hn.2
          rw [← List.append_assoc, List.nodup_append]
          refine ⟨this, by simp, ?_⟩
          intro a ha b hb hab
          rw [List.mem_singleton.1 hb] at hab
          subst hab
          exact hn.1 ha
      · refine h5.trans ?_
        rw [List.filter_cons_of_pos he, List.append_assoc]
        exact List.Sublist.append List.filter_sublist (List.Sublist.refl _)

/-- One preference: what does not match stays as it is, what matches comes after. -/
theorem moveAll_spec (p : τ → Bool) (S : List τ) :
    ∃ B, moveAll p S S = (S.filter fun x => !p x) ++ B ∧ (∀ x ∈ B, p x = true) ∧ (∀ x, x ∈ B ↔ x ∈ S ∧ p x = true) ∧ (S.Nodup → B = S.filter p) ∧
      B.Sublist (S.filter p) := by
  obtain ⟨B, h1, h2, h3, h4, h5⟩ := moveAll_aux p S S [] (fun x hx _ => hx) (fun _ h => by cases h) (fun x hx => Or.inl hx)
  rw [List.append_nil] at h1 h4
  refine ⟨B, h1, h2, ?_, ?_, h5⟩
  · intro x; rw [h3]; simp
  · intro hn; rw [h4 hn]; rfl

theorem choose_cons (p : τ → Bool) (ps : List (τ → Bool)) (types : List τ) : choose (p :: ps) types = moveAll p (choose ps types) (choose ps types) := by
  unfold choose
  rw [List.reverse_cons, List.foldl_append]
  rfl

theorem mem_choose : ∀ (ps : List (τ → Bool)) (types : List τ) (x : τ), x ∈ choose ps types ↔ x ∈ types
  | [], _, _ => Iff.rfl
  | p :: ps, types, x => by
    rw [choose_cons]
    obtain ⟨B, h1, h2, h3, _⟩ := moveAll_spec p (choose ps types)
    rw [h1, List.mem_append, h3, List.mem_filter, mem_choose ps types]
    cases p x <;> simp

omit [DecidableEq τ] in
theorem cost_lt : ∀ (ps : List (τ → Bool)) (t : τ), cost ps t < 2 ^ ps.length
  | [], _ => Nat.one_pos
  | p :: ps, t => by
    have := cost_lt ps t
    unfold cost
    rw [List.length_cons, Nat.pow_succ]
    split <;> omega

theorem choose_sorted : ∀ (ps : List (τ → Bool)) (types : List τ), (choose ps types).Pairwise fun a b => cost ps a ≤ cost ps b
  | [], types => by
    induction (choose ([] : List (τ → Bool)) types) with
    | nil => exact List.Pairwise.nil
    | cons x l ih => exact List.Pairwise.cons (fun _ _ => Nat.le_refl _) ih
  | p :: ps, types => by
    have ih := choose_sorted ps types
    rw [choose_cons]
    obtain ⟨B, h1, h2, h3, _, h5⟩ := moveAll_spec p (choose ps types)
    rw [h1, List.pairwise_append]
    refine ⟨?_, ?_, ?_⟩
    · refine (ih.sublist List.filter_sublist).imp_of_mem ?_
      intro a b ha hb h
      have ha := (List.mem_filter.1 ha).2
      have hb := (List.mem_filter.1 hb).2
      rw [Bool.not_eq_true'] at ha hb
      simpa [cost, ha, hb] using h
    · refine (ih.sublist (h5.trans List.filter_sublist)).imp_of_mem ?_
      intro a b ha hb h
      simpa [cost, h2 a ha, h2 b hb] using h
    · intro a ha b hb
      have ha := (List.mem_filter.1 ha).2
      rw [Bool.not_eq_true'] at ha
      have := cost_lt ps a
      simp only [cost, ha, h2 b hb, Bool.false_eq_true, if_false, if_true]
      omega

theorem choose_nodup : ∀ (ps : List (τ → Bool)) (types : List τ), types.Nodup → (choose ps types).Nodup
  | [], _, h => h
  | p :: ps, types, h => by
    have ih := choose_nodup ps types h
    rw [choose_cons]
    obtain ⟨B, h1, h2, h3, h4, _⟩ := moveAll_spec p (choose ps types)
    rw [h1, List.nodup_append]
    refine ⟨ih.sublist List.filter_sublist, ?_, ?_⟩
    · rw [h4 ih]; exact ih.sublist List.filter_sublist
    · intro a ha b hb e
      subst e
      have := (List.mem_filter.1 ha).2
      rw [h2 a hb] at this
      cases this

/-- Among equals nothing is moved. -/
theorem choose_stable : ∀ (ps : List (τ → Bool)) (types : List τ) (k : Nat), (k = 0 ∨ types.Nodup) →
    (choose ps types).filter (fun x => cost ps x == k) = types.filter fun x => cost ps x == k
  | [], _, _, _ => rfl
  | p :: ps, types, k, hk => by
    rw [choose_cons]
    obtain ⟨B, h1, h2, h3, h4, _⟩ := moveAll_spec p (choose ps types)
    rw [h1, List.filter_append]
    by_cases hl : k < 2 ^ ps.length
    · have e1 : B.filter (fun x => cost (p :: ps) x == k) = [] := by
        rw [List.filter_eq_nil_iff]
        intro x hx
        simp only [cost, h2 x hx, if_true, beq_iff_eq]
        omega
      have e2 : ∀ l : List τ, (l.filter fun x => !p x).filter (fun x => cost (p :: ps) x == k) = (l.filter fun x => cost ps x == k).filter fun x => !p x := by
        intro l
        rw [List.filter_filter, List.filter_filter]
        refine List.filter_congr ?_
        intro x _
        cases hp : p x <;> simp [cost, hp]
      have e3 : types.filter (fun x => cost (p :: ps) x == k) = (types.filter fun x => !p x).filter (fun x => cost (p :: ps) x == k) := by
        rw [List.filter_filter]
        refine List.filter_congr ?_
        intro x _
        cases hp : p x
        · simp
        · have : (cost (p :: ps) x == k) = false := by
            rw [beq_eq_false_iff_ne]
            simp only [cost, hp, if_true]
            omega
          rw [this]; rfl
      rw [e1, List.append_nil, e3, e2, e2, choose_stable ps types k hk]
    · have hn : types.Nodup := by
        rcases hk with h | h
        · subst h
          exact absurd (Nat.two_pow_pos ps.length) hl
        · exact h
      have e1 : ((choose ps types).filter fun x => !p x).filter (fun x => cost (p :: ps) x == k) = [] := by
        rw [List.filter_eq_nil_iff]
        intro x hx
        have := (List.mem_filter.1 hx).2
        rw [Bool.not_eq_true'] at this
        have := cost_lt ps x
        simp only [cost, *, Bool.false_eq_true, if_false, beq_iff_eq]
        omega
      have e2 : ∀ l : List τ, (l.filter p).filter (fun x => cost (p :: ps) x == k) = (l.filter fun x => cost ps x == k - 2 ^ ps.length).filter p := by
        intro l
        rw [List.filter_filter, List.filter_filter]
        refine List.filter_congr ?_
        intro x _
        cases hp : p x
        · simp
        · simp only [cost, hp, if_true, Bool.and_true, Bool.true_and]
          rw [Bool.eq_iff_iff, beq_iff_eq, beq_iff_eq]
          omega
      have e3 : types.filter (fun x => cost (p :: ps) x == k) = (types.filter p).filter (fun x => cost (p :: ps) x == k) := by
        rw [List.filter_filter]
        refine List.filter_congr ?_
        intro x _
        cases hp : p x
        · have : (cost (p :: ps) x == k) = false := by
            rw [beq_eq_false_iff_ne]
            have := cost_lt ps x
            simp only [cost, hp, Bool.false_eq_true, if_false]
            omega
          rw [this]; rfl
        · simp
      rw [e1, List.nil_append, h4 (choose_nodup ps types hn), e2, e3, e2, choose_stable ps types _ (Or.inr hn)]

end Notmuch.AlternativeProofs
