import Verif.Model.ElFilter

namespace Notmuch.ElFilter.Proofs
open Notmuch.ElFilter

variable {M : Type} {den : String → M → Bool}

theorem step_app (f : Frame M) (fs st : List (Frame M)) (t : Tok) (fs' : List (Frame M)) (h : step den (f :: fs) t = some fs') :
    fs' ≠ [] ∧ step den (f :: (fs ++ st)) t = some (fs' ++ st) := by
  cases t with
  | term s => simp only [step, Option.some.injEq] at h ⊢; subst h; simp
  | opAnd => simp only [step, Option.map_eq_some_iff] at h ⊢; obtain ⟨v, h1, rfl⟩ := h; exact ⟨by simp, v, h1, rfl⟩
  | opXor => simp only [step, Option.map_eq_some_iff] at h ⊢; obtain ⟨v, h1, rfl⟩ := h; exact ⟨by simp, v, h1, rfl⟩
  | opOr => simp only [step, Option.map_eq_some_iff] at h ⊢; obtain ⟨v, h1, rfl⟩ := h; exact ⟨by simp, v, h1, rfl⟩
  | lpar => simp only [step, Option.some.injEq] at h ⊢; subst h; simp
  | star => simp [step] at h
  | rpar =>
    cases fs with
    | nil => simp [step] at h
    | cons f' fs =>
      simp only [step, List.cons_append, Option.map_eq_some_iff] at h ⊢
      obtain ⟨v, h1, rfl⟩ := h
      exact ⟨by simp, v, h1, rfl⟩
  | opNot =>
    simp only [step] at h ⊢
    cases hg : f.g with
    | some g =>
      simp only [hg, Option.map_eq_some_iff] at h ⊢
      obtain ⟨v, h1, rfl⟩ := h
      exact ⟨by simp, v, h1, rfl⟩
    | none =>
      simp only [hg] at h ⊢
      cases ha : f.a with
      | none => simp only [ha, Option.some.injEq] at h ⊢; subst h; simp
      | some a =>
        simp only [ha] at h ⊢
        by_cases hn : f.neg = true
        · rw [if_pos hn] at h; cases h
        · rw [if_neg hn] at h ⊢
          simp only [Option.some.injEq] at h ⊢; subst h; simp

theorem run_app (st : List (Frame M)) : ∀ (q : List Tok) (fs fs' : List (Frame M)), fs ≠ [] → run den fs q = some fs' →
    run den (fs ++ st) q = some (fs' ++ st) := by
  intro q
  induction q with
  | nil => intro fs fs' _ h; simp only [run, Option.some.injEq] at h ⊢; rw [h]
  | cons t ts ih =>
    intro fs fs' hne h
    cases fs with
    | nil => exact absurd rfl hne
    | cons f fs =>
      simp only [run, Option.bind_eq_some_iff] at h
      obtain ⟨fs1, h1, h2⟩ := h
      obtain ⟨h3, h4⟩ := step_app f fs st t fs1 h1
      simp only [run, List.cons_append, h4, Option.bind_some]
      exact ih fs1 fs' h3 h2

theorem run_concat : ∀ (a b : List Tok) (fs : List (Frame M)), run den fs (a ++ b) = (run den fs a).bind fun fs' => run den fs' b := by
  intro a b
  induction a with
  | nil => intro fs; rfl
  | cons t ts ih =>
    intro fs
    simp only [List.cons_append, run]
    cases step den fs t with
    | none => rfl
    | some fs' => simp [ih]

theorem eval_run {q : List Tok} {A : M → Bool} (h1 : q ≠ []) (h2 : q ≠ [.star]) (h : eval den q = some A) :
    ∃ f, run den [fresh] q = some [f] ∧ closeO f = some A := by
  rw [eval, if_neg (by simp [h1, h2])] at h
  split at h
  · rename_i f hf; exact ⟨f, hf, h⟩
  · cases h

theorem eval_of_run {q : List Tok} {f : Frame M} (h1 : q ≠ []) (h2 : q ≠ [.star]) (h : run den [fresh] q = some [f]) : eval den q = closeO f := by
  rw [eval, if_neg (by simp [h1, h2]), h]

theorem run_parens {q : List Tok} {f : Frame M} {A : M → Bool} (h : run den [fresh] q = some [f]) (hA : closeO f = some A) (f0 : Frame M)
    (st : List (Frame M)) : run den (f0 :: st) (.lpar :: q ++ [.rpar]) = some ({ f0 with g := some (addG f0.g A) } :: st) := by
  have h1 := run_app (f0 :: st) q [fresh] [f] (by simp) h
  show run den (f0 :: st) (.lpar :: (q ++ [.rpar])) = _
  simp only [run, step, Option.bind_some]
  rw [run_concat]
  simp only [List.cons_append, List.nil_append] at h1
  rw [h1]
  simp [run, step, hA]

/-! ### Without OR and XOR -/

def Plain (q : List Tok) : Prop := .opOr ∉ q ∧ .opXor ∉ q

/-- The frame at the bottom, with and without `A` AND before it. -/
def R (A : M → Bool) (f0 f1 : Frame M) : Prop :=
  f0.o = none ∧ f0.x = none ∧ f1.o = none ∧ f1.x = none ∧ f1.g = f0.g ∧ f1.neg = f0.neg ∧
    (f0.a = none → f0.neg = false) ∧
    f1.a = some (match f0.a with | none => A | some v => fun m => A m && v m)

theorem R_closeG {A : M → Bool} {f0 f1 : Frame M} (h : R A f0 f1) :
    closeG f1 = (closeG f0).map fun v => fun m => A m && v m := by
  obtain ⟨_, _, _, _, hg, hn, hna, ha⟩ := h
  simp only [closeG, hg, ha, hn]
  cases f0.g with
  | none => rfl
  | some g =>
    cases h0 : f0.a with
    | none => simp [hna h0]
    | some a =>
      cases f0.neg <;> simp [Bool.and_assoc]

theorem step_R {A : M → Bool} (t : Tok) (ho : t ≠ .opOr) (hx : t ≠ .opXor) (pre : List (Frame M)) (f0 f1 : Frame M) (h : R A f0 f1)
    (fs : List (Frame M)) (hs : step den (pre ++ [f0]) t = some fs) :
    ∃ pre' g0 g1, fs = pre' ++ [g0] ∧ step den (pre ++ [f1]) t = some (pre' ++ [g1]) ∧ R A g0 g1 := by
  cases pre with
  | cons p pre =>
    by_cases hr : t = .rpar ∧ pre = []
    · obtain ⟨rfl, rfl⟩ := hr
      simp only [List.cons_append, List.nil_append, step, Option.map_eq_some_iff] at hs ⊢
      obtain ⟨v, h1, rfl⟩ := hs
      refine ⟨[], _, _, rfl, ⟨v, h1, rfl⟩, ?_⟩
      obtain ⟨a1, a2, a3, a4, a5, a6, a7, a8⟩ := h
      exact ⟨a1, a2, a3, a4, by simp [a5], a6, a7, a8⟩
    · have key : ∃ fs', step den (p :: pre) t = some fs' := by
        cases t with
        | rpar =>
          cases pre with
          | nil => exact absurd ⟨rfl, rfl⟩ hr
          | cons p' pre =>
            simp only [List.cons_append, step, Option.map_eq_some_iff] at hs ⊢
            obtain ⟨v, h1, _⟩ := hs
            exact ⟨_, v, h1, rfl⟩
        | opNot =>
          simp only [List.cons_append, step] at hs ⊢
          cases hg : p.g with
          | some g => simp only [hg, Option.map_eq_some_iff] at hs ⊢; obtain ⟨v, h1, _⟩ := hs; exact ⟨_, v, h1, rfl⟩
          | none =>
            simp only [hg] at hs ⊢
            cases ha : p.a with
            | none => exact ⟨_, rfl⟩
            | some a =>
              simp only [ha] at hs ⊢
              by_cases hn : p.neg = true
              · rw [if_pos hn] at hs; cases hs
              · rw [if_neg hn]; exact ⟨_, rfl⟩
        | term s => exact ⟨_, rfl⟩
        | lpar => exact ⟨_, rfl⟩
        | star => simp [step] at hs
        | opOr => exact absurd rfl ho
        | opXor => exact absurd rfl hx
        | opAnd => simp only [List.cons_append, step, Option.map_eq_some_iff] at hs ⊢; obtain ⟨v, h1, _⟩ := hs; exact ⟨_, v, h1, rfl⟩
      obtain ⟨fs', hfs⟩ := key
      have e0 := (step_app p pre [f0] t fs' hfs).2
      have e1 := (step_app p pre [f1] t fs' hfs).2
      rw [List.cons_append] at hs
      rw [e0] at hs
      simp only [Option.some.injEq] at hs
      exact ⟨fs', f0, f1, hs.symm, e1, h⟩
  | nil =>
    have hG := R_closeG h
    obtain ⟨a1, a2, a3, a4, a5, a6, a7, a8⟩ := h
    simp only [List.nil_append] at hs ⊢
    cases t with
    | term s =>
      simp only [step, Option.some.injEq] at hs ⊢
      subst hs
      exact ⟨[], _, _, rfl, rfl, a1, a2, a3, a4, by simp [a5], a6, a7, a8⟩
    | lpar =>
      simp only [step, Option.some.injEq] at hs ⊢
      subst hs
      exact ⟨[fresh], f0, f1, rfl, rfl, a1, a2, a3, a4, a5, a6, a7, a8⟩
    | rpar => simp [step] at hs
    | star => simp [step] at hs
    | opOr => exact absurd rfl ho
    | opXor => exact absurd rfl hx
    | opAnd =>
      simp only [step, Option.map_eq_some_iff] at hs ⊢
      obtain ⟨v, h1, rfl⟩ := hs
      rw [h1] at hG
      exact ⟨[], _, _, rfl, ⟨_, hG, rfl⟩, a1, a2, a3, a4, rfl, rfl, by simp, by simp⟩
    | opNot =>
      simp only [step, a5] at hs ⊢
      cases hg : f0.g with
      | some g =>
        simp only [hg, Option.map_eq_some_iff] at hs ⊢
        obtain ⟨v, h1, rfl⟩ := hs
        rw [h1] at hG
        exact ⟨[], _, _, rfl, ⟨_, hG, rfl⟩, a1, a2, a3, a4, rfl, rfl, by simp, by simp⟩
      | none =>
        simp only [hg] at hs ⊢
        cases ha : f0.a with
        | none =>
          simp only [ha, Option.some.injEq] at hs a8
          subst hs
          have hn : f1.neg = false := by rw [a6]; exact a7 ha
          simp only [a8, hn, Bool.false_eq_true, if_false]
          exact ⟨[], _, _, rfl, rfl, a1, a2, a3, a4, rfl, rfl, by simp, by simp⟩
        | some a =>
          simp only [ha] at hs a8
          by_cases hn : f0.neg = true
          · rw [if_pos hn] at hs; cases hs
          · rw [if_neg hn] at hs
            simp only [Option.some.injEq] at hs
            subst hs
            simp only [a8, a6, hn, Bool.false_eq_true, if_false]
            exact ⟨[], _, _, rfl, rfl, a1, a2, a3, a4, rfl, rfl, by simp, by simp⟩

theorem run_R {A : M → Bool} : ∀ (q : List Tok), Plain q → ∀ (pre : List (Frame M)) (f0 f1 : Frame M), R A f0 f1 →
    ∀ fs, run den (pre ++ [f0]) q = some fs → ∃ pre' g0 g1, fs = pre' ++ [g0] ∧ run den (pre ++ [f1]) q = some (pre' ++ [g1]) ∧ R A g0 g1 := by
  intro q
  induction q with
  | nil =>
    intro _ pre f0 f1 h fs hs
    simp only [run, Option.some.injEq] at hs
    exact ⟨pre, f0, f1, hs.symm, rfl, h⟩
  | cons t ts ih =>
    intro hp pre f0 f1 h fs hs
    simp only [Plain, List.mem_cons, not_or] at hp
    simp only [run, Option.bind_eq_some_iff] at hs
    obtain ⟨fs1, h1, h2⟩ := hs
    obtain ⟨pre', g0, g1, e1, e2, e3⟩ := step_R t (fun e => hp.1.1 e.symm) (fun e => hp.2.1 e.symm) pre f0 f1 h fs1 h1
    subst e1
    obtain ⟨p2, k0, k1, e4, e5, e6⟩ := ih ⟨hp.1.2, hp.2.2⟩ pre' g0 g1 e3 fs h2
    exact ⟨p2, k0, k1, e4, by simp only [run, e2, Option.bind_some, e5], e6⟩

theorem closeO_of {f : Frame M} (h1 : f.o = none) (h2 : f.x = none) : closeO f = closeG f := by
  simp only [closeO, closeX, h1, h2]
  cases closeG f <;> rfl

/-- A query without OR and XOR: the frame at the end has neither. -/
theorem plain_frame {q : List Tok} (hp : Plain q) {f : Frame M} (h : run den [fresh] q = some [f]) : f.o = none ∧ f.x = none := by
  have hR : R (fun _ => true) (fresh : Frame M) ⟨none, none, some fun _ => true, false, none⟩ :=
    ⟨rfl, rfl, rfl, rfl, rfl, rfl, fun _ => rfl, rfl⟩
  obtain ⟨pre', g0, g1, e1, _, e3⟩ := run_R q hp [] _ _ hR [f] h
  cases pre' with
  | nil =>
    simp only [List.nil_append, List.cons.injEq, and_true] at e1
    subst e1
    exact ⟨e3.1, e3.2.1⟩
  | cons p pre' =>
    have := congrArg List.length e1
    simp at this

/-- A query after `A` AND. -/
theorem run_after {q : List Tok} (hp : Plain q) {f : Frame M} {A B : M → Bool} (h : run den [fresh] q = some [f]) (hB : closeO f = some B) :
    ∃ f', run den [⟨none, none, some A, false, none⟩] q = some [f'] ∧ closeO f' = some fun m => A m && B m := by
  have hR : R A (fresh : Frame M) ⟨none, none, some A, false, none⟩ := ⟨rfl, rfl, rfl, rfl, rfl, rfl, fun _ => rfl, rfl⟩
  obtain ⟨pre', g0, g1, e1, e2, e3⟩ := run_R q hp [] _ _ hR [f] h
  cases pre' with
  | cons p pre' =>
    have := congrArg List.length e1
    simp at this
  | nil =>
    simp only [List.nil_append, List.cons.injEq, and_true] at e1
    subst e1
    refine ⟨g1, e2, ?_⟩
    have hG := R_closeG e3
    obtain ⟨a1, a2, a3, a4, _⟩ := e3
    rw [closeO_of a3 a4, hG]
    rw [closeO_of a1 a2] at hB
    rw [hB]; rfl

theorem plain_of {hasOr : String → Bool} {q : List Tok} (hx : .opXor ∈ q → .opOr ∈ q) (hg : q.any (wordOr hasOr) ≠ true) : Plain q := by
  have ho : Tok.opOr ∉ q := fun hm => hg (List.any_eq_true.2 ⟨_, hm, rfl⟩)
  exact ⟨ho, fun hm => ho (hx hm)⟩

/-- The first query, and AND. -/
theorem run_first {hasOr : String → Bool} {q : List Tok} {A : M → Bool} (h1 : q ≠ []) (h2 : q ≠ [.star]) (hx : .opXor ∈ q → .opOr ∈ q)
    (h : eval den q = some A) : run den [fresh] (group hasOr q ++ [.opAnd]) = some [⟨none, none, some A, false, none⟩] := by
  obtain ⟨f, hf, hA⟩ := eval_run h1 h2 h
  rw [run_concat, group]
  by_cases hg : q.any (wordOr hasOr) = true
  · rw [if_pos hg, run_parens hf hA]
    simp [run, step, closeG, addG, fresh]
  · rw [if_neg hg, hf]
    obtain ⟨a1, a2⟩ := plain_frame (plain_of hx hg) hf
    rw [closeO_of a1 a2] at hA
    simp [run, step, hA, a1, a2]

theorem run_second {hasOr : String → Bool} {q : List Tok} {A B : M → Bool} (h1 : q ≠ []) (h2 : q ≠ [.star]) (hx : .opXor ∈ q → .opOr ∈ q)
    (h : eval den q = some B) :
    ∃ f', run den [⟨none, none, some A, false, none⟩] (group hasOr q) = some [f'] ∧ closeO f' = some fun m => A m && B m := by
  obtain ⟨f, hf, hB⟩ := eval_run h1 h2 h
  rw [group]
  by_cases hg : q.any (wordOr hasOr) = true
  · rw [if_pos hg, run_parens hf hB]
    refine ⟨_, rfl, ?_⟩
    simp [closeO, closeX, closeG, addG]
  · rw [if_neg hg]
    exact run_after (plain_of hx hg) hf hB

theorem group_ne_nil {hasOr : String → Bool} {q : List Tok} (h : q ≠ []) : group hasOr q ≠ [] := by
  rw [group]; split <;> simp [h]

theorem group_star {hasOr : String → Bool} {q : List Tok} : group hasOr q = [.star] ↔ q = [.star] := by
  rw [group]
  split
  · rename_i h
    constructor
    · intro hh; simp at hh
    · rintro rfl; simp [wordOr] at h
  · exact Iff.rfl

theorem eval_group {hasOr : String → Bool} {q : List Tok} {A : M → Bool} (h : eval den q = some A) : eval den (group hasOr q) = some A := by
  rw [group]
  split
  · rename_i hg
    have h1 : q ≠ [] := by rintro rfl; simp at hg
    have h2 : q ≠ [.star] := by rintro rfl; simp [wordOr] at hg
    obtain ⟨f, hf, hA⟩ := eval_run h1 h2 h
    rw [eval_of_run (by simp) (by simp) (run_parens hf hA fresh [])]
    rfl
  · exact h

theorem eval_filter {hasOr : String → Bool} {q1 q2 : List Tok} {A B : M → Bool} (h1 : q1 ≠ []) (h2 : q2 ≠ []) (h3 : q2 = [.star] → q1 = [.star])
    (hx1 : .opXor ∈ q1 → .opOr ∈ q1) (hx2 : .opXor ∈ q2 → .opOr ∈ q2) (hA : eval den q1 = some A) (hB : eval den q2 = some B) :
    eval den (filter hasOr q1 q2) = some fun m => A m && B m := by
  rw [filter]
  by_cases hs : q1 = [.star]
  · rw [if_pos (group_star.2 hs), eval_group hB]
    subst hs
    simp [eval] at hA
    subst hA
    simp
  · rw [if_neg (fun h => hs (group_star.1 h))]
    obtain ⟨f', e1, e2⟩ := run_second (hasOr := hasOr) (A := A) h2 (fun h => hs (h3 h)) hx2 hB
    have e0 := run_first (hasOr := hasOr) h1 hs hx1 hA
    have e3 : run den [fresh] (group hasOr q1 ++ .opAnd :: group hasOr q2) = some [f'] := by
      rw [show group hasOr q1 ++ .opAnd :: group hasOr q2 = (group hasOr q1 ++ [.opAnd]) ++ group hasOr q2 by simp, run_concat, e0]
      exact e1
    rw [eval_of_run (by simp) (by
      intro h
      have := congrArg List.length h
      have h5 := List.length_pos_iff.2 (group_ne_nil (hasOr := hasOr) h1)
      simp at this
      omega) e3, e2]

end Notmuch.ElFilter.Proofs
