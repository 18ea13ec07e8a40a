import Verif.Proofs.Compat
import Verif.Model.Time
import Verif.Model.Query
import Verif.Model.Reply

/-! # All days, and the C library that the other claims rest on -/

namespace Notmuch.Compat

/-- It is some days after 1970-01-01. -/
def Reached (d : Date) : Prop := ∃ n, Date.since1970 n = d

theorem reached_next {d : Date} (h : Reached d) : Reached d.next := by
  obtain ⟨n, rfl⟩ := h
  exact ⟨n + 1, rfl⟩

theorem reached_day (y m : Nat) (h : Reached ⟨y, m, 1⟩) : ∀ k, k + 1 ≤ Date.monthLength y m → Reached ⟨y, m, k + 1⟩
  | 0, _ => h
  | k + 1, hk => by
    have := reached_next (reached_day y m h k (by omega))
    simp only [Date.next] at this
    rwa [if_pos (by omega)] at this

theorem reached_month (y : Nat) (h : Reached ⟨y, 1, 1⟩) : ∀ k, k + 1 ≤ 12 → Reached ⟨y, k + 1, 1⟩
  | 0, _ => h
  | k + 1, hk => by
    have hp := monthLength_pos y (k + 1)
    have := reached_next (reached_day y (k + 1) (reached_month y h k (by omega)) (Date.monthLength y (k + 1) - 1) (by omega))
    simp only [Date.next] at this
    rwa [if_neg (by omega), if_pos (by omega)] at this

theorem reached_year : ∀ k, Reached ⟨1970 + k, 1, 1⟩
  | 0 => ⟨0, rfl⟩
  | k + 1 => by
    have hp := monthLength_pos (1970 + k) 12
    have := reached_next (reached_day (1970 + k) 12 (reached_month _ (reached_year k) 11 (by omega)) (Date.monthLength (1970 + k) 12 - 1) (by omega))
    simp only [Date.next] at this
    rwa [if_neg (by omega), if_neg (by omega)] at this

theorem reached_all {d : Date} (hv : d.Valid) (hy : 1970 ≤ d.year) : Reached d := by
  obtain ⟨h1, h2, h3, h4⟩ := hv
  have a := reached_year (d.year - 1970)
  rw [Nat.add_sub_cancel' hy] at a
  have b := reached_month _ a (d.month - 1) (by omega)
  rw [Nat.sub_add_cancel h1] at b
  have c := reached_day _ _ b (d.day - 1) (by omega)
  rwa [Nat.sub_add_cancel h3] at c

theorem leaps_closed : ∀ n : Nat, leaps n 70 = ((n : Int) + 1969) / 4 - ((n : Int) + 1969) / 100 + ((n : Int) + 1969) / 400 - 477
  | 0 => by decide
  | n + 1 => by
    rw [leaps_succ, leaps_closed n]
    have e : 1900 + ((70 : Int) + n) = ((n + 1970 : Nat) : Int) := by omega
    rw [e, leapyear_eq]
    unfold Date.leap
    simp only [decide_eq_true_eq]
    split <;> omega

theorem months_closed (l : Bool) (m : Nat) (h : m < 12) : months l m 0 = Time.monthDays l m := by
  have : m = 0 ∨ m = 1 ∨ m = 2 ∨ m = 3 ∨ m = 4 ∨ m = 5 ∨ m = 6 ∨ m = 7 ∨ m = 8 ∨ m = 9 ∨ m = 10 ∨ m = 11 := by omega
  cases l <;> rcases this with h | h | h | h | h | h | h | h | h | h | h | h <;> subst h <;> decide

theorem number_eq {d : Date} (hv : d.Valid) (hy : 1970 ≤ d.year) : d.number = Time.dayNumber d.year (d.month - 1) d.day := by
  obtain ⟨h1, h2, h3, h4⟩ := hv
  have e1 : ((d.month : Int) - 1) / 12 = 0 := by omega
  have e2 : ((d.month : Int) - 1) % 12 = ((d.month - 1 : Nat) : Int) := by omega
  have e3 : Time.isLeap (d.year : Int) = Date.leap d.year := by
    unfold Time.isLeap Date.leap
    rw [Bool.eq_iff_iff]
    simp
    omega
  unfold Date.number Time.dayNumber Time.yearDays
  rw [e1, e2, Int.add_zero, e3, months_closed _ _ (by omega), leaps_closed]
  have : (((d.year - 1970 : Nat) : Int)) + 1969 = (d.year : Int) - 1 := by omega
  rw [this]; omega

/-! ## strcasestr -/

theorem caseeq_iff : ∀ (hay needle : Str), strncaseeq hay needle needle.length = true ↔ needle.map toLower <+: hay.map toLower
  | hay, [] => by simp [strncaseeq]
  | [], b :: bs => by simp [strncaseeq]
  | a :: as, b :: bs => by
    have ih := caseeq_iff as bs
    simp only [List.length_cons, strncaseeq, Bool.and_eq_true, beq_iff_eq, ih, List.map_cons, List.cons_prefix_cons]
    constructor
    · rintro ⟨h, h'⟩; exact ⟨h.symm, h'⟩
    · rintro ⟨h, h'⟩; exact ⟨h.symm, h'⟩

theorem found_zero (hay needle : Str) : Found hay needle 0 ↔ needle.map toLower <+: hay.map toLower := by
  constructor
  · rintro ⟨pre, mid, post, rfl, h0, hm⟩
    rw [List.eq_nil_of_length_eq_zero h0, List.nil_append, List.map_append, hm]
    exact List.prefix_append _ _
  · rintro ⟨t, ht⟩
    refine ⟨[], hay.take needle.length, hay.drop needle.length, by simp, rfl, ?_⟩
    rw [List.map_take, ← ht, List.take_append_of_le_length (by simp), List.take_of_length_le (by simp)]

theorem found_succ (c : UInt8) (hay needle : Str) (i : Nat) : Found (c :: hay) needle (i + 1) ↔ Found hay needle i := by
  constructor
  · rintro ⟨pre, mid, post, h, h0, hm⟩
    cases pre with
    | nil => cases h0
    | cons a pre =>
      simp only [List.cons_append, List.cons.injEq] at h
      exact ⟨pre, mid, post, h.2, by simpa using h0, hm⟩
  · rintro ⟨pre, mid, post, rfl, h0, hm⟩
    exact ⟨c :: pre, mid, post, by simp, by simp [h0], hm⟩

theorem found_len {hay needle : Str} {i : Nat} (h : Found hay needle i) : i + needle.length ≤ hay.length := by
  obtain ⟨pre, mid, post, rfl, h0, hm⟩ := h
  have := congrArg List.length hm
  simp at this ⊢
  omega

theorem loop_spec (needle : Str) : ∀ (hay : Str) (k : Nat),
    (∃ i, strcasestrLoop needle hay k = some (k + i) ∧ Found hay needle i ∧ ∀ j, j < i → ¬ Found hay needle j) ∨ (strcasestrLoop needle hay k = none ∧ ∀ j, ¬ Found hay needle j)
  | [], k => by
    unfold strcasestrLoop
    by_cases h : needle = []
    · subst h
      exact .inl ⟨0, rfl, (found_zero _ _).2 (List.prefix_refl _), fun j hj => absurd hj (Nat.not_lt_zero _)⟩
    · refine .inr ⟨?_, fun j hj => ?_⟩
      · rw [if_neg]; intro h0; exact h (List.eq_nil_of_length_eq_zero (by omega))
      · have := found_len hj
        exact h (List.eq_nil_of_length_eq_zero (by rw [List.length_nil] at this; omega))
  | c :: cs, k => by
    unfold strcasestrLoop
    split
    · split
      · rename_i h
        exact .inl ⟨0, rfl, (found_zero _ _).2 ((caseeq_iff _ _).1 h), fun j hj => absurd hj (Nat.not_lt_zero _)⟩
      · rename_i h
        have h0 : ¬ Found (c :: cs) needle 0 := fun hf => h ((caseeq_iff _ _).2 ((found_zero _ _).1 hf))
        rcases loop_spec needle cs (k + 1) with ⟨i, e, hf, hn⟩ | ⟨e, hn⟩
        · refine .inl ⟨i + 1, by rw [e]; congr 1; omega, (found_succ _ _ _ _).2 hf, fun j hj => ?_⟩
          cases j with
          | zero => exact h0
          | succ j => rw [found_succ]; exact hn j (by omega)
        · refine .inr ⟨e, fun j => ?_⟩
          cases j with
          | zero => exact h0
          | succ j => rw [found_succ]; exact hn j
    · rename_i h
      exact .inr ⟨rfl, fun j hj => by have := found_len hj; omega⟩

theorem library_found : ∀ (hay needle : Str), strcasestr hay needle ≠ none ↔ Query.strcasestr hay needle = true := by
  have key : ∀ (hay needle : Str), (∃ j, Found hay needle j) ↔ Query.strcasestr hay needle = true := by
    intro hay needle
    induction hay with
    | nil =>
      simp only [Query.strcasestr, List.isEmpty_iff]
      constructor
      · rintro ⟨j, hj⟩
        have := found_len hj
        exact List.eq_nil_of_length_eq_zero (by rw [List.length_nil] at this; omega)
      · rintro rfl; exact ⟨0, (found_zero _ _).2 (List.prefix_refl _)⟩
    | cons c cs ih =>
      simp only [Query.strcasestr, Bool.or_eq_true, List.isPrefixOf_iff_prefix, ← ih, ← found_zero]
      constructor
      · rintro ⟨j, hj⟩
        cases j with
        | zero => exact .inl hj
        | succ j => exact .inr ⟨j, (found_succ _ _ _ _).1 hj⟩
      · rintro (h | ⟨j, hj⟩)
        · exact ⟨0, h⟩
        · exact ⟨j + 1, (found_succ _ _ _ _).2 hj⟩
  intro hay needle
  rw [← key]
  rcases loop_spec needle hay 0 with ⟨i, e, hf, _⟩ | ⟨e, hn⟩
  · unfold strcasestr; rw [e]; exact ⟨fun _ => ⟨i, hf⟩, fun _ h => by cases h⟩
  · unfold strcasestr; rw [e]; exact ⟨fun h => absurd rfl h, fun ⟨j, hj⟩ => absurd hj (hn j)⟩

end Notmuch.Compat
