import Verif.Spec.Time

/-! # Proofs: the calendar -/

namespace Notmuch.Time

theorem isLeap_iff (y : Int) : isLeap y = true ↔ y % 4 = 0 ∧ (y % 100 ≠ 0 ∨ y % 400 = 0) := by
  simp [isLeap]

theorem yearDays_succ (y : Int) : yearDays (y + 1) = yearDays y + (if isLeap y then 366 else 365) := by
  unfold yearDays
  by_cases h : isLeap y = true
  · rw [if_pos h]
    rw [isLeap_iff] at h
    omega
  · rw [if_neg h]
    rw [isLeap_iff] at h
    omega

theorem mod12 (m : Int) : m % 12 = 0 ∨ m % 12 = 1 ∨ m % 12 = 2 ∨ m % 12 = 3 ∨ m % 12 = 4 ∨ m % 12 = 5 ∨ m % 12 = 6 ∨ m % 12 = 7 ∨ m % 12 = 8 ∨ m % 12 = 9 ∨ m % 12 = 10 ∨ m % 12 = 11 := by omega

/-- The length of a month, from 0 for January on. -/
def monthLength (leap : Bool) (m : Int) : Int :=
  if m = 1 then (if leap then 29 else 28) else if m = 3 ∨ m = 5 ∨ m = 8 ∨ m = 10 then 30 else 31

theorem monthDays_zero (leap : Bool) : monthDays leap 0 = 0 := by cases leap <;> rfl

theorem dayNumber_mon (y mon d : Int) : dayNumber y (mon + 1) d = dayNumber y mon d + monthLength (isLeap (y + mon / 12)) (mon % 12) := by
  unfold dayNumber
  rcases mod12 mon with h | h | h | h | h | h | h | h | h | h | h | h
  case inr.inr.inr.inr.inr.inr.inr.inr.inr.inr.inr =>
    have h1 : (mon + 1) % 12 = 0 := by omega
    have h2 : (mon + 1) / 12 = mon / 12 + 1 := by omega
    rw [h1, h, h2, ← Int.add_assoc, yearDays_succ, monthDays_zero]
    cases isLeap (y + mon / 12) with
    | true =>
      rw [if_pos rfl, show monthDays true 11 = 335 from rfl, show monthLength true 11 = 31 from rfl]
      omega
    | false =>
      rw [if_neg (by simp), show monthDays false 11 = 334 from rfl, show monthLength false 11 = 31 from rfl]
      omega
  all_goals
    have h2 : (mon + 1) / 12 = mon / 12 := by omega
    have h1 : (mon + 1) % 12 = mon % 12 + 1 := by omega
    rw [h2, h1, h]
    cases isLeap (y + mon / 12) <;>
    · simp only [monthDays, monthLength]
      simp
      omega

theorem monthLength_pos (leap : Bool) (m : Int) : 28 ≤ monthLength leap m ∧ monthLength leap m ≤ 31 := by
  unfold monthLength
  cases leap <;> (repeat' split) <;> omega

theorem dayNumber_mon_lt (y mon d : Int) : dayNumber y mon d + 28 ≤ dayNumber y (mon + 1) d := by
  rw [dayNumber_mon]
  have := monthLength_pos (isLeap (y + mon / 12)) (mon % 12)
  omega

theorem monthDays_leap (m : Int) : monthDays false m ≤ monthDays true m ∧ monthDays true m ≤ monthDays false m + 1 := by
  unfold monthDays
  simp
  split <;> omega

theorem dayNumber_year_lt (y mon d : Int) : dayNumber y mon d + 364 ≤ dayNumber (y + 1) mon d := by
  unfold dayNumber
  have e : y + 1 + mon / 12 = (y + mon / 12) + 1 := by omega
  rw [e, yearDays_succ]
  have := monthDays_leap (mon % 12)
  cases isLeap (y + mon / 12) <;> cases isLeap (y + mon / 12 + 1) <;> simp <;> omega

theorem dayNumber_day (y mon d e : Int) : dayNumber y mon (d + e) = dayNumber y mon d + e := by
  unfold dayNumber
  omega

theorem yearOf_spec (d : Int) : yearDays (yearOf d) ≤ d ∧ d < yearDays (yearOf d + 1) := by
  unfold yearOf
  simp only
  split
  · rename_i h
    refine ⟨h, ?_⟩
    clear h
    unfold yearDays
    omega
  · split
    · rename_i h0 h
      clear h0
      constructor
      · clear h
        unfold yearDays
        omega
      · have e : 400 * d / 146097 + 1970 - 1 + 1 = 400 * d / 146097 + 1970 := by omega
        rw [e]
        exact h
    · omega

theorem monthOf_spec (leap : Bool) (n : Nat) (h : n < if leap then 366 else 365) :
    0 ≤ monthOf leap n ∧ monthOf leap n ≤ 11 ∧ monthDays leap (monthOf leap n) ≤ n ∧ n < monthDays leap (monthOf leap n) + monthLength leap (monthOf leap n) := by
  cases leap with
  | true =>
    have k : ∀ n : Fin 366, 0 ≤ monthOf true (n.val : Int) ∧ monthOf true (n.val : Int) ≤ 11 ∧ monthDays true (monthOf true (n.val : Int)) ≤ (n.val : Int) ∧
        (n.val : Int) < monthDays true (monthOf true (n.val : Int)) + monthLength true (monthOf true (n.val : Int)) := by decide +kernel
    exact k ⟨n, h⟩
  | false =>
    have k : ∀ n : Fin 365, 0 ≤ monthOf false (n.val : Int) ∧ monthOf false (n.val : Int) ≤ 11 ∧ monthDays false (monthOf false (n.val : Int)) ≤ (n.val : Int) ∧
        (n.val : Int) < monthDays false (monthOf false (n.val : Int)) + monthLength false (monthOf false (n.val : Int)) := by decide +kernel
    exact k ⟨n, h⟩

/-- The fields of a time are those of a day of the calendar and a time of that day. -/
structure InRange (tm : Tm) : Prop where
  sec : 0 ≤ tm.sec ∧ tm.sec ≤ 59
  min : 0 ≤ tm.min ∧ tm.min ≤ 59
  hour : 0 ≤ tm.hour ∧ tm.hour ≤ 23
  mon : 0 ≤ tm.mon ∧ tm.mon ≤ 11
  mday : 1 ≤ tm.mday ∧ tm.mday ≤ monthLength (isLeap (tm.year + 1900)) tm.mon
  wday : 0 ≤ tm.wday ∧ tm.wday ≤ 6

theorem fieldsOf_yday (t : Int) : ∃ n : Nat, t / 86400 - yearDays (yearOf (t / 86400)) = n ∧ n < if isLeap (yearOf (t / 86400)) then 366 else 365 := by
  have h := yearOf_spec (t / 86400)
  rw [yearDays_succ] at h
  refine ⟨(t / 86400 - yearDays (yearOf (t / 86400))).toNat, by omega, ?_⟩
  split
  · rename_i k
    rw [if_pos k] at h
    omega
  · rename_i k
    rw [if_neg k] at h
    omega

theorem fieldsOf_inRange (t : Int) : InRange (fieldsOf t) := by
  obtain ⟨n, hn, hl⟩ := fieldsOf_yday t
  have m := monthOf_spec _ n hl
  constructor
  · show 0 ≤ t % 60 ∧ t % 60 ≤ 59
    omega
  · show 0 ≤ t / 60 % 60 ∧ t / 60 % 60 ≤ 59
    omega
  · show 0 ≤ t / 3600 % 24 ∧ t / 3600 % 24 ≤ 23
    omega
  · simp only [fieldsOf, hn]
    exact ⟨m.1, m.2.1⟩
  · simp only [fieldsOf, hn, Int.sub_add_cancel]
    omega
  · show 0 ≤ (t / 86400 + 4) % 7 ∧ (t / 86400 + 4) % 7 ≤ 6
    omega

theorem fieldsOf_day (t : Int) : dayNumber ((fieldsOf t).year + 1900) (fieldsOf t).mon (fieldsOf t).mday = t / 86400 := by
  obtain ⟨n, hn, hl⟩ := fieldsOf_yday t
  have m := monthOf_spec _ n hl
  simp only [fieldsOf, hn, Int.sub_add_cancel, dayNumber]
  have e1 : monthOf (isLeap (yearOf (t / 86400))) n / 12 = 0 := by omega
  have e2 : monthOf (isLeap (yearOf (t / 86400))) n % 12 = monthOf (isLeap (yearOf (t / 86400))) n := by omega
  rw [e1, e2, Int.add_zero]
  omega

theorem seconds_fieldsOf (t : Int) : seconds (fieldsOf t) = t := by
  unfold seconds
  rw [fieldsOf_day]
  show 86400 * (t / 86400) + 3600 * (t / 3600 % 24) + 60 * (t / 60 % 60) + t % 60 = t
  omega

/-! ## The days of the specification -/

theorem daysOf_eq (y : Nat) : (daysOf y : Int) = if isLeap y then 366 else 365 := by
  have e : (4 ∣ y ∧ (¬100 ∣ y ∨ 400 ∣ y)) ↔ isLeap y = true := by
    rw [isLeap_iff]
    omega
  unfold daysOf
  simp only [daysBefore, daysIn, e]
  cases isLeap y <;> rfl

theorem daysUntil_eq (n : Nat) : (daysUntil n : Int) = yearDays (1970 + n) := by
  induction n with
  | zero => rfl
  | succ n ih =>
    have e : (1970 : Int) + ((n + 1 : Nat) : Int) = 1970 + n + 1 := by omega
    rw [e, yearDays_succ, daysUntil, Int.natCast_add, ih, daysOf_eq]
    rfl

theorem daysBefore_eq (y m : Nat) (h1 : 1 ≤ m) (h2 : m ≤ 12) : (daysBefore y m : Int) = monthDays (isLeap y) ((m : Int) - 1) := by
  have e : (4 ∣ y ∧ (¬100 ∣ y ∨ 400 ∣ y)) ↔ isLeap y = true := by
    rw [isLeap_iff]
    omega
  have c : m = 1 ∨ m = 2 ∨ m = 3 ∨ m = 4 ∨ m = 5 ∨ m = 6 ∨ m = 7 ∨ m = 8 ∨ m = 9 ∨ m = 10 ∨ m = 11 ∨ m = 12 := by omega
  rcases c with c | c | c | c | c | c | c | c | c | c | c | c <;> subst c <;> simp only [daysBefore, daysIn, e] <;> cases isLeap y <;> rfl

theorem dayNumber_eq (y m d : Nat) (hy : 1970 ≤ y) (h1 : 1 ≤ m) (h2 : m ≤ 12) : dayNumber y ((m : Int) - 1) d = dayOf y m d := by
  unfold dayNumber dayOf
  have e1 : ((m : Int) - 1) / 12 = 0 := by omega
  have e2 : ((m : Int) - 1) % 12 = m - 1 := by omega
  rw [e1, e2, daysUntil_eq, daysBefore_eq y m h1 h2, Int.add_zero]
  have e3 : (1970 : Int) + ((y - 1970 : Nat) : Int) = y := by omega
  rw [e3]

end Notmuch.Time
