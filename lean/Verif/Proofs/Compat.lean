import Verif.Spec.Compat

/-! # timegm -/

namespace Notmuch.Compat

/-- Leap years among the next `n` of tm_year `y`. -/
def leaps : Nat → Int → Int
  | 0, _ => 0
  | n + 1, y => (if leapyear (1900 + y) then 1 else 0) + leaps n (y + 1)

theorem leaps_nonneg : ∀ n y, 0 ≤ leaps n y
  | 0, _ => Int.le_refl _
  | n + 1, y => by
    have := leaps_nonneg n (y + 1)
    simp only [leaps]; split <;> omega

theorem leaps_succ : ∀ (n : Nat) (y : Int), leaps (n + 1) y = leaps n y + (if leapyear (1900 + (y + n)) then 1 else 0)
  | 0, y => by simp [leaps]
  | n + 1, y => by
    have ih := leaps_succ n (y + 1)
    rw [leaps, ih, leaps]
    have : y + 1 + (n : Int) = y + ((n + 1 : Nat) : Int) := by omega
    rw [this]; omega

theorem int_ok {x : Int} (h0 : 0 ≤ x) (h : x < 2147483648) : int x = some x := if_pos ⟨by omega, h⟩

theorem yearLoop_eq : ∀ (n : Nat) (y d : Int), 0 ≤ d → d + leaps n y < 2147483648 → yearLoop n y d = some (d + leaps n y)
  | 0, y, d, _, _ => by simp [yearLoop, leaps]
  | n + 1, y, d, h0, h => by
    have h1 := leaps_nonneg n (y + 1)
    simp only [leaps] at h
    unfold yearLoop
    by_cases hl : leapyear (1900 + y) = true
    · simp only [hl, if_true] at h ⊢
      rw [int_ok (by omega) (by omega)]
      simp only
      rw [yearLoop_eq n _ _ (by omega) (by omega)]
      simp only [leaps, hl, if_true]; congr 1; omega
    · simp only [if_neg hl] at h ⊢
      rw [yearLoop_eq n _ _ (by omega) (by omega)]
      simp only [leaps, if_neg hl]; congr 1; omega

/-- The days of `n` months from month `m` on. -/
def months (l : Bool) : Nat → Nat → Int
  | 0, _ => 0
  | n + 1, m => (monthlen l)[m]?.getD 0 + months l n (m + 1)

theorem monthlen_length (l : Bool) : (monthlen l).length = 12 := by cases l <;> rfl

theorem monthlen_pos (l : Bool) (m : Nat) : 0 ≤ (monthlen l)[m]?.getD 0 := by
  by_cases h : m < 12
  · rcases l with _ | _ <;> (have : m = 0 ∨ m = 1 ∨ m = 2 ∨ m = 3 ∨ m = 4 ∨ m = 5 ∨ m = 6 ∨ m = 7 ∨ m = 8 ∨ m = 9 ∨ m = 10 ∨ m = 11 := by omega) <;>
      rcases this with h | h | h | h | h | h | h | h | h | h | h | h <;> subst h <;> decide
  · rw [List.getElem?_eq_none (by rw [monthlen_length]; omega)]; exact Int.le_refl _

theorem months_nonneg (l : Bool) : ∀ n m, 0 ≤ months l n m
  | 0, _ => Int.le_refl _
  | n + 1, m => by
    have := months_nonneg l n (m + 1)
    have := monthlen_pos l m
    simp only [months]; omega

theorem months_succ (l : Bool) : ∀ n m, months l (n + 1) m = months l n m + (monthlen l)[m + n]?.getD 0
  | 0, m => by simp [months]
  | n + 1, m => by
    have ih := months_succ l n (m + 1)
    rw [months, ih, months]
    have : m + 1 + n = m + (n + 1) := by omega
    rw [this]; omega

theorem monthLoop_eq (l : Bool) : ∀ (n m : Nat) (d : Int), m + n ≤ 12 → 0 ≤ d → d + months l n m < 2147483648 → monthLoop l n m d = some (d + months l n m)
  | 0, m, d, _, _, _ => by simp [monthLoop, months]
  | n + 1, m, d, hm, h0, h => by
    have h1 := months_nonneg l n (m + 1)
    have h2 := monthlen_pos l m
    simp only [months] at h
    unfold monthLoop
    have hlt : m < (monthlen l).length := by rw [monthlen_length]; omega
    rw [List.getElem?_eq_getElem hlt] at h h2 ⊢
    simp only [Option.getD_some] at h h2 ⊢
    rw [int_ok (by omega) (by omega)]
    simp only
    rw [monthLoop_eq l n _ _ (by omega) (by omega) (by omega)]
    simp only [months, List.getElem?_eq_getElem hlt, Option.getD_some]; congr 1; omega

theorem leapyear_eq (y : Nat) : leapyear (y : Int) = Date.leap y := by
  unfold leapyear Date.leap
  rw [Int.tmod_eq_emod_of_nonneg (by omega), Int.tmod_eq_emod_of_nonneg (by omega), Int.tmod_eq_emod_of_nonneg (by omega)]
  rw [Bool.eq_iff_iff]
  simp
  omega

/-- The days of a day since 1970. -/
def Date.number (d : Date) : Int := 365 * ((d.year : Int) - 1970) + leaps (d.year - 1970) 70 + months (Date.leap d.year) (d.month - 1) 0 + ((d.day : Int) - 1)

theorem monthLength_eq (y m : Nat) (h1 : 1 ≤ m) (h2 : m ≤ 12) : (monthlen (Date.leap y))[m - 1]?.getD 0 = (Date.monthLength y m : Int) := by
  unfold Date.monthLength
  have : m = 1 ∨ m = 2 ∨ m = 3 ∨ m = 4 ∨ m = 5 ∨ m = 6 ∨ m = 7 ∨ m = 8 ∨ m = 9 ∨ m = 10 ∨ m = 11 ∨ m = 12 := by omega
  cases Date.leap y <;> rcases this with h | h | h | h | h | h | h | h | h | h | h | h <;> subst h <;> decide

theorem year_months (l : Bool) : months l 12 0 = 365 + if l then 1 else 0 := by cases l <;> decide

theorem monthLength_pos (y m : Nat) : 28 ≤ Date.monthLength y m := by
  unfold Date.monthLength
  repeat' split
  all_goals omega

theorem next_valid {d : Date} (h : d.Valid) : d.next.Valid := by
  obtain ⟨h1, h2, h3, h4⟩ := h
  unfold Date.next
  split
  · exact ⟨h1, h2, Nat.le_add_left _ _, by simp only; omega⟩
  · split
    · exact ⟨Nat.le_add_left _ _, by simp only; omega, Nat.le_refl _, by have := monthLength_pos d.year (d.month + 1); simp only; omega⟩
    · exact ⟨Nat.le_refl _, by simp only; omega, Nat.le_refl _, by have := monthLength_pos (d.year + 1) 1; simp only; omega⟩

theorem next_number {d : Date} (h : d.Valid) (hy : 1970 ≤ d.year) : d.next.number = d.number + 1 := by
  obtain ⟨h1, h2, h3, h4⟩ := h
  unfold Date.next
  split
  · simp only [Date.number]; omega
  · rename_i hd
    have hd : d.day = Date.monthLength d.year d.month := by omega
    have hm := months_succ (Date.leap d.year) (d.month - 1) 0
    rw [Nat.zero_add, monthLength_eq _ _ h1 h2, Nat.sub_add_cancel h1] at hm
    split
    · simp only [Date.number]
      rw [Nat.add_sub_cancel, hm, hd]; omega
    · have e : d.month = 12 := by omega
      rw [e] at hm
      rw [year_months] at hm
      simp only [Date.number, e]
      have hl := leaps_succ (d.year - 1970) 70
      have e1 : d.year + 1 - 1970 = d.year - 1970 + 1 := by omega
      have e2 : 1900 + ((70 : Int) + ((d.year - 1970 : Nat) : Int)) = (d.year : Int) := by omega
      have e3 : months (Date.leap (d.year + 1)) (1 - 1) 0 = 0 := rfl
      rw [e2, leapyear_eq] at hl
      rw [e1, hl, hd, e, e3]
      generalize months (Date.leap d.year) (12 - 1) 0 = M at *
      generalize Date.monthLength d.year 12 = K at *
      omega

theorem since_valid : ∀ n, (Date.since1970 n).Valid ∧ 1970 ≤ (Date.since1970 n).year ∧ (Date.since1970 n).number = n
  | 0 => by
    refine ⟨⟨by decide, by decide, by decide, by decide⟩, by decide, by decide⟩
  | n + 1 => by
    obtain ⟨h1, h2, h3⟩ := since_valid n
    refine ⟨next_valid h1, ?_, ?_⟩
    · show 1970 ≤ (Date.since1970 n).next.year
      unfold Date.next
      split
      · exact h2
      · split
        · exact h2
        · show 1970 ≤ (Date.since1970 n).year + 1; omega
    · show (Date.since1970 n).next.number = _
      rw [next_number h1 h2, h3]; omega

/-- What `timegm` gives for a day. -/
theorem timegm_number {d : Date} (hv : d.Valid) (hy : 1970 ≤ d.year) {hour min sec : Nat} (hb : d.number * 86400 + hour * 3600 + min * 60 + sec < 2147483648) :
    timegm (d.tm hour min sec) = some (d.number * 86400 + hour * 3600 + min * 60 + sec) := by
  obtain ⟨h1, h2, h3, h4⟩ := hv
  have a1 := leaps_nonneg (d.year - 1970) 70
  have a2 := months_nonneg (Date.leap d.year) (d.month - 1) 0
  have hn : d.number = 365 * ((d.year : Int) - 1970) + leaps (d.year - 1970) 70 + months (Date.leap d.year) (d.month - 1) 0 + ((d.day : Int) - 1) := rfl
  have e1 : (d.year : Int) - 1900 - 70 = (d.year : Int) - 1970 := by omega
  have e2 : ((d.year : Int) - 1970).toNat = d.year - 1970 := by omega
  have e3 : 1900 + (if 70 < (d.year : Int) - 1900 then (d.year : Int) - 1900 else 70) = (d.year : Int) := by split <;> omega
  have e4 : ((d.month : Int) - 1).toNat = d.month - 1 := by omega
  have l1 : 0 ≤ (d.year : Int) - 1970 := by omega
  unfold timegm Date.tm
  simp only [e1, e2, e3, e4, leapyear_eq]
  generalize (d.year : Int) - 1970 = Y at *
  rw [int_ok (by omega) (by omega)]
  simp only [Option.bind_eq_bind, Option.bind_some]
  rw [int_ok (by omega) (by omega)]
  simp only [Option.bind_some]
  rw [yearLoop_eq _ _ _ (by omega) (by omega)]
  simp only [Option.bind_some]
  rw [monthLoop_eq _ _ _ _ (by omega) (by omega) (by omega)]
  simp only [Option.bind_some]
  generalize months (Date.leap d.year) (d.month - 1) 0 = M at *
  have hn' : 365 * Y + leaps (d.year - 1970) 70 + M + ((d.day : Int) - 1) = d.number := hn.symm
  rw [hn']
  have h0 : 0 ≤ d.number := by omega
  generalize d.number = N at *
  rw [int_ok (by omega) (by omega)]
  simp only [Option.bind_some]
  rw [int_ok (by omega) (by omega)]
  simp only [Option.bind_some]
  rw [int_ok (by omega) (by omega)]
  simp only [Option.bind_some]
  rw [int_ok (by omega) (by omega)]
  simp only [Option.bind_some]
  rw [int_ok (by omega) (by omega)]
  simp only [Option.bind_some]
  rw [int_ok (by omega) (by omega)]
  simp only [Option.bind_some]
  rw [int_ok (by omega) (by omega)]
  congr 1; omega

end Notmuch.Compat
