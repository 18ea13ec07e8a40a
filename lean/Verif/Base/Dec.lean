import Verif.Base.Bytes

/-! # Decimal numbers (`printf ("%u")`, `strtol (.., 10)`) -/

namespace Notmuch

/-- The decimal digits of a number; the fuel is enough when it is more than the number. -/
def decAux : Nat → Nat → Str
  | 0, _ => []
  | fuel + 1, n => if n < 10 then [UInt8.ofNat (48 + n)] else decAux fuel (n / 10) ++ [UInt8.ofNat (48 + n % 10)]

/-- `%u`. -/
def dec (n : Nat) : Str := decAux (n + 1) n

/-- The value of a string of digits. -/
def decVal (s : Str) : Nat := s.foldl (fun a c => 10 * a + (c.toNat - 48)) 0

theorem digit_val (n : Nat) (h : n < 10) : (UInt8.ofNat (48 + n)).toNat = 48 + n := by
  rw [UInt8.toNat_ofNat']
  omega

theorem digit_isDigit (n : Nat) (h : n < 10) : isDigit (UInt8.ofNat (48 + n)) = true := by
  have := digit_val n h
  simp only [isDigit, Bool.and_eq_true, decide_eq_true_eq, UInt8.le_iff_toNat_le, this]
  constructor <;> simp <;> omega

theorem decAux_spec : ∀ (fuel n : Nat), n < fuel → decVal (decAux fuel n) = n ∧ (∀ c ∈ decAux fuel n, isDigit c = true) ∧ decAux fuel n ≠ [] := by
  intro fuel
  induction fuel with
  | zero => intro n h; omega
  | succ fuel ih =>
    intro n h
    rw [decAux]
    split
    · rename_i hn
      refine ⟨?_, ?_, by simp⟩
      · simp only [decVal, List.foldl_cons, List.foldl_nil, digit_val n hn]; omega
      · intro c hc
        rw [List.mem_singleton] at hc
        rw [hc]; exact digit_isDigit n hn
    · rename_i hn
      obtain ⟨a, b, c⟩ := ih (n / 10) (by omega)
      refine ⟨?_, ?_, by simp⟩
      · unfold decVal at a ⊢
        rw [List.foldl_append, a]
        simp only [List.foldl_cons, List.foldl_nil, digit_val (n % 10) (by omega)]
        omega
      · intro c hc
        rw [List.mem_append, List.mem_singleton] at hc
        rcases hc with hc | hc
        · exact b c hc
        · rw [hc]; exact digit_isDigit _ (by omega)

theorem decVal_dec (n : Nat) : decVal (dec n) = n := (decAux_spec (n + 1) n (by omega)).1
theorem dec_digits (n : Nat) : ∀ c ∈ dec n, isDigit c = true := (decAux_spec (n + 1) n (by omega)).2.1
theorem dec_ne_nil (n : Nat) : dec n ≠ [] := (decAux_spec (n + 1) n (by omega)).2.2

theorem dec_injective {m n : Nat} (h : dec m = dec n) : m = n := by rw [← decVal_dec m, h, decVal_dec]

/-- A number followed by something that is not a digit is read back. -/
theorem takeWhile_dec (n : Nat) (c : UInt8) (rest : Str) (hc : isDigit c = false) :
    (dec n ++ c :: rest).takeWhile isDigit = dec n ∧ (dec n ++ c :: rest).dropWhile isDigit = c :: rest := by
  rw [List.takeWhile_append_of_pos (dec_digits n), List.dropWhile_append_of_pos (dec_digits n)]
  simp [hc]

end Notmuch
