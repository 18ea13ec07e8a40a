import Verif.Base.Bytes

/-!
# What hex escaping means (independent of the code)
-/

namespace Notmuch.HexSpec

/-- `HexVal h v`: the byte `h` is the hexadecimal digit of value `v` (either case). -/
inductive HexVal : UInt8 → Nat → Prop
  | digit (n : Nat) (h : n < 10) : HexVal (UInt8.ofNat (48 + n)) n
  | upper (n : Nat) (h : n < 6) : HexVal (UInt8.ofNat (65 + n)) (10 + n)
  | lower (n : Nat) (h : n < 6) : HexVal (UInt8.ofNat (97 + n)) (10 + n)

/-- `Unescapes s t`: `t` is `s` with every `%XY` replaced by the byte of value `0xXY` and
every other byte kept. 37 is `%`. -/
inductive Unescapes : Str → Str → Prop
  | nil : Unescapes [] []
  | lit {c s t} : c ≠ 37 → Unescapes s t → Unescapes (c :: s) (c :: t)
  | esc {h1 h2 v1 v2 s t} : HexVal h1 v1 → HexVal h2 v2 → Unescapes s t →
      Unescapes (37 :: h1 :: h2 :: s) (UInt8.ofNat (16 * v1 + v2) :: t)

/-- Some `%` in `s` is not followed by two hexadecimal digits. -/
def Malformed (s : Str) : Prop :=
  ∃ p q, s = p ++ 37 :: q ∧ ¬ ∃ h1 h2 v1 v2 r, q = h1 :: h2 :: r ∧ HexVal h1 v1 ∧ HexVal h2 v2

/-- The characters that may appear in hex-encoded text: ASCII letters, digits, `+-_@=.,`
and the escape character `%`. -/
def SafeChar (b : UInt8) : Prop :=
  (65 ≤ b ∧ b ≤ 90) ∨ (97 ≤ b ∧ b ≤ 122) ∨ (48 ≤ b ∧ b ≤ 57) ∨
  b = 43 ∨ b = 45 ∨ b = 95 ∨ b = 64 ∨ b = 61 ∨ b = 46 ∨ b = 44 ∨ b = 37

end Notmuch.HexSpec
