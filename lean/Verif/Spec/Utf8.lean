import Verif.Base.Bytes

/-! # Specification: UTF-8 (the Unicode standard, 3.9 D92, table 3-6) -/

namespace Notmuch.Utf8Spec

/-- A code point of a character that a C string can have: not zero, not a surrogate, and not after U+10FFFF. -/
def Scalar (n : Nat) : Prop := 0 < n ∧ n < 0x110000 ∧ ¬ (0xD800 ≤ n ∧ n < 0xE000)

/-- The bytes of a character. -/
def encode (n : Nat) : Str :=
  if n < 0x80 then [UInt8.ofNat n]
  else if n < 0x800 then [UInt8.ofNat (0xC0 + n / 64), UInt8.ofNat (0x80 + n % 64)]
  else if n < 0x10000 then [UInt8.ofNat (0xE0 + n / 4096), UInt8.ofNat (0x80 + n / 64 % 64), UInt8.ofNat (0x80 + n % 64)]
  else [UInt8.ofNat (0xF0 + n / 262144), UInt8.ofNat (0x80 + n / 4096 % 64), UInt8.ofNat (0x80 + n / 64 % 64), UInt8.ofNat (0x80 + n % 64)]

/-- A text in UTF-8. -/
def Valid (s : Str) : Prop := ∃ us : List Nat, (∀ u ∈ us, Scalar u) ∧ s = us.flatMap encode

end Notmuch.Utf8Spec
