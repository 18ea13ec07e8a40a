/-!
# Byte strings

A C string is a list of bytes; the terminating NUL is not part of the list.
Nothing in this file models notmuch: it holds the `ctype.h` predicates (C locale)
and a few list facts.
-/

namespace Notmuch

/-- A C string without its terminating NUL. -/
abbrev Str := List UInt8

/-- The bytes of an ASCII literal, for readable examples and constant tables. -/
def bs (s : String) : Str := s.toList.map (fun c => c.toNat.toUInt8)

/-- `isspace` of the C locale: space, `\t`, `\n`, `\v`, `\f`, `\r`. -/
def isSpace (b : UInt8) : Bool := b == 32 || (9 ≤ b && b ≤ 13)

/-- `isdigit`. -/
def isDigit (b : UInt8) : Bool := 48 ≤ b && b ≤ 57

/-- `isxdigit` of the C locale. -/
def isXDigit (b : UInt8) : Bool :=
  (48 ≤ b && b ≤ 57) || (65 ≤ b && b ≤ 70) || (97 ≤ b && b ≤ 102)

/-- `isupper`, `islower`, `isalpha`, `isalnum` of the C locale. -/
def isUpper (b : UInt8) : Bool := 65 ≤ b && b ≤ 90
def isLower (b : UInt8) : Bool := 97 ≤ b && b ≤ 122
def isAlpha (b : UInt8) : Bool := isUpper b || isLower b
def isAlnum (b : UInt8) : Bool := isAlpha b || isDigit b

/-- `tolower` of the C locale. -/
def toLower (b : UInt8) : UInt8 := if isUpper b then b + 32 else b

/-- Value of a hexadecimal digit, as `strtoul (.., 16)` reads it (0 for other bytes). -/
def xval (b : UInt8) : Nat :=
  if 48 ≤ b ∧ b ≤ 57 then b.toNat - 48
  else if 65 ≤ b ∧ b ≤ 70 then b.toNat - 55
  else if 97 ≤ b ∧ b ≤ 102 then b.toNat - 87
  else 0

/-- A decidable fact about bytes holds of every byte when it holds of the 256 of them. -/
theorem forall_byte {P : UInt8 → Prop} (h : ∀ n : Fin 256, P (UInt8.ofFin n)) : ∀ b, P b :=
  fun b => by simpa using h b.toFin

/-- `strspn`-like skipping of leading blanks (`skip_space`, util/string-util.c:165-171). -/
def skipSpace (s : Str) : Str := s.dropWhile isSpace

end Notmuch
