import Verif.Base.Bytes

/-! # Specification: what the text filters keep (C42) -/

namespace Notmuch.Filter

/-! ## HTML -/

/-- What may be between `<` and `>`: characters other than quotes and `>`, and quoted strings. -/
inductive InTag : Str → Prop
  | nil : InTag []
  | char (c : UInt8) (b : Str) : c ≠ 39 → c ≠ 34 → c ≠ 62 → InTag b → InTag (c :: b)
  | single (q b : Str) : 39 ∉ q → InTag b → InTag (39 :: (q ++ 39 :: b))
  | double (q b : Str) : 34 ∉ q → InTag b → InTag (34 :: (q ++ 34 :: b))

def Tag (t : Str) : Prop := ∃ b, InTag b ∧ t = 60 :: (b ++ [62])

/-- A tag that is not finished, maybe within a quoted string. -/
def OpenTag (t : Str) : Prop := ∃ b r, InTag b ∧ t = 60 :: (b ++ r) ∧ (r = [] ∨ (∃ q, 39 ∉ q ∧ r = 39 :: q) ∨ ∃ q, 34 ∉ q ∧ r = 34 :: q)

/-- A text is made of text without `<`, tags with text after them, and maybe a tag that is not finished. -/
structure HtmlParts (s t0 : Str) (l : List (Str × Str)) (last : Str) : Prop where
  text : 60 ∉ t0
  tags : ∀ x ∈ l, Tag x.1 ∧ 60 ∉ x.2
  rest : last = [] ∨ OpenTag last
  eq : s = t0 ++ l.flatMap (fun x => x.1 ++ x.2) ++ last

/-! ## uuencode -/

/-- `begin`, three octal digits, a name, and the end of the line. -/
def Begin (b : Str) : Prop := ∃ d1 d2 d3 name, (∀ d ∈ [d1, d2, d3], 48 ≤ d ∧ d ≤ 55) ∧ 10 ∉ name ∧ b = bs "begin " ++ [d1, d2, d3] ++ bs " " ++ name ++ [10]

/-- A line of data: an `M`, characters from space to backquote, and one other. -/
def DataLine (m : Str) : Prop := ∃ d c, (∀ x ∈ d, 32 ≤ x ∧ x ≤ 96) ∧ ¬ (32 ≤ c ∧ c ≤ 96) ∧ m = 77 :: (d ++ [c])

/-- What is lost after a begin line: lines of data, and then the end of the text, within a line of data or not, or one character. -/
def Lost (y : Str) : Prop := ∃ (l : List Str) (t : Str), (∀ m ∈ l, DataLine m) ∧ y = l.flatten ++ t ∧
  (t = [] ∨ (∃ d, (∀ x ∈ d, 32 ≤ x ∧ x ≤ 96) ∧ t = 77 :: d) ∨ ∃ c, c ≠ 77 ∧ t = [c])

/-- A text is made of texts that end with a begin line, with what is lost after them, and a last text. -/
structure UuParts (s : Str) (l : List (Str × Str)) (last : Str) : Prop where
  parts : ∀ x ∈ l, (∃ b, Begin b ∧ b <:+ x.1) ∧ Lost x.2
  eq : s = l.flatMap (fun x => x.1 ++ x.2) ++ last

/-! ## Quoting -/

/-- The lines of a text, with their ends. -/
def linesOf : Str → List Str
  | [] => []
  | c :: s =>
    if c = 10 then [10] :: linesOf s
    else
      match linesOf s with
      | [] => [[c]]
      | l :: ls => (c :: l) :: ls

end Notmuch.Filter
