import Verif.Base.Bytes

/-! # Message ids in headers: what the properties talk about -/

namespace Notmuch.MessageIdSpec

/-- The inside of an RFC 822 comment. -/
inductive CommentText : Str → Prop
  | nil : CommentText []
  | plain {c : UInt8} {t : Str} : c ≠ 0 → c ≠ 40 → c ≠ 41 → c ≠ 92 → CommentText t → CommentText (c :: t)
  | escaped {c : UInt8} {t : Str} : c ≠ 0 → CommentText t → CommentText (92 :: c :: t)
  | nested {s t : Str} : CommentText s → CommentText t → CommentText (40 :: s ++ 41 :: t)

/-- Whitespace and comments. -/
inductive Blank : Str → Prop
  | nil : Blank []
  | space {c : UInt8} {t : Str} : isSpace c = true → Blank t → Blank (c :: t)
  | comment {s t : Str} : CommentText s → Blank t → Blank (40 :: s ++ 41 :: t)

/-- What may stand before the `<` of an id: whitespace and comments, then other text. -/
def Before (t : Str) : Prop :=
  ∃ b other, t = b ++ other ∧ Blank b ∧ (∀ c ∈ other, c ≠ 60 ∧ c ≠ 0) ∧ ∀ c, other.head? = some c → isSpace c = false ∧ c ≠ 40

/-- An id of at least two bytes, none of them whitespace, NUL or `>`, the first not `(`. -/
def PlainId (i : Str) : Prop :=
  2 ≤ i.length ∧ (∀ c ∈ i, c ≠ 0 ∧ c ≠ 62 ∧ isSpace c = false) ∧ i.head? ≠ some 40

/-- No two blanks next to each other. -/
def SingleBlanks (i : Str) : Prop := ∀ a b x y, i = a ++ x :: y :: b → ¬ ((x = 32 ∨ x = 9) ∧ (y = 32 ∨ y = 9))

end Notmuch.MessageIdSpec
