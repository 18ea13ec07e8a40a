import Verif.Model.Draft

/-!
# What is said about drafts (C79)
-/

namespace Notmuch.Draft

/-- Ignoring case does not make other characters of these four. -/
def FoldOk (fold : UInt8 → UInt8) : Prop := ∀ x ∈ ([60, 35, 33, 47] : List UInt8), ∀ c, fold x = fold c → x = c

/-- ASCII letters without case. -/
def asciiFold (c : UInt8) : UInt8 := if 65 ≤ c ∧ c ≤ 90 then c + 32 else c

/-- The same text up to case. -/
def Same (fold : UInt8 → UInt8) (a b : Str) : Prop := a.map fold = b.map fold

/-- The text looks as if it were to be encrypted. -/
def WantsEncryption (fold : UInt8 → UInt8) (body : Str) : Prop :=
  (∃ a p b, body = a ++ p ++ b ∧ Same fold p (bs "<#part encrypt")) ∨
  ∃ a p b q c r d, body = a ++ p ++ b ++ q ++ c ++ r ++ d ∧ Same fold p (bs "<#secure") ∧ Same fold q (bs "mode=") ∧ Same fold r (bs "encrypt>") ∧ 10 ∉ b ∧ 10 ∉ c

/-- The drafts that notmuch was given, in order. -/
def inserted (fold : UInt8 → UInt8) (tags : List Str) : List Event → List (Str × Msg)
  | [] => []
  | .save id date m policy ins _ :: es =>
    if (encTag fold m.body && !policy.allows) || !ins then inserted fold tags es else (id, saved fold tags id date m) :: inserted fold tags es
  | .send _ _ :: es => inserted fold tags es

/-- The drafts in the database when all but the last are deleted. -/
def ended : List (Str × Msg) → List Entry
  | [] => []
  | [x] => [⟨x.1, x.2, false⟩]
  | x :: y :: xs => ⟨x.1, x.2, true⟩ :: ended (y :: xs)

/-- No step sends the message. -/
def NoSend (es : List Event) : Prop := ∀ e ∈ es, ∀ a b, e ≠ .send a b

end Notmuch.Draft
