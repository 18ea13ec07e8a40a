import Verif.Base.Bytes

/-!
# Boolean query terms `prefix:term` and `prefix:"te""rm"` as text
-/

namespace Notmuch.BoolTermSpec

/-- `Doubled t q`: `q` is `t` with every double quote (34) doubled. -/
inductive Doubled : Str → Str → Prop
  | nil : Doubled [] []
  | quote {t q} : Doubled t q → Doubled (34 :: t) (34 :: 34 :: q)
  | other {c t q} : c ≠ 34 → Doubled t q → Doubled (c :: t) (c :: q)

def Blank (w : Str) : Prop := ∀ c ∈ w, isSpace c = true

/-- A prefix that the query syntax can carry: not empty, no colon, not starting with a blank. -/
def LegalPrefix (p : Str) : Prop := p ≠ [] ∧ 58 ∉ p ∧ ∀ c, p.head? = some c → isSpace c = false

/-- A term that may stand without quotes: every byte is above the space and is not `)`, and the
first byte is not a double quote. -/
def BareTerm (t : Str) : Prop := (∀ c ∈ t, 32 < c ∧ c ≠ 41) ∧ t.head? ≠ some 34

/-- `Reads s p t`: the text `s` is the boolean term `t` under prefix `p`, bare or quoted, with
optional blanks around. -/
def Reads (s p t : Str) : Prop :=
  LegalPrefix p ∧ ∃ w w', Blank w ∧ Blank w' ∧
    ((BareTerm t ∧ s = w ++ p ++ [58] ++ t ++ w') ∨
     (∃ q, Doubled t q ∧ s = w ++ p ++ [58] ++ ([34] ++ q ++ [34]) ++ w'))

end Notmuch.BoolTermSpec
