import Verif.Base.Bytes

/-! # What wrapping of long lines should do, for C82 -/

namespace Notmuch.CooljSpec

/-- A citation leader: marks `>`, each perhaps with a space after it. -/
inductive Leader : Str → Prop
  | nil : Leader []
  | mark {p : Str} : Leader p → Leader (62 :: p)
  | markSpace {p : Str} : Leader p → Leader (62 :: 32 :: p)

/-- `p` is the longest citation leader at the start of `l`. -/
def LeaderOf (p l : Str) : Prop := Leader p ∧ p <+: l ∧ ∀ q, Leader q → q <+: l → q.length ≤ p.length

/-- Nothing but spaces beyond the width. -/
def Fits (width : Nat) (l : Str) : Prop := ∀ j c, width ≤ j → l[j]? = some c → c = 32

/-- There is no place for a break: no space between two words after the leader (nor between the leader and a word, apart from that which belongs to the leader). -/
def NoPlace (l : Str) : Prop := ∀ p, LeaderOf p l → ∀ i j c, p.length ≤ i → i < j → l[i]? = some 32 → l[j]? = some c → c ≠ 32 → ∀ m < i, l[m]? = some 32

/-- A line and the lines it is wrapped to: at each break one space is gone, a word follows, and the leader of the line is put in front of what follows. -/
inductive Wrapped (width : Nat) : Str → List Str → Prop
  | last {l : Str} : Fits width l ∨ NoPlace l → Wrapped width l [l]
  | step {l p a b : Str} {ls : List Str} : l = a ++ 32 :: b → LeaderOf p l → p.length ≤ a.length → Fits width a ∨ NoPlace a → (∃ c b', b = c :: b' ∧ c ≠ 32) → Wrapped width (p ++ b) ls → Wrapped width l (a :: ls)

/-- Lines and what they are wrapped to. -/
inductive WrappedAll (width : Nat) : List Str → List Str → Prop
  | nil : WrappedAll width [] []
  | cons {l : Str} {ls rest out : List Str} : Wrapped width l ls → WrappedAll width rest out → WrappedAll width (l :: rest) (ls ++ out)

/-- Only breaks: spaces replaced by a newline and some leader. -/
inductive Broken : Str → List Str → Prop
  | last {l : Str} : Broken l [l]
  | step {l p a b : Str} {ls : List Str} : l = a ++ 32 :: b → LeaderOf p l → Broken (p ++ b) ls → Broken l (a :: ls)

/-- The same for lines. -/
inductive BrokenAll : List Str → List Str → Prop
  | nil : BrokenAll [] []
  | cons {l : Str} {ls rest out : List Str} : Broken l ls → BrokenAll rest out → BrokenAll (l :: rest) (ls ++ out)

end Notmuch.CooljSpec
