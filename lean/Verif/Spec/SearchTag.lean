import Verif.Model.SearchTag

/-! What "the results that overlap a region" and "point is on the line of a result" mean. -/
namespace Notmuch.SearchTag.Spec
open Notmuch.SearchTag

/-- Where line `i` begins: the number of characters of the lines before it. -/
def start (lines : List Line) (i : Nat) : Nat := ((lines.take i).map Line.size).sum

/-- Line `i` is there and has a character that is at `b`, or from `b` on and before `e`. -/
def Touched (lines : List Line) (b e i : Nat) : Prop :=
  i < lines.length ∧ ∃ p, start lines i ≤ p ∧ p < start lines (i + 1) ∧ (p = b ∨ (b ≤ p ∧ p < e))

/-- A position is on line `i`; after all lines if `i` is their number. -/
def OnLine (lines : List Line) (p i : Nat) : Prop :=
  i ≤ lines.length ∧ start lines i ≤ p ∧ (i < lines.length → p < start lines (i + 1))

end Notmuch.SearchTag.Spec
