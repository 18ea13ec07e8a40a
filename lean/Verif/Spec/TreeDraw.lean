import Verif.Model.TreeDraw

/-!
# What a drawing of threads means
-/

namespace Notmuch.TreeDrawSpec
open Notmuch.TreeDraw

mutual
/-- The messages of a tree, each before its replies. -/
def preorder {α : Type} : Tree α → List α
  | .node m rs => m :: preorders rs
/-- The messages of several trees in turn. -/
def preorders {α : Type} : List (Tree α) → List α
  | [] => []
  | t :: ts => preorder t ++ preorders ts
end

/-- Does the character reach the line above? -/
def up (c : Char) : Bool := c = '│' || c = '├' || c = '╰'
/-- Does the character reach the line below? -/
def down (c : Char) : Bool := c = '│' || c = '├' || c = '┬'

/-- Column `i` of a line of text has property `p`. -/
def at' (p : Char → Bool) (s : List Char) (i : Nat) : Bool := (s[i]?.map p).getD false

/-- Symbols that can be told apart as far as needed: one character each except the arrow, and the two marks for the first message of a thread are not
those for others. -/
def Readable (σ : Symbols) : Prop :=
  σ.pfx.toList.length = 1 ∧ σ.top.toList.length = 1 ∧ σ.topTee.toList.length = 1 ∧ σ.vertical.toList.length = 1 ∧ σ.verticalTee.toList.length = 1 ∧
  σ.bottom.toList.length = 1 ∧ σ.pfx ≠ σ.verticalTee ∧ σ.pfx ≠ σ.bottom ∧ σ.topTee ≠ σ.verticalTee ∧ σ.topTee ≠ σ.bottom

/-- How a reader completes the subjects of a thread: " ..." repeats the one above. -/
def readSubjects : String → List String → List String
  | _, [] => []
  | above, shown :: rest => let s := if shown = " ..." then above else shown; s :: readSubjects s rest

end Notmuch.TreeDrawSpec
