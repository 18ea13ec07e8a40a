import Verif.Model.BlankLines

/-!
# Lines and paragraphs
-/

namespace Notmuch.BlankLinesSpec

/-- The lines of a text, without their newlines. -/
def lines : List Char → List (List Char)
  | [] => [[]]
  | c :: s =>
    if c = '\n' then [] :: lines s
    else
      match lines s with
      | l :: ls => (c :: l) :: ls
      | [] => [[c]]

/-- The lines that are not blank, each with whether a blank line (or, with true, nothing) is before it. -/
def gaps (sp : Char → Bool) : Bool → List (List Char) → List (Bool × List Char)
  | _, [] => []
  | b, l :: ls => if l.all sp then gaps sp true ls else (b, l) :: gaps sp false ls

end Notmuch.BlankLinesSpec
