/-!
# emacs/notmuch-wash.el: eliding blank lines

Texts are lists of characters.  `sp` is the class of whitespace of the syntax table (with tab); in the standard syntax table, which notmuch-show buffers have,
newline is in it, so that `^[[:space:]\t]+$` matches several lines.  Searches and matches are written out.
-/

namespace Notmuch.BlankLines

variable (sp : Char → Bool)

/-- `[[:space:]\t]+$` (emacs/notmuch-wash.el:283) from a place on, greedy and backtracking: what is left after the longest match. -/
def endOf : List Char → Option (List Char)
  | [] => none
  | c :: s =>
    if sp c then
      match endOf s with
      | some r => some r
      | none => if s.isEmpty || s.head? == some '\n' then some s else none
    else none

/-- Make all blank lines empty (emacs/notmuch-wash.el:282-284), from a place that is (`bol`) or is not at the beginning of a line.  After a replacement point
is at the beginning of a line.  The number bounds the turns. -/
def emptyBlank : Nat → Bool → List Char → List Char
  | 0, _, s => s
  | _ + 1, _, [] => []
  | n + 1, bol, c :: s =>
    match if bol then endOf sp (c :: s) else none with
    | some r => emptyBlank n true r
    | none => c :: emptyBlank n (c == '\n') s

/-- Replace multiple empty lines with a single empty line (emacs/notmuch-wash.el:286-288). -/
def collapse : Nat → Bool → List Char → List Char
  | 0, _, s => s
  | _ + 1, _, [] => []
  | n + 1, bol, c :: s =>
    if bol && c == '\n' && s.head? == some '\n' then '\n' :: collapse n true (s.dropWhile (· == '\n'))
    else c :: collapse n (c == '\n') s

/-- `looking-at "\n"` and `delete-region` (emacs/notmuch-wash.el:291-292, 295-296) from a place on. -/
def dropNewline : List Char → List Char
  | [] => []
  | c :: s => if c = '\n' then s else c :: s

/-- `notmuch-wash-elide-blank-lines` (emacs/notmuch-wash.el:277-296): the trailing blank line is looked for at the end of the buffer, where nothing is. -/
def elide (s : List Char) : List Char :=
  let s := emptyBlank sp s.length true s
  let s := collapse s.length true s
  let s := dropNewline s
  s ++ dropNewline []

end Notmuch.BlankLines
