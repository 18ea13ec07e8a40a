/-!
# emacs/notmuch-wash.el: the file name of an inline patch

Subjects are lists of characters.  `canon` is Emacs' case table (`case-fold-search` is t by default, so that a set of a regular expression has a character
if it has one of the same canonical case).  Greedy and backtracking matching of the three regular expressions is written out.
-/

namespace Notmuch.PatchName

/-- The characters that `[A-Za-z0-9._]` stands for (emacs/notmuch-wash.el:356). -/
def titleChars : List Char := "ABCDEFGHIJKLMNOPQRSTUVWXYZabcdefghijklmnopqrstuvwxyz0123456789._".toList

/-- Does the set `[A-Za-z0-9._]` (emacs/notmuch-wash.el:356) have the character? -/
def isTitle (canon : Char → Char) (c : Char) : Bool := titleChars.any fun m => canon m == canon c

/-- `\(\[[^]]*\] *\)*` (emacs/notmuch-wash.el:355), greedy: the contents of the brackets, and what is left.  The number bounds the repetitions. -/
def groups : Nat → List Char → List (List Char) × List Char
  | 0, s => ([], s)
  | n + 1, s =>
    match s with
    | '[' :: r =>
      match r.dropWhile (· ≠ ']') with
      | _ :: t =>
        let g := groups n (t.dropWhile (· == ' '))
        (r.takeWhile (· ≠ ']') :: g.1, g.2)
      | [] => ([], s)
    | _ => ([], s)

/-- `^ *\(\[[^]]*\] *\)*` (emacs/notmuch-wash.el:355) at the beginning of a line. -/
def lineGroups (s : List Char) : List (List Char) × List Char := groups s.length (s.dropWhile (· == ' '))

/-- `replace-regexp-in-string` of `^ *\(\[[^]]*\] *\)*` by the empty string (emacs/notmuch-wash.el:355), from the beginning of a line; it also matches at
later lines.  The number bounds the lines. -/
def stripPrefixes : Nat → List Char → List Char
  | 0, s => s
  | n + 1, s =>
    let r := (lineGroups s).2
    match r.dropWhile (· ≠ '\n') with
    | [] => r
    | c :: t => r.takeWhile (· ≠ '\n') ++ c :: stripPrefixes n t

/-- `replace-regexp-in-string` of a run of characters (`[^A-Za-z0-9._]+`, `\.+`: emacs/notmuch-wash.el:356-357) by one character.  `inRun`: the last
character was of the run. -/
def squeeze (p : Char → Bool) (r : Char) : Bool → List Char → List Char
  | _, [] => []
  | inRun, c :: s => if p c then (if inRun then squeeze p r true s else r :: squeeze p r true s) else c :: squeeze p r false s

/-- `replace-regexp-in-string` of `[.-]*$` by the empty string (emacs/notmuch-wash.el:359), when there is no newline. -/
def trim (s : List Char) : List Char := (s.reverse.dropWhile fun c => c == '.' || c == '-').reverse

/-- `notmuch-wash-subject-to-filename` (emacs/notmuch-wash.el:345-360). -/
def subjectToFilename (canon : Char → Char) (subject : List Char) (maxlen : Option Nat) : List Char :=
  let s := stripPrefixes (subject.length + 1) subject
  let s := squeeze (fun c => !isTitle canon c) '-' false s
  let s := squeeze (· == '.') '.' false s
  let s := match maxlen with
    | some m => s.take (min s.length m)
    | none => s
  trim s

/-- `[^]]*?\([0-9]+\)/[0-9]+[^]]*` on the content of a bracket (emacs/notmuch-wash.el:368): the digits of the first group, at the first place. -/
def digitsSlash : List Char → Option (List Char)
  | [] => none
  | c :: s =>
    match (c :: s).dropWhile Char.isDigit with
    | '/' :: d :: _ => if c.isDigit && d.isDigit then some ((c :: s).takeWhile Char.isDigit) else digitsSlash s
    | _ => digitsSlash s

/-- The whole regular expression (emacs/notmuch-wash.el:368) from the beginning of a line: the greedy repetition gives up brackets from the right. -/
def sequenceHere (s : List Char) : Option (List Char) := (lineGroups s).1.reverse.findSome? digitsSlash

/-- `string-match` (emacs/notmuch-wash.el:367-368): the first beginning of a line from which it matches. -/
def sequenceAt : Bool → List Char → Option (List Char)
  | _, [] => none
  | bol, c :: s =>
    match if bol then sequenceHere (c :: s) else none with
    | some d => some d
    | none => sequenceAt (c == '\n') s

/-- `string-to-number` of decimal digits (emacs/notmuch-wash.el:370). -/
def number (ds : List Char) : Nat := ds.foldl (fun n c => 10 * n + (c.toNat - 48)) 0

/-- `notmuch-wash-subject-to-patch-sequence-number` (emacs/notmuch-wash.el:362-370). -/
def sequenceNumber (subject : List Char) : Option Nat := (sequenceAt true subject).map number

/-- `format` with `%04d` of a number that is not negative (emacs/notmuch-wash.el:379). -/
def pad4 (n : Nat) : List Char := List.replicate (4 - n.repr.length) '0' ++ n.repr.toList

/-- `notmuch-wash-subject-to-patch-filename` (emacs/notmuch-wash.el:372-381). -/
def patchFilename (canon : Char → Char) (subject : List Char) : List Char :=
  pad4 ((sequenceNumber subject).getD 1) ++ '-' :: subjectToFilename canon subject (some 52) ++ ".patch".toList

end Notmuch.PatchName
