import Verif.Model.Mbox

/-! # Specification: reading mboxrd files (C45) -/

namespace Notmuch.Mbox

open Notmuch.DumpRestore (splitLines)

/-- The lines before the first line that starts with `From `, and each such line with the lines after it. -/
def group : List Str → List Str × List (Str × List Str)
  | [] => ([], [])
  | l :: ls => if (bs "From ").isPrefixOf l then ([], (l, (group ls).1) :: (group ls).2) else (l :: (group ls).1, (group ls).2)

/-- A line that starts with one or more `>` and `From ` loses the first `>`. -/
def unquoteLine : Str → Str
  | [] => []
  | c :: l => if c = 62 ∧ (bs "From ").isPrefixOf (l.dropWhile (· = 62)) then l else c :: l

/-- How an mboxrd file is read: the line `From ...` and the message, of which the newline at the end is dropped that was put there by the writer. -/
def readMbox (s : Str) : List (Str × Str) := (group (splitLines s)).2.map (fun x => (x.1, (x.2.flatMap unquoteLine).dropLast))

/-- A complete line. -/
def Complete (l : Str) : Prop := ∃ b, l = b ++ [10] ∧ 10 ∉ b

/-- The line that precedes a message. -/
def fromLine (m : Mail) : Str := bs "From " ++ m.sender ++ bs " " ++ m.date

/-- The file can be read and has no zero bytes, the sender has no newline, and the date is a line. -/
def Ok (m : Mail) : Prop := m.file.bad = false ∧ 0 ∉ m.file.rest ∧ 10 ∉ m.sender ∧ Complete m.date

end Notmuch.Mbox
