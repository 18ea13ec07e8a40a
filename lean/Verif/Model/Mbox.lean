import Verif.Model.DumpRestore

/-!
# Reading lines of files that may be compressed, and the mbox format

util/zlib-extra.c, notmuch-show.c:200-225, 880-933.
-/

namespace Notmuch.Mbox

open Notmuch.DumpRestore (splitLines)

/-- What is left to read: `bad` if reading fails after `rest`, as in a damaged compressed file. -/
structure Stream where
  rest : Str
  bad : Bool

/-- The bytes that `gzgets` puts in a buffer of `n + 1` bytes: at most `n`, up to a newline. -/
def gzTake : Nat → Str → Str × Str
  | _, [] => ([], [])
  | 0, s => ([], s)
  | n + 1, c :: s => if c = 10 then ([10], s) else (c :: (gzTake n s).1, (gzTake n s).2)

/-- Did `gzgets` stop because there was nothing left? -/
def hitEnd (n : Nat) (s : Str) : Bool := (gzTake n s).2.isEmpty && (gzTake n s).1.length < n && (gzTake n s).1.getLast? ≠ some 10

inductive Line where
  | eof
  | error
  /-- the line, what is left, and the size of the buffer -/
  | line (l : Str) (rest : Str) (len : Nat)
  /-- undefined behaviour: `buf[-1]` -/
  | undefined
  deriving DecidableEq

/-- The loop of `gz_getline`, util/zlib-extra.c:43-72; `len` is the size of the buffer, `line` its content.  Simplified: `len` has no bound, and
memory does not run out.  `none` when the `fuel` does not suffice. -/
def getlineLoop (bad : Bool) : Nat → Nat → Str → Str → Option Line
  | 0, _, _, _ => none
  | fuel + 1, len, line, rest =>
    let n := len - line.length - 1
    if hitEnd n rest && bad then some .error
    else if (gzTake n rest).1 = [] then some (if line = [] then .eof else .line line (gzTake n rest).2 len)
    else
      let line := line ++ (gzTake n rest).1.takeWhile (· ≠ 0)
      match line.getLast? with
      | none => some .undefined
      | some c => if c = 10 then some (.line line (gzTake n rest).2 len) else getlineLoop bad fuel (2 * len) line (gzTake n rest).2

/-- `gz_getline`, util/zlib-extra.c:26-74, with a buffer of `len` bytes from the last call, or of 120. -/
def getline (fuel : Nat) (len : Option Nat) (s : Stream) : Option Line := getlineLoop s.bad fuel (len.getD 120) [] s.rest

/-- All lines, as `notmuch_restore_command` reads them (notmuch-restore.c:321-341, 430); `none` when there is an error. -/
def allLines (bad : Bool) : Nat → Option Nat → Str → Option (List Str)
  | 0, _, _ => none
  | fuel + 1, len, rest =>
    match getline (rest.length + 2) len ⟨rest, bad⟩ with
    | some .eof => some []
    | some (.line l rest' len') => (allLines bad fuel (some len') rest').map (l :: ·)
    | _ => none

/-- `_is_from_line`, notmuch-show.c:210-225. -/
def isFromLine (l : Str) : Bool := (bs "From ").isPrefixOf (l.dropWhile (· = 62))

/-- notmuch-show.c:923-925. -/
def quoteLine (l : Str) : Str := if isFromLine l then 62 :: l else l

/-- The loop of `format_part_mbox`, notmuch-show.c:922-926: only `UTIL_EOF` ends it; after an error, the last line is printed again.
`none` when the `fuel` does not suffice. -/
def mboxLoop (bad : Bool) : Nat → Option Nat → Str → Str → Option Str
  | 0, _, _, _ => none
  | fuel + 1, len, last, rest =>
    match getline (rest.length + 2) len ⟨rest, bad⟩ with
    | some .eof => some []
    | some (.line l rest' len') => (mboxLoop bad fuel (some len') l rest').map (quoteLine l ++ ·)
    | some .error => (mboxLoop bad fuel len last rest).map (quoteLine last ++ ·)
    | _ => none

/-- A message: the address of its sender, its date as `asctime_r` writes it, with a newline at the end, and its file. -/
structure Mail where
  sender : Str
  date : Str
  file : Stream

/-- `format_part_mbox`, notmuch-show.c:886-933, for a file that can be opened. -/
def formatMbox (fuel : Nat) (m : Mail) : Option Str :=
  (mboxLoop m.file.bad fuel none [] m.file.rest).map (fun s => bs "From " ++ m.sender ++ bs " " ++ m.date ++ s ++ bs "\n")

/-- The output for several messages. -/
def mbox (fuel : Nat) : List Mail → Option Str
  | [] => some []
  | m :: l => (formatMbox fuel m).bind (fun s => (mbox fuel l).map (s ++ ·))

end Notmuch.Mbox
