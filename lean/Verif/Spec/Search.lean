import Verif.Model.Search
import Verif.Spec.Sprinter
import Verif.Spec.Query
import Verif.Spec.TermList

/-! # Specification: what `notmuch search` prints (C46) -/

namespace Notmuch.Search

open Notmuch.Query Notmuch.Sprinter
open Notmuch.StringUtil (sanitize)

/-- The part of a list that `--offset` and `--limit` ask for: a negative offset counts from the end, a negative limit is none. -/
def window {α : Type} (offset limit : Int) (l : List α) : List α :=
  let rest := if offset < 0 then l.drop (l.length - offset.natAbs) else l.drop offset.toNat
  if limit < 0 then rest else rest.take limit.toNat

/-- The file names that `--duplicate` asks for. -/
def selectFiles (dupe : Int) (l : List Str) : List Str :=
  if dupe < 0 then l else if dupe = 0 then [] else (l[dupe.toNat - 1]?).toList

/-- What is excluded: nothing with `--exclude=false`, nor with `--exclude=flag` when the output has no place for the flag. -/
def excluded (ex : List Str) (o : Opts) : List Str × Exclude :=
  if o.exclude = .no ∨ (o.exclude = .flag ∧ o.output ≠ .summary) then ([], .yes) else (ex, o.exclude)

/-- The query of the library that the command stands for. -/
def theQuery (x : XQuery) (ex : List Str) (o : Opts) : Query := QuerySpec.build x (excluded ex o).1 (excluded ex o).2 o.sort

/-- The numbers of the command line and of the database can be added. -/
def Fits (db : List Doc) (o : Opts) : Prop :=
  -2147483648 ≤ o.offset ∧ db.length ≤ 2147483647 ∧ (o.limit < 0 ∨ (o.offset + o.limit ≤ 2147483647 ∧ (db.length : Int) + o.limit ≤ 2147483647))

/-- A C string as a JSON value. -/
def strVal (s : Str) : Val := .str (cstr (some s))

/-- A string or null. -/
def optVal : Option Str → Val
  | none => .null
  | some s => strVal s

/-- The date of a thread: of its oldest matching message when the oldest come first, else of the newest. -/
def shownDate : SortOrder → Thread → Int
  | .oldestFirst, th => th.oldest
  | .newestFirst, th => th.newest
  | .messageId, th => th.newest
  | .unsorted, th => th.newest

/-- The map for a thread. -/
def threadVal (sortTags : List Str → List Str) (rel : Int → Str) (o : Opts) (th : Thread) : Val :=
  .obj ([(bs "thread", strVal th.threadId), (bs "timestamp", .int (shownDate o.sort th)), (bs "date_relative", strVal (rel (shownDate o.sort th))),
    (bs "matched", .int th.matchedMessages), (bs "total", .int th.totalMessages), (bs "authors", strVal (authorsString th)),
    (bs "subject", strVal (th.subject.getD []))] ++
    (if o.version ≥ 2 then [(bs "query", .list [optVal (threadQuery th).1, optVal (threadQuery th).2])] else []) ++
    [(bs "tags", .list ((sortTags th.tags).map strVal))])

/-- The line for a thread, without its newline. -/
def threadLine (sortTags : List Str → List Str) (rel : Int → Str) (o : Opts) (th : Thread) : Str :=
  bs "thread:" ++ th.threadId ++ bs " " ++ pad12 (rel (shownDate o.sort th)) ++ bs " " ++
  bs "[" ++ printInt th.matchedMessages ++ bs "/" ++ printInt th.totalMessages ++
  (if th.totalMessages = th.totalFiles then [] else bs "(" ++ printInt th.totalFiles ++ bs ")") ++
  bs "] " ++ sanitize (authorsString th) ++ bs "; " ++ sanitize (th.subject.getD []) ++ bs " (" ++ (bs " ").intercalate (sortTags th.tags) ++ bs ")"

/-- Reading records that end with a separator. -/
def records (sep : UInt8) : Str → List Str
  | [] => []
  | c :: s =>
    if c = sep then [] :: records sep s
    else match records sep s with
      | [] => [[c]]
      | l :: ls => (c :: l) :: ls

/-- Reading a quoted term, after the first quote: a quote in it is doubled. -/
def readQuoted : Str → Option (Str × Str)
  | [] => none
  | [c] => if c = 34 then some ([], []) else none
  | c :: d :: s =>
    if c = 34 then (if d = 34 then (readQuoted s).map (fun r => (34 :: r.1, r.2)) else some ([], d :: s))
    else (readQuoted (d :: s)).map (fun r => (c :: r.1, r.2))

/-- Reading a term: quoted, or up to a blank or parenthesis. -/
def readTerm : Str → Option (Str × Str)
  | [] => some ([], [])
  | c :: s =>
    if c = 34 then readQuoted s
    else some ((c :: s).takeWhile (fun c => 32 < c && c ≠ 41), (c :: s).dropWhile (fun c => 32 < c && c ≠ 41))

/-- Reading a query `id:... id:... ...`. -/
def readIds : Nat → Str → Option (List Str)
  | 0, _ => none
  | n + 1, s =>
    if (bs "id:").isPrefixOf s then
      match readTerm (s.drop 3) with
      | none => none
      | some (t, []) => some [t]
      | some (t, c :: rest) => if c = 32 then (readIds n rest).map (t :: ·) else none
    else none

end Notmuch.Search
