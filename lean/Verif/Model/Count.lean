import Verif.Model.Cli
import Verif.Model.Query
import Verif.Model.Sprinter
import Verif.Model.DumpRestore

/-! # `notmuch count` -/

namespace Notmuch.Count

open Notmuch.Args Notmuch.Cli Notmuch.Query
open Notmuch.Sprinter (printInt)

/-- notmuch-count.c:24-28. -/
inductive Output where
  | threads
  | messages
  | files
  deriving DecidableEq

/-- What the command works on: whether s-expressions can be parsed (`HAVE_SFSEXP`), the parsers, the database, `search.exclude_tags`, and what can be
read.  `parse` fails for texts that are no query.  Not modelled: exceptions of Xapian while searching. -/
structure Env where
  haveSexp : Bool
  parse : Bool → Str → Option XQuery
  ord : SortOrder → List Doc → List Doc
  filenames : Doc → List Str
  db : List Doc
  uuid : Str
  revision : Nat
  excludes : List Str
  stdin : Str
  file : Str → Option Str

/-- The inner loop of `count_files`, notmuch-count.c:53-56: `none` if `count` overflows. -/
def countNames : Nat → List Str → Option Nat
  | n, [] => some n
  | n, _ :: l => if n + 1 > 2147483647 then none else countNames (n + 1) l

/-- The outer loop, notmuch-count.c:46-60. -/
def countMessagesFiles (filenames : Doc → List Str) : Nat → List (Doc × Bool) → Option Nat
  | n, [] => some n
  | n, m :: l =>
    match countNames n (filenames m.1) with
    | none => none
    | some n => countMessagesFiles filenames n l

/-- `count_files`, notmuch-count.c:30-65. -/
def countFiles (E : Env) (q : Query) : Option Nat :=
  match searchMessages E.ord E.db q with
  | none => none
  | some ms => countMessagesFiles E.filenames 0 ms

/-- The number, notmuch-count.c:98-118. -/
def number (E : Env) (q : Query) : Output → Option Nat
  | .messages => some (countMessages E.db q)
  | .threads => countThreads E.ord E.db q
  | .files => countFiles E q

/-- What is after the number, notmuch-count.c:120-125. -/
def tail (E : Env) (lastmod : Bool) : Str :=
  if lastmod then bs "\t" ++ E.uuid ++ bs "\t" ++ printInt E.revision ++ bs "\n" else bs "\n"

/-- `print_count`, notmuch-count.c:67-131: no failure, and what is printed; `none` is undefined behaviour, such as destroying the query that was not
created. -/
def printCount (E : Env) (sexp : Bool) (ex : List Str) (out : Output) (lastmod : Bool) (text : Str) : Option (Bool × Str) :=
  if sexp && !E.haveSexp then none
  else
    match E.parse sexp text with
    | none => some (false, [])
    | some x =>
      match number E (ex.foldl (fun q t => (addTagExclude q t).2) (mkQuery x)) out with
      | none => none
      | some n => some (true, printInt n ++ tail E lastmod)

/-- A line as the query text, notmuch-count.c:143 and notmuch-client.h:106-111: in a line that begins with NUL, `chomp_newline` reads before the
beginning. -/
def lineText (l : Str) : Option Str := if l.head? = some 0 then none else some (TagUtil.chomp (TagUtil.cstr l))

/-- `count_file`, notmuch-count.c:133-152. -/
def countLines (E : Env) (sexp : Bool) (ex : List Str) (out : Output) (lastmod : Bool) : List Str → Option (Bool × Str)
  | [] => some (true, [])
  | l :: ls =>
    match lineText l with
    | none => none
    | some text =>
      match printCount E sexp ex out lastmod text with
      | none => none
      | some (false, s) => some (false, s)
      | some (true, s) => (countLines E sexp ex out lastmod ls).map (fun r => (r.1, s ++ r.2))

/-- The options, notmuch-count.c:158-181; the numbers of the variables are those of `countOptions`. -/
structure Opts where
  output : Output
  exclude : Bool
  lastmod : Bool
  batch : Bool
  input : Option Str
  deriving DecidableEq

/-- The value of the keyword, notmuch-count.c:170-173. -/
def outputOf (i : Int) : Output := if i = 0 then .threads else if i = 1 then .messages else .files

/-- What the options set, notmuch-count.c:158-181. -/
def optsOf (w : List Write) : Opts := ⟨outputOf (keywordVar 10 1 w), boolVar 11 true w, boolVar 12 false w, boolVar 13 false w, stringVar 14 w⟩

/-- The exit status, notmuch-count.c:227. -/
def ended : Option (Bool × Str) → End
  | none => .crash
  | some (ok, s) => .exit (if ok then 0 else 1) s

/-- From the excluded tags on, notmuch-count.c:206-227: what is read in batches, or the query text. -/
def run (E : Env) (s : Shared) (o : Opts) (input : Option Str) (text : Str) : End :=
  let ex := if o.exclude then E.excludes else []
  match input with
  | some i => ended (countLines E s.sexp ex o.output o.lastmod (DumpRestore.splitLines i))
  | none => ended (printCount E s.sexp ex o.output o.lastmod text)

/-- `notmuch_count_command`, notmuch-count.c:154-228; `args` are the arguments after the name of the command. -/
def countCommand (X : Sys) (E : Env) (s : Shared) (name : Str) (args : List Str) : End :=
  match parse countOptions args with
  | (.failed, _) => .exit 1 []
  | (.overrun, _) => .crash
  | (.rest words, w) =>
    match processShared X (some E.uuid) (w.foldl Shared.write s) (some name) with
    | some e => e
    | none =>
      match (optsOf w).input with
      | some f =>
        match E.file f with
        | none => .exit 1 []
        | some i => if words = [] then run E (w.foldl Shared.write s) (optsOf w) (some i) [] else .exit 1 []
      | none =>
        if (optsOf w).batch then (if words = [] then run E (w.foldl Shared.write s) (optsOf w) (some E.stdin) [] else .exit 1 [])
        else run E (w.foldl Shared.write s) (optsOf w) none (queryString words)

end Notmuch.Count
