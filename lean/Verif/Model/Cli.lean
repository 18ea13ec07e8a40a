import Verif.Model.ArgTables

/-!
# The options that all commands share, and what the process does at its end

Not modelled: the messages on standard error, and `NOTMUCH_TALLOC_REPORT`.
-/

namespace Notmuch.Cli

open Notmuch.Args

/-- What the shared options set, notmuch.c:55-57: static variables, so that what is given before the name of the command is still there after it. -/
structure Shared where
  version : Bool
  help : Bool
  uuid : Option Str
  sexp : Bool
  deriving DecidableEq

/-- The initial values, notmuch.c:55-57. -/
def Shared.init : Shared := ⟨false, false, none, false⟩

/-- The effect of an option, notmuch.c:59-69; the numbers of the variables are those of `sharedOptions`. -/
def Shared.write (s : Shared) : Write → Shared
  | .bool v b => if v = 1 then { s with version := b } else if v = 2 then { s with help := b } else s
  | .string v u => if v = 3 then { s with uuid := some u } else s
  | .keyword v i => if v = 4 then { s with sexp := i == 1 } else s
  | _ => s

/-- The last value written to a Boolean variable, or what it was before (command-line-arguments.c:70-90). -/
def boolVar (v : Nat) (d : Bool) (w : List Write) : Bool :=
  w.foldl (fun b x => match x with | .bool v' b' => if v' = v then b' else b | _ => b) d

/-- The same for a keyword (command-line-arguments.c:19-68). -/
def keywordVar (v : Nat) (d : Int) (w : List Write) : Int :=
  w.foldl (fun b x => match x with | .keyword v' b' => if v' = v then b' else b | _ => b) d

/-- The same for a string (command-line-arguments.c:110-124). -/
def stringVar (v : Nat) (w : List Write) : Option Str :=
  w.foldl (fun b x => match x with | .string v' b' => if v' = v then some b' else b | _ => b) none

/-- What trying to run a program gives: it runs, it does not exist (`ENOENT`), or another error. -/
inductive Exec where
  | runs
  | missing
  | fails
  deriving DecidableEq

/-- The system around the process. -/
structure Sys where
  version : Str
  usage : Str
  exec : List Str → Exec

/-- How the process ends: with a status, having printed something; as another program, with `NOTMUCH_CONFIG` set for it or not; or by undefined
behaviour. -/
inductive End where
  | exit (code : Nat) (out : Str)
  | exec (argv : List Str) (config : Option Str)
  | crash
  deriving DecidableEq

/-- `_help_for`, notmuch.c:328-360, with `exec_man`, notmuch.c:319-326.  The text for the topic `help` is that of notmuch.c:340-345. -/
def helpFor (X : Sys) : Option Str → End
  | none => .exit 0 (bs "The notmuch mail system.\n\n" ++ X.usage)
  | some t =>
    if t = bs "help" then
      .exit 0 (bs "The notmuch help system.\n\n\tNotmuch uses the man command to display help. In case\n\tof difficulties check that MANPATH includes the pages\n\tinstalled by notmuch.\n\n\tTry \"notmuch help\" for a list of topics.\n")
    else if X.exec [bs "man", bs "notmuch-" ++ t] = .runs then .exec [bs "man", bs "notmuch-" ++ t] none
    else .exit 1 []

/-- `notmuch_process_shared_options`, notmuch.c:82-103, with `notmuch_exit_if_unmatched_db_uuid`, notmuch.c:306-317: `none` if the command goes on.
`db` is the UUID of the database, if one is open. -/
def processShared (X : Sys) (db : Option Str) (s : Shared) (name : Option Str) : Option End :=
  if s.version then some (.exit 0 (bs "notmuch " ++ X.version ++ bs "\n"))
  else if s.help then some (helpFor X name)
  else
    match db, s.uuid with
    | some u, some r => if r = u then none else some (.exit 1 [])
    | _, _ => none

/-- One step of `query_string_from_args`, query-string.c:40-52. -/
def appendArg (first : Bool) (s a : Str) : Str := (if first then s else s ++ bs " ") ++ a

/-- The loop of `query_string_from_args`, query-string.c:40-52. -/
def queryLoop : Bool → Str → List Str → Str
  | _, s, [] => s
  | first, s, a :: l => queryLoop false (appendArg first s a) l

/-- `query_string_from_args`, query-string.c:33-55. -/
def queryString (args : List Str) : Str := queryLoop true [] args

end Notmuch.Cli
