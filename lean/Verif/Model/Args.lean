import Verif.Base.Bytes

/-!
# Command line options: command-line-arguments.c

The variables that options point to are numbers, and parsing makes a list of what is written to them.  Messages on stderr are not modelled.
-/

namespace Notmuch.Args

/-- `opt_keyword` and `opt_flags`: the names and values; `ended`: there is a last element without a name, so that looking for another name ends. -/
structure Keywords where
  list : List (Str × Int)
  ended : Bool
  deriving DecidableEq

/-- Which of the fields opt_* is set, command-line-arguments.h:20-50. -/
inductive Kind where
  | bool
  | int
  | keyword (kws : Keywords) (noArg : Option Str)
  | flags (kws : Keywords)
  | string (allowEmpty : Bool)
  | position
  deriving DecidableEq

/-- `notmuch_opt_desc_t` without opt_inherit. -/
structure Entry where
  kind : Kind
  name : Option Str
  var : Nat
  present : Option Nat
  deriving DecidableEq

/-- `notmuch_opt_desc_t`. -/
inductive Opt where
  | inherit (l : List Opt)
  | entry (e : Entry)

/-- What is written to a variable. -/
inductive Write where
  | bool (var : Nat) (b : Bool)
  | int (var : Nat) (i : Int)
  | keyword (var : Nat) (i : Int)
  | setFlags (var : Nat) (i : Int)
  | clearFlags (var : Nat) (i : Int)
  | string (var : Nat) (s : Str)
  | present (var : Nat)
  deriving DecidableEq

/-- `opt_handled`; `overrun` is reading beyond the end of an array. -/
inductive Handled where
  | failed
  | ok
  | giveback
  | overrun
  deriving DecidableEq

/-- `next` of `parse_option`: the byte after the name, or a space if the value is the next argument. -/
inductive Next where
  | none
  | delim
  | space
  deriving DecidableEq

/-- The value of a keyword: `none` if there is no such. -/
def findKeyword (k : Keywords) (s : Str) : Option Int := (k.list.find? (fun p => p.1 = s)).map (·.2)

/-- `_process_keyword_arg`, command-line-arguments.c:19-68; for `flags` there is no value for no argument. -/
def processKeyword (kws : Keywords) (noArg : Option Str) (flags : Bool) (var : Nat) (next : Next) (arg : Str) (negate : Bool) : Handled × List Write :=
  match findKeyword kws (if next = .none then [] else arg) with
  | some v => (.ok, [if flags then (if negate then .clearFlags var v else .setFlags var v) else .keyword var v])
  | none =>
    if kws.ended then
      match noArg with
      | some d =>
        if !flags && next ≠ .delim then
          match findKeyword kws d with
          | some v => (.giveback, [.keyword var v])
          | none => (.failed, [])
        else (.failed, [])
      | none => (.failed, [])
    else (.overrun, [])

/-- `_process_boolean_arg`, command-line-arguments.c:70-90. -/
def processBool (var : Nat) (next : Next) (arg : Str) (negate : Bool) : Handled × List Write :=
  if next = .none ∨ arg = bs "true" then (.ok, [.bool var (!negate)])
  else if arg = bs "false" then (.ok, [.bool var negate])
  else (.failed, [])

/-- `strtol` to base 10: the value within the bounds of `long`, and what is left. -/
def strtol (s : Str) : Int × Str :=
  let t := skipSpace s
  let u := if t.head? = some 45 ∨ t.head? = some 43 then t.tail else t
  let ds := u.takeWhile isDigit
  let n : Int := (ds.foldl (fun (n : Nat) c => 10 * n + (c.toNat - 48)) 0 : Nat)
  let n := if t.head? = some 45 then -n else n
  if ds = [] then (0, s) else (max (-2 ^ 63) (min (2 ^ 63 - 1) n), u.dropWhile isDigit)

/-- A `long` as `int`. -/
def toInt (n : Int) : Int := (n + 2 ^ 31) % 2 ^ 32 - 2 ^ 31

/-- `_process_int_arg`, command-line-arguments.c:92-111. -/
def processInt (var : Nat) (next : Next) (arg : Str) : Handled × List Write :=
  if next = .none ∨ arg = [] then (.failed, [])
  else if (strtol arg).2 = [] then (.ok, [.int var (toInt (strtol arg).1)])
  else (.failed, [.int var (toInt (strtol arg).1)])

/-- `_process_string_arg`, command-line-arguments.c:113-127. -/
def processString (allowEmpty : Bool) (var : Nat) (next : Next) (arg : Str) : Handled × List Write :=
  if next = .none then (.failed, [])
  else if arg = [] ∧ !allowEmpty then (.failed, [])
  else (.ok, [.string var arg])

/-- command-line-arguments.c:255-264; an entry of a position has no name. -/
def process (e : Entry) (next : Next) (arg : Str) (negate : Bool) : Handled × List Write :=
  match e.kind with
  | .keyword kws noArg => processKeyword kws noArg false e.var next arg negate
  | .flags kws => processKeyword kws none true e.var next arg negate
  | .bool => processBool e.var next arg negate
  | .int => processInt e.var next arg
  | .string a => processString a e.var next arg
  | .position => (.overrun, [])

/-- What parsing gives: the arguments that are left. -/
inductive Result where
  | rest (l : List Str)
  | failed
  | overrun
  deriving DecidableEq

/-- "no-". -/
def negativePrefix : Str := bs "no-"

/-- `next_arg`, command-line-arguments.c:214-217. -/
def nextArg : List Str → Option Str
  | a :: _ => if bs "--" <+: a then none else some a
  | [] => none

/-- What follows the name in the argument, if it is this name: command-line-arguments.c:233-252. -/
def afterName (arg name : Str) : Option Str := if name <+: arg then some (arg.drop name.length) else none

/-- `try->opt_bool || try->opt_flags`. -/
def canNegate : Kind → Bool
  | .bool => true
  | .flags _ => true
  | _ => false

/-- The argument matches the entry: what is after the name, and whether it is negated. -/
def matchEntry (arg : Str) (e : Entry) (name : Str) : Option (Str × Bool) :=
  match afterName arg name with
  | some r => some (r, false)
  | none =>
    if arg.length > negativePrefix.length ∧ negativePrefix <+: arg ∧ canNegate e.kind = true then
      (afterName (arg.drop negativePrefix.length) name).map (fun r => (r, true))
    else none

/-- An entry that matches, command-line-arguments.c:246-280: `after` is what is after the name, `args` the arguments after this one. -/
def useEntry (e : Entry) (after : Str) (negate : Bool) (args : List Str) : Result × List Write :=
  let next := if after = [] then Next.none else Next.delim
  let lookahead := after = [] ∧ e.kind ≠ .bool
  let p := match (if lookahead then nextArg args else none) with
    | some v => (process e .space v negate, args.tail)
    | none => (process e next after.tail negate, args)
  match p.1.1 with
  | .failed => (.failed, p.1.2)
  | .overrun => (.overrun, p.1.2)
  | .giveback => (.rest args, p.1.2 ++ e.present.toList.map .present)
  | .ok => (.rest p.2, p.1.2 ++ e.present.toList.map .present)

/-- What is after the name ends the name. -/
def endsName (after : Str) : Bool := after.head? = none || after.head? = some 61 || after.head? = some 58

/-- An entry of the table, command-line-arguments.c:225-281: `none` if the loop goes on. -/
def tryEntry (arg : Str) (args : List Str) (e : Entry) : Option (Result × List Write) :=
  match e.name with
  | none => none
  | some name =>
    match matchEntry arg e name with
    | none => none
    | some (after, negate) => if endsName after then some (useEntry e after negate args) else none

mutual
/-- One step of the loop of `parse_option`, command-line-arguments.c:219-281: `none` if it goes on; what was written until then is in the list. -/
def tryOpt (arg : Str) (args : List Str) : Opt → Option Result × List Write
  | .entry e =>
    match tryEntry arg args e with
    | some (r, w) => (some r, w)
    | none => (none, [])
  | .inherit l =>
    match parseOption arg args l with
    | (.failed, w) => (none, w)
    | (r, w) => (some r, w)

/-- `parse_option`, command-line-arguments.c:191-283: `arg` is the argument without `--`, `args` are those after it. -/
def parseOption (arg : Str) (args : List Str) : List Opt → Result × List Write
  | [] => (.failed, [])
  | o :: l =>
    match tryOpt arg args o with
    | (some r, w) => (r, w)
    | (none, w) => ((parseOption arg args l).1, w ++ (parseOption arg args l).2)
end

/-- The positional arguments, in the table itself. -/
def positions : List Opt → List Entry
  | [] => []
  | .entry e :: l => if e.kind = .position then e :: positions l else positions l
  | .inherit _ :: l => positions l

/-- `parse_position_arg`, command-line-arguments.c:162-182: `none` if there is no such. -/
def positionArg (opts : List Opt) (i : Nat) (arg : Str) : Option (List Write) :=
  ((positions opts)[i]?).map (fun e => .string e.var arg :: e.present.toList.map .present)

/-- `parse_arguments`, command-line-arguments.c:285-316, from the `i`th positional argument on, with fuel for the arguments. -/
def parseArguments (opts : List Opt) : Nat → Nat → List Str → Result × List Write
  | _, _, [] => (.rest [], [])
  | 0, _, args => (.rest args, [])
  | n + 1, i, a :: args =>
    if bs "--" <+: a then
      if a.length = 2 then (.rest args, [])
      else
        match parseOption (a.drop 2) args opts with
        | (.rest r, w) => ((parseArguments opts n i r).1, w ++ (parseArguments opts n i r).2)
        | (r, w) => (r, w)
    else
      match positionArg opts i a with
      | some w => ((parseArguments opts n (i + 1) args).1, w ++ (parseArguments opts n (i + 1) args).2)
      | none => (.rest (a :: args), [])

/-- All of the arguments. -/
def parse (opts : List Opt) (args : List Str) : Result × List Write := parseArguments opts args.length 0 args

end Notmuch.Args
