import Verif.Model.Args
import Verif.Base.Dec

/-!
# Specification: command line options (C53)

What is written on a command line, after "OPTION SYNTAX" in notmuch(1) and command-line-arguments.h: a table of options is a list of entries, those of inherited tables among them.
-/

namespace Notmuch.Args

mutual
def entriesOf : Opt → List Entry
  | .entry e => [e]
  | .inherit l => entries l
/-- All of the entries of a table. -/
def entries : List Opt → List Entry
  | [] => []
  | o :: l => entriesOf o ++ entries l
end

/-- The keywords of an entry. -/
def Kind.keywords : Kind → List (Str × Int)
  | .keyword k _ => k.list
  | .flags k => k.list
  | _ => []

/-- Only these can be negated. -/
def Kind.negatable : Kind → Bool
  | .bool => true
  | .flags _ => true
  | _ => false

/-- The entries for positions, those of inherited tables not among them. -/
def places (opts : List Opt) : List Entry :=
  opts.filterMap (fun o => match o with
    | .entry e => if e.kind = .position then some e else none
    | .inherit _ => none)

/-- What a table has to be: names are different, are not empty and have no separators in them, and are not taken for something else when negated. -/
structure Good (es : List Entry) : Prop where
  names : ∀ e ∈ es, ∀ n ∈ e.name, n ≠ [] ∧ (61 : UInt8) ∉ n ∧ (58 : UInt8) ∉ n ∧ e.kind ≠ .position
  distinct : (es.filterMap (·.name)).Nodup
  negated : ∀ e ∈ es, e.kind.negatable = true → ∀ n ∈ e.name, ¬n <+: bs "no-" ++ n ∧ ∀ f ∈ es, f.name ≠ some (bs "no-" ++ n)
  keywords : ∀ e ∈ es, ∀ p ∈ e.kind.keywords, p.1 ≠ []

/-- No array of keywords lacks its last element. -/
def Ended (es : List Entry) : Prop := ∀ e ∈ es, ∀ k, (e.kind = .flags k ∨ ∃ d, e.kind = .keyword k d) → k.ended = true

/-- The first in the list. -/
def First (l : List (Str × Int)) (s : Str) (i : Int) : Prop := ∃ a b, l = a ++ (s, i) :: b ∧ ∀ p ∈ a, p.1 ≠ s

/-- The `int` of a numeral: the number within the bounds of `long`, and then its last 32 bits. -/
def Number (s : Str) (i : Int) : Prop :=
  ∃ blanks sign digits : Str, s = blanks ++ sign ++ digits ∧ (∀ c ∈ blanks, isSpace c = true) ∧ sign ∈ [[], bs "+", bs "-"] ∧ digits ≠ [] ∧ (∀ c ∈ digits, isDigit c = true) ∧
    -2 ^ 31 ≤ i ∧ i < 2 ^ 31 ∧
    ∃ long : Int, long = max (-2 ^ 63) (min (2 ^ 63 - 1) (if sign = bs "-" then -(decVal digits : Int) else decVal digits)) ∧ (2 ^ 32 : Int) ∣ long - i

/-- What an option with or without a value sets. -/
inductive Sets (e : Entry) : Bool → Option Str → Write → Prop
  | bool {neg : Bool} : e.kind = .bool → Sets e neg none (.bool e.var (!neg))
  | isTrue {neg : Bool} : e.kind = .bool → Sets e neg (some (bs "true")) (.bool e.var (!neg))
  | isFalse {neg : Bool} : e.kind = .bool → Sets e neg (some (bs "false")) (.bool e.var neg)
  | int {s : Str} {i : Int} {neg : Bool} : e.kind = .int → Number s i → Sets e neg (some s) (.int e.var i)
  | string {a neg : Bool} {s : Str} : e.kind = .string a → (a = true ∨ s ≠ []) → Sets e neg (some s) (.string e.var s)
  | keyword {k : Keywords} {d : Option Str} {s : Str} {i : Int} {neg : Bool} : e.kind = .keyword k d → First k.list s i → Sets e neg (some s) (.keyword e.var i)
  | flag {k : Keywords} {s : Str} {i : Int} : e.kind = .flags k → First k.list s i → Sets e false (some s) (.setFlags e.var i)
  | noFlag {k : Keywords} {s : Str} {i : Int} : e.kind = .flags k → First k.list s i → Sets e true (some s) (.clearFlags e.var i)

/-- That the option is there is also set. -/
def present (e : Entry) : List Write := e.present.toList.map .present

/-- How an option is written. -/
def spelled (neg : Bool) (n : Str) : Str := bs "--" ++ (if neg then bs "no-" else []) ++ n

/-- The arguments begin with this option, which sets this, and these arguments are after it. -/
inductive Takes (es : List Entry) : List Str → List Write → List Str → Prop
  /-- `--name=value`, `--name:value` -/
  | given {e : Entry} {n v : Str} {c : UInt8} {neg : Bool} {w : Write} {args : List Str} :
      e ∈ es → e.name = some n → (neg = true → e.kind.negatable = true) → (c = 61 ∨ c = 58) → Sets e neg (some v) w → Takes es ((spelled neg n ++ c :: v) :: args) (w :: present e) args
  /-- `--name` -/
  | alone {e : Entry} {n : Str} {neg : Bool} {w : Write} {args : List Str} :
      e ∈ es → e.name = some n → (neg = true → e.kind.negatable = true) → Sets e neg none w → Takes es (spelled neg n :: args) (w :: present e) args
  /-- `--name value` -/
  | next {e : Entry} {n v : Str} {neg : Bool} {w : Write} {args : List Str} :
      e ∈ es → e.name = some n → (neg = true → e.kind.negatable = true) → e.kind ≠ .bool → ¬bs "--" <+: v → Sets e neg (some v) w →
      Takes es (spelled neg n :: v :: args) (w :: present e) args
  /-- `--name` of a keyword that has a default, and what comes next is no keyword of it -/
  | default {e : Entry} {n : Str} {k : Keywords} {d : Str} {i : Int} {args : List Str} :
      e ∈ es → e.name = some n → e.kind = .keyword k (some d) → k.ended = true → First k.list d i →
      (∀ v, args.head? = some v → ¬bs "--" <+: v → ∀ i, (v, i) ∉ k.list) → Takes es (spelled false n :: args) (.keyword e.var i :: present e) args

/-- The arguments are options and as many others as there are positions, which set this, and these are left: they are after `--`, or they begin with one that is no option. -/
inductive Parses (es : List Entry) : List Entry → List Str → List Write → List Str → Prop
  | none {ps : List Entry} : Parses es ps [] [] []
  | stop {ps : List Entry} {rest : List Str} : Parses es ps (bs "--" :: rest) [] rest
  | rest {a : Str} {rest : List Str} : ¬bs "--" <+: a → Parses es [] (a :: rest) [] (a :: rest)
  | position {p : Entry} {ps : List Entry} {a : Str} {args rest : List Str} {w : List Write} :
      ¬bs "--" <+: a → Parses es ps args w rest → Parses es (p :: ps) (a :: args) (.string p.var a :: present p ++ w) rest
  | option {ps : List Entry} {args args' rest : List Str} {w w' : List Write} : Takes es args w args' → Parses es ps args' w' rest → Parses es ps args (w ++ w') rest

end Notmuch.Args
