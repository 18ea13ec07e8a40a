import Verif.Model.Count
import Verif.Spec.Search

/-! # Specification: `notmuch count` (C58) -/

namespace Notmuch.Count

open Notmuch.Query Notmuch.Cli

/-- The output of `notmuch search` that `--output` of `notmuch count` counts. -/
def searched : Output → Search.Output
  | .threads => .threads
  | .messages => .messages
  | .files => .files

/-- `notmuch search --output=... --exclude=...`, in any order, without offset, limit and `--duplicate`. -/
def searchOpts (out : Output) (exclude : Bool) (sort : SortOrder) (version : Nat) : Search.Opts :=
  ⟨searched out, if exclude then .yes else .no, sort, 0, -1, -1, version⟩

/-- The text is of these lines; there may be no newline after the last. -/
def Lines (c : Str) (ts : List Str) : Prop :=
  (∀ t ∈ ts, (10 : UInt8) ∉ t ∧ (0 : UInt8) ∉ t) ∧
  (c = ts.flatMap (· ++ [10]) ∨ ∃ ts' t, ts = ts' ++ [t] ∧ t ≠ [] ∧ c = ts'.flatMap (· ++ [10]) ++ t)

/-- Running commands one after another, until one fails. -/
def oneAfterAnother : List End → End
  | [] => .exit 0 []
  | .exit 0 s :: l =>
    match oneAfterAnother l with
    | .exit c s' => .exit c (s ++ s')
    | e => e
  | e :: _ => e

/-- Neither `--version` nor `--help` is given, and if a UUID is given it is that of the database. -/
def GoesOn (s : Shared) (uuid : Str) : Prop := s.version = false ∧ s.help = false ∧ ∀ u, s.uuid = some u → u = uuid

/-- Options as one writes them. -/
inductive CountSetting where
  | output (o : Output)
  | exclude (b : Bool)
  | lastmod (b : Bool)
  | sexp (b : Bool)

def CountSetting.text : CountSetting → Str
  | .output .threads => bs "--output=threads"
  | .output .messages => bs "--output=messages"
  | .output .files => bs "--output=files"
  | .exclude true => bs "--exclude=true"
  | .exclude false => bs "--exclude=false"
  | .lastmod true => bs "--lastmod"
  | .lastmod false => bs "--no-lastmod"
  | .sexp true => bs "--query=sexp"
  | .sexp false => bs "--query=infix"

/-- What they choose. -/
structure Chosen where
  output : Output
  exclude : Bool
  lastmod : Bool
  sexp : Bool

def Chosen.set (c : Chosen) : CountSetting → Chosen
  | .output o => { c with output := o }
  | .exclude b => { c with exclude := b }
  | .lastmod b => { c with lastmod := b }
  | .sexp b => { c with sexp := b }

/-- The last of each counts; the defaults are those of notmuch-count(1). -/
def chosen (l : List CountSetting) : Chosen := l.foldl Chosen.set ⟨.messages, true, false, false⟩

end Notmuch.Count
