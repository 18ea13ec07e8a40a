import Verif.Model.Main
import Verif.Spec.Args

/-! # Specification: which command is run (C59) -/

namespace Notmuch.Main

open Notmuch.Cli Notmuch.Args

/-- The commands that only look: they are in notmuch-search(1), notmuch-address(1), notmuch-show(1), notmuch-count(1), notmuch-reply(1). -/
def readers : List Str := [bs "search", bs "address", bs "show", bs "count", bs "reply"]

/-- The commands that change the database, or lock it while they read it. -/
def writers : List Str := [bs "insert", bs "tag", bs "dump", bs "restore", bs "compact", bs "reindex"]

/-- The others. -/
def others : List Str := [bs "new", bs "setup", bs "config", bs "help"]

/-- A list of settings of options, as one writes them: `--name=value`. -/
structure Given where
  entry : Entry
  name : Str
  value : Str
  write : Write

/-- The setting is one of the table. -/
def Given.Of (t : List Opt) (g : Given) : Prop := g.entry ∈ entries t ∧ g.entry.name = some g.name ∧ Sets g.entry false (some g.value) g.write

def Given.text (g : Given) : Str := bs "--" ++ g.name ++ bs "=" ++ g.value

/-- What the settings set. -/
def writes (l : List Given) : List Write := l.flatMap (fun g => g.write :: present g.entry)

/-- The shared variables after these settings. -/
def sharedAfter (l : List Given) : Shared := (writes l).foldl Shared.write .init

/-- The configuration file that is asked for. -/
def configOf (l : List Given) : Option Str := stringVar 10 (writes l)

/-- A word that is no option. -/
def Word (a : Str) : Prop := ¬bs "--" <+: a

end Notmuch.Main
