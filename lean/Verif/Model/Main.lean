import Verif.Model.Cli

/-!
# `main`

Which command is run, with which database.  What the commands do is a parameter (`World.run`).
-/

namespace Notmuch.Main

open Notmuch.Args Notmuch.Cli

/-- `notmuch_command_mode_t`, notmuch-client.h:263-269. -/
structure Mode where
  early : Bool
  write : Bool
  create : Bool
  configCreate : Bool
  configLoad : Bool
  deriving DecidableEq

/-- `command_t`, notmuch.c:36-41, without the summary. -/
structure Command where
  name : Option Str
  function : Bool
  mode : Mode
  deriving DecidableEq

/-- The mode of no command and of `setup`, notmuch.c:164-167. -/
def configMode : Mode := ⟨false, false, false, true, true⟩

/-- The mode of `new`, notmuch.c:168-171. -/
def newMode : Mode := ⟨true, true, true, false, false⟩

/-- The mode of the commands that write, notmuch.c:172-174 and 185-199. -/
def writeMode : Mode := ⟨true, true, false, false, false⟩

/-- The mode of the commands that only read, notmuch.c:175-184. -/
def readMode : Mode := ⟨true, false, false, false, false⟩

/-- `commands`, notmuch.c:164-219, with Emacs (`WITH_EMACS`) or without. -/
def commands (emacs : Bool) : List Command := [
  ⟨none, true, configMode⟩,
  ⟨some (bs "setup"), true, configMode⟩,
  ⟨some (bs "new"), true, newMode⟩,
  ⟨some (bs "insert"), true, writeMode⟩,
  ⟨some (bs "search"), true, readMode⟩,
  ⟨some (bs "address"), true, readMode⟩,
  ⟨some (bs "show"), true, readMode⟩,
  ⟨some (bs "count"), true, readMode⟩,
  ⟨some (bs "reply"), true, readMode⟩,
  ⟨some (bs "tag"), true, writeMode⟩,
  ⟨some (bs "dump"), true, writeMode⟩,
  ⟨some (bs "restore"), true, writeMode⟩,
  ⟨some (bs "compact"), true, writeMode⟩,
  ⟨some (bs "reindex"), true, writeMode⟩,
  ⟨some (bs "config"), true, ⟨false, false, false, false, true⟩⟩] ++
  (if emacs then [⟨some (bs "emacs-mua"), false, ⟨false, false, false, false, false⟩⟩] else []) ++
  [⟨some (bs "help"), true, ⟨false, false, false, true, false⟩⟩]

/-- `find_command`, notmuch.c:237-248. -/
def findCommand (emacs : Bool) (name : Option Str) : Option Command := (commands emacs).find? (fun c => decide (c.name = name))

/-- What `notmuch_database_create_with_config` gives, as far as `main` looks at it: notmuch.c:517-534. -/
inductive Created where
  | created
  | exists_
  | failed
  deriving DecidableEq

/-- What `notmuch_database_load_config` gives: notmuch.c:570-600. -/
inductive Loaded where
  | success
  | noConfig
  | noDatabase
  | failed
  deriving DecidableEq

/-- What a command is given: nothing, a database, or only its configuration. -/
inductive Handle where
  | null
  | database (writable : Bool)
  | config
  deriving DecidableEq

/-- What `main` calls: it makes a database, opens one, reads the configuration, or runs a command. -/
inductive Event where
  | create (config : Option Str)
  | openDb (writable : Bool) (config : Option Str)
  | load (config : Option Str)
  | run (name : Option Str) (h : Handle)
  deriving DecidableEq

/-- The library and the commands; the arguments of a command are those after its name. -/
structure World where
  sys : Sys
  emacs : Bool
  create : Option Str → Created
  openDb : Bool → Option Str → Bool
  load : Option Str → Loaded
  run : Option Str → Handle → Option Str → Shared → List Str → End

/-- `try_external_command` and what comes after it, notmuch.c:413-447 and 500-507. -/
def external (X : Sys) (config : Option Str) (name : Str) (args : List Str) : End :=
  if X.exec ((bs "notmuch-" ++ name) :: args) = .runs then .exec ((bs "notmuch-" ++ name) :: args) config else .exit 1 []

/-- Making or opening the database, notmuch.c:510-552: what was called, and what is open; `none` if it fails. -/
def openEarly (W : World) (m : Mode) (config : Option Str) : List Event × Option Handle :=
  if !m.early then ([], some .null)
  else
    let writable := m.write || m.create
    let create := if m.create then some (W.create config) else none
    let evs := if m.create then [Event.create config] else []
    match create with
    | some .failed => (evs, none)
    | some .created => (evs, some (.database true))
    | _ => if W.openDb writable config then (evs ++ [.openDb writable config], some (.database writable)) else (evs ++ [.openDb writable config], none)

/-- Reading the configuration, notmuch.c:554-602: how the process ends, if it does. -/
def loadConfig (W : World) (m : Mode) (config name : Option Str) : List Event × Option End :=
  if !m.configLoad then ([], none)
  else
    match W.load config with
    | .noConfig => ([.load config], if m.configCreate then none else some (.exit 0 []))
    | .noDatabase => ([.load config], if name = none then some (.exit 0 (bs "Notmuch is configured, but no database was found.\nYou probably want to run \"notmuch new\" now to create a database.\n\nNote that the first run of \"notmuch new\" can take a very long time\nand that the resulting database will use roughly the same amount of\nstorage space as the email being indexed.\n\n")) else none)
    | .success => ([.load config], none)
    | .failed => ([.load config], some (.exit 1 []))

/-- A command of the table, notmuch.c:510-604. -/
def runCommand (W : World) (c : Command) (config name : Option Str) (s : Shared) (args : List Str) : List Event × End :=
  match openEarly W c.mode config with
  | (evs, none) => (evs, .exit 1 [])
  | (evs, some h) =>
    match loadConfig W c.mode config name with
    | (evs', some e) => (evs ++ evs', e)
    | (evs', none) =>
      let h := if c.mode.configLoad then .config else h
      (evs ++ evs' ++ [.run name h], W.run name h config s args)

/-- `main`, notmuch.c:457-622; the arguments without the name of the program. -/
def main (W : World) (argv : List Str) : List Event × End :=
  match parse mainOptions argv with
  | (.failed, _) => ([], .exit 1 [])
  | (.overrun, _) => ([], .crash)
  | (.rest rest, w) =>
    let s := w.foldl Shared.write .init
    let config := stringVar 10 w
    match processShared W.sys none s rest.head? with
    | some e => ([], e)
    | none =>
      match findCommand W.emacs rest.head? with
      | none => ([], external W.sys config (rest.head?.getD []) rest.tail)
      | some c => if c.function then runCommand W c config rest.head? s rest.tail else ([], external W.sys config (rest.head?.getD []) rest.tail)

/-- `notmuch_command`, notmuch.c:389-424, for the configuration file that is there, not there, or not to be read (`access`); `hello` is what is printed. -/
def noCommand (access : Exec) (setup : End) (hello : Str) : End :=
  match access with
  | .runs => .exit 0 hello
  | .missing => setup
  | .fails => .exit 1 []

/-- `notmuch_minimal_options`, notmuch.c:108-128: the arguments that are left, or the end. -/
def minimalOptions (X : Sys) (s : Shared) (name : Option Str) (args : List Str) : End ⊕ List Str :=
  match parse [.inherit sharedOptions] args with
  | (.failed, _) => .inl (.exit 1 [])
  | (.overrun, _) => .inl .crash
  | (.rest r, w) =>
    match processShared X none (w.foldl Shared.write s) name with
    | some e => .inl e
    | none => .inr r

/-- `notmuch_help_command`, notmuch.c:362-380. -/
def helpCommand (X : Sys) (s : Shared) (args : List Str) : End :=
  match minimalOptions X s (some (bs "help")) args with
  | .inl e => e
  | .inr r => helpFor X r.head?

end Notmuch.Main
