import Verif.Base.Bytes
import Verif.Model.Cli

/-!
# Hooks

The state of everything outside of the process (mail, database, what the hooks do) is a type `σ`.
-/

namespace Notmuch.Hooks

/-- What `access (hook_path, X_OK)` says: hooks.c:48. -/
inductive Access where
  | ok
  | missing
  | denied
  deriving DecidableEq

/-- How the child process ends, as `waitpid` tells it: hooks.c:84-100. -/
inductive Wait where
  | exited (code : Nat)
  | signalled
  | unknown
  deriving DecidableEq

/-- The system.  `exec` is for the call in the child; `run` is what the hook does if it is run. -/
structure HookSys (σ : Type) where
  setenv : Bool
  access : Str → σ → Access
  fork : Bool
  exec : Str → σ → Cli.Exec
  run : Str → σ → σ × Wait

/-- The child, hooks.c:71-82. -/
def child {σ : Type} (H : HookSys σ) (hook : Str) (s : σ) : σ × Wait :=
  match H.exec hook s with
  | .runs => H.run hook s
  | .missing => (s, .exited 0)
  | .fails => (s, .exited 1)

/-- `notmuch_run_hook`, hooks.c:26-106: the status. -/
def runHook {σ : Type} (H : HookSys σ) (hook : Str) (s : σ) : σ × Nat :=
  if !H.setenv then (s, 1)
  else
    match H.access hook s with
    | .missing => (s, 0)
    | .denied => (s, 1)
    | .ok =>
      if !H.fork then (s, 1)
      else
        match child H hook s with
        | (s, .unknown) => (s, 1)
        | (s, .signalled) => (s, 1)
        | (s, .exited 0) => (s, 0)
        | (s, .exited _) => (s, 1)

/-- What the process has of the database. -/
inductive Held where
  | readWrite
  | readOnly
  | closed
  deriving DecidableEq

/-- What happens: a hook is called, or the mail is scanned, while this is held. -/
inductive Event where
  | hook (name : Str) (held : Held)
  | scan (held : Held)
  deriving DecidableEq

/-- What a scan of the mail gives: notmuch-new.c:1252-1294. -/
structure Scan where
  ok : Bool
  interrupted : Bool
  vanished : Bool
  deriving DecidableEq

/-- `notmuch new`.  `config`: the configuration has no errors (notmuch-new.c:1147-1187); `before`: counting the files of a new database, or upgrading an
old one (notmuch-new.c:1206-1236); `scan`: what is C14-C16 (notmuch-new.c:1252-1294); `close`: closing the database, which commits the last changes. -/
structure NewSys (σ : Type) where
  hooks : HookSys σ
  config : Bool
  reopen : Bool → σ → Bool
  before : σ → σ × Bool
  scan : σ → σ × Scan
  close : σ → σ × Bool

/-- The part after the hook `pre-new`, notmuch-new.c:1206-1322. -/
def newRest {σ : Type} (N : NewSys σ) (withHooks : Bool) (evs : List Event) (s : σ) : List Event × σ × Nat :=
  match N.before s with
  | (s, false) => (evs, s, 1)
  | (s, true) =>
    match N.scan s with
    | (s, r) =>
      let evs := evs ++ [.scan .readWrite]
      let s := (N.close s).1
      let p := if withHooks && r.ok && !r.interrupted then (evs ++ [Event.hook (bs "post-new") .closed], runHook N.hooks (bs "post-new") s)
        else (evs, s, if r.ok then 0 else 1)
      if p.2.2 ≠ 0 || r.interrupted then (p.1, p.2.1, 1)
      else if r.vanished then (p.1, p.2.1, 75)
      else (p.1, p.2.1, 0)

/-- `notmuch_new_command`, notmuch-new.c:1115-1322. -/
def newCommand {σ : Type} (N : NewSys σ) (withHooks : Bool) (s : σ) : List Event × σ × Nat :=
  if !N.config then ([], s, 1)
  else if withHooks then
    if !N.reopen false s then ([], s, 1)
    else
      match runHook N.hooks (bs "pre-new") s with
      | (s, r) =>
        let evs := [Event.hook (bs "pre-new") .readOnly]
        if r ≠ 0 then (evs, s, 1)
        else if !N.reopen true s then (evs, s, 1)
        else newRest N withHooks evs s
  else newRest N withHooks [] s

/-- The end of `notmuch_insert_command`, notmuch-insert.c:609-618: `status` is 0 if the message was inserted (or `--keep` is given), and the database is
closed. -/
def insertEnd {σ : Type} (H : HookSys σ) (withHooks : Bool) (exit : Nat) (s : σ) : List Event × σ × Nat :=
  if withHooks && exit = 0 then ([.hook (bs "post-insert") .closed], (runHook H (bs "post-insert") s).1, exit) else ([], s, exit)

end Notmuch.Hooks
