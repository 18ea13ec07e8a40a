import Verif.Model.Hooks

/-! # Specification: hooks (C60) -/

namespace Notmuch.Hooks

variable {σ : Type}

/-- The hook is run. -/
def Runs (H : HookSys σ) (hook : Str) (s : σ) : Prop := H.setenv = true ∧ H.access hook s = .ok ∧ H.fork = true ∧ H.exec hook s = .runs

/-- There is no such hook. -/
def NoHook (H : HookSys σ) (hook : Str) (s : σ) : Prop := H.setenv = true ∧ (H.access hook s = .missing ∨ (H.access hook s = .ok ∧ H.fork = true ∧ H.exec hook s = .missing))

/-- The hook is fine: it does not exist, or it was run and its exit status is 0. -/
def Fine (H : HookSys σ) (hook : Str) (s : σ) : Prop := NoHook H hook s ∨ (Runs H hook s ∧ (H.run hook s).2 = .exited 0)

open Classical in
/-- What there is after the hook. -/
noncomputable def afterHook (H : HookSys σ) (hook : Str) (s : σ) : σ := if Runs H hook s then (H.run hook s).1 else s

/-- The hook that is called first. -/
def pre (withHooks : Bool) : List Event := if withHooks then [.hook (bs "pre-new") .readOnly] else []

/-- What was before the scan was fine: the hook, with the database open for reading only, and what is done before the scan with the database open for
writing. -/
def Ready (N : NewSys σ) (withHooks : Bool) (s : σ) : Prop :=
  N.config = true ∧ (withHooks = true → N.reopen false s = true ∧ Fine N.hooks (bs "pre-new") s ∧ N.reopen true (afterHook N.hooks (bs "pre-new") s) = true)

/-- The mail and the database as the scan finds them. -/
noncomputable def found (N : NewSys σ) (withHooks : Bool) (s : σ) : σ := (N.before (if withHooks then afterHook N.hooks (bs "pre-new") s else s)).1

/-- Counting or upgrading was fine. -/
def Prepared (N : NewSys σ) (withHooks : Bool) (s : σ) : Prop := Ready N withHooks s ∧ (N.before (if withHooks then afterHook N.hooks (bs "pre-new") s else s)).2 = true

end Notmuch.Hooks
