import Verif.Model.Handles

/-! # Specification: several programs with one database (C70) -/

namespace Notmuch.Handles

/-- `p` is in an atomic section with a handle that can write. -/
def InSection (w : World) (p : Nat) : Prop := ∃ h v t, w.handles p = some h ∧ h.xdb = .writer v t ∧ h.nesting > 0

/-- How deep the sections of `p` are. -/
def World.depth (w : World) (p : Nat) : Nat :=
  match w.handles p with
  | some h => h.nesting
  | none => 0

/-- A program does not reopen its handle in an atomic section, and does not go on when the end of one fails. -/
def Proper (w : World) (e : Event) : Prop := (∀ m, e.call = .reopen m → w.depth e.who = 0) ∧ (e.call = .endAtomic → e.fault = false)

/-- Nor does any in a schedule. -/
def AllProper (w : World) : List Event → Prop
  | [] => True
  | e :: es => Proper w e ∧ AllProper (step w e.who e.call e.fault).1 es

/-- It gives up its lock, or may. -/
def Call.leaves : Call → Bool
  | .close => true
  | .destroy => true
  | .reopen _ => true
  | _ => false

/-- Nothing fails but looking for messages and opening, no process dies, and no handle is closed in an atomic section. -/
def Careful (w : World) (e : Event) : Prop :=
  (e.fault = true → (∃ i, e.call = .find i) ∨ ∃ m, e.call = .open_ m) ∧ e.call ≠ .die ∧ (e.call.leaves = true → w.depth e.who = 0)

/-- All through a schedule. -/
def AllCareful (w : World) : List Event → Prop
  | [] => True
  | e :: es => Careful w e ∧ AllCareful (step w e.who e.call e.fault).1 es

/-- The changes of messages that were reported as done, in their order: what the message is, or that it is gone. -/
def changes (w : World) : List Event → List (Nat × Option Str)
  | [] => []
  | e :: es =>
    (match e.call, (step w e.who e.call e.fault).2 with
      | .put i b, .status .success => [(i, some b)]
      | .remove i, .status .success => [(i, none)]
      | _, _ => []) ++ changes (step w e.who e.call e.fault).1 es

/-- One after another. -/
def apply : List (Nat × Option Str) → (Nat → Option Str) → Nat → Option Str
  | [], f => f
  | (i, b) :: l, f => apply l (fun j => if j = i then b else f j)

/-- The messages. -/
def Content.bodies (c : Content) : Nat → Option Str := fun i => (c.docs i).map (·.body)

/-- `p` does not open its handle, nor reopen it. -/
def Keeps (p : Nat) (es : List Event) : Prop := ∀ e ∈ es, e.who = p → (∀ m, e.call ≠ .open_ m) ∧ (∀ m, e.call ≠ .reopen m)

/-- `p` does not open its handle, nor reopen it, close it, destroy it, or die. -/
def Uses (p : Nat) (es : List Event) : Prop :=
  ∀ e ∈ es, e.who = p → (∀ m, e.call ≠ .open_ m) ∧ (∀ m, e.call ≠ .reopen m) ∧ e.call ≠ .close ∧ e.call ≠ .destroy ∧ e.call ≠ .die

/-- The calls that change the database. -/
def Call.writes : Call → Bool
  | .put _ _ => true
  | .remove _ => true
  | .setConfig _ _ => true
  | _ => false

end Notmuch.Handles
