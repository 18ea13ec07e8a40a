import Verif.Model.PyObjects

/-! # Specification: the objects of the Python bindings (C72) -/

namespace Notmuch.Py

/-- `y` is `x`, or its parent, or the parent of that, and so on. -/
inductive Anc (w : World) : Nat → Nat → Prop
  | refl (x : Nat) : Anc w x x
  | up {y x p : Nat} : (w.obj x).parent = some p → Anc w y p → Anc w y x

/-- `c` is `d` or owns it, directly or not. -/
inductive CAnc (owner : Nat → Option Nat) : Nat → Nat → Prop
  | refl (c : Nat) : CAnc owner c c
  | up {c d p : Nat} : owner d = some p → CAnc owner c p → CAnc owner c d

/-- When a `frozen` block ends with an exception, nothing that came from the message has memory any more. -/
def Clean (w : World) (e : Event) : Prop := ∀ x f, e = .rollback x f → ∀ y, Anc w x y → y ≠ x → (w.obj y).ptr = none

/-- All through a program. -/
def AllClean (w : World) : List Event → Prop
  | [] => True
  | e :: es => Clean w e ∧ AllClean (step w e).1 es

/-- The program keeps `y`: it does not delete it, does not iterate to its end if it is the result of a query, and finds it again after an exception in a `frozen` block. -/
def Keeps (w : World) (es : List Event) (y : Nat) : Prop :=
  .del y ∉ es ∧ ((w.obj y).kind = .results → .next y false ∉ es) ∧ .rollback y false ∉ es

/-- The object whose method a program calls. -/
def Event.on : Event → Option Nat
  | .open_ => none
  | .query x => some x
  | .messages x => some x
  | .threads x => some x
  | .find x => some x
  | .view x => some x
  | .leaf x => some x
  | .members x _ => some x
  | .next x _ => some x
  | .use x => some x
  | .del x => some x
  | .rollback x _ => some x

end Notmuch.Py
