import Verif.Model.MessageSync

/-!
# What a sequence of API calls means
-/

namespace Notmuch.MessageSpec
open Notmuch.MessageSync

/-- The terms a message has after a call, given those before (as sets: `x` is present). -/
def after : Call → (Term → Prop) → (Term → Prop)
  | .addTag t, P => fun x => (t.length ≤ 200 ∧ x = .tag t) ∨ P x
  | .removeTag t, P => fun x => ¬ (t.length ≤ 200 ∧ x = .tag t) ∧ P x
  | .removeAllTags, P => fun x => (∀ t, x ≠ .tag t) ∧ P x
  | .addProp k v, P => fun x => (61 ∉ k ∧ k.length + v.length < 236 ∧ x = .prop k v) ∨ P x
  | .removeProp k v, P => fun x => ¬ (61 ∉ k ∧ k.length + v.length < 236 ∧ x = .prop k v) ∧ P x
  | _, P => P

/-- All calls in order. -/
def afterAll : List Call → (Term → Prop) → (Term → Prop)
  | [], P => P
  | c :: cs, P => afterAll cs (after c P)

/-- How deep the message is frozen after the calls (a surplus thaw is an error and changes nothing). -/
def depth : Nat → List Call → Nat
  | n, [] => n
  | n, .freeze :: cs => depth (n + 1) cs
  | n, .thaw :: cs => depth (n - 1) cs
  | n, _ :: cs => depth n cs

/-- The message object was just obtained: it is not frozen, has no unsaved change and shows what the
database has. -/
structure Fresh (s : State) : Prop where
  writable : s.db.writable = true
  frozen : s.h.frozen = 0
  modified : s.h.modified = false
  stored : s.db.view s.h.docId = some s.h.doc

/-- A new, empty database. -/
def emptyDb (writable : Bool) : Db :=
  { writable := writable, needsUpgrade := false, view := fun _ => none, viewBound := 0
    disk := fun _ => none, diskBound := 0, revision := 0, nesting := 0, dirty := false }

/-- The database after a history of events. -/
abbrev dbAfter (writable : Bool) (hist : List Op) : Db := run (emptyDb writable) hist

/-- Within one session: the process neither dies nor closes the database. -/
def Session (ops : List Op) : Prop := ∀ o ∈ ops, o ≠ .crash ∧ o ≠ .close

end Notmuch.MessageSpec
