import Verif.Model.Compact

/-! # Specification: compaction (C50) -/

namespace Notmuch.Compact

/-- How it starts: the database `db` with the files `c0` is at the path, no directory has two names, and nobody else has done anything. -/
def Start (a : Args) (db : Nat) (c0 : List Nat) (w : World) : Prop :=
  w.fs a.path = some db ∧ w.dir db = c0 ∧ (∀ p q i, w.fs p = some i → w.fs q = some i → p = q) ∧ ∀ i, w.hist i = []

/-- The old database is at `q`, as it was. -/
def Intact (db : Nat) (c0 : List Nat) (w : World) (q : Str) : Prop := w.fs q = some db ∧ w.dir db = c0

/-- A compacted copy of the old database is at `q`, with all that others wrote there since. -/
def Replaced (Compacts : List Nat → List Nat → Prop) (db : Nat) (c0 : List Nat) (w : World) (q : Str) : Prop :=
  ∃ i c, i ≠ db ∧ w.fs q = some i ∧ Compacts c0 c ∧ w.dir i = (w.hist i).foldl (fun d f => f d) c

end Notmuch.Compact
