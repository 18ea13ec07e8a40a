import Verif.Model.PyAtomic

/-!
# What a Python program does, without looking at the database
-/

namespace Notmuch.PyAtomicSpec
open Notmuch.MessageSync (Db Doc Term) 
open Notmuch.PyAtomic

/-- How a program ends. -/
inductive Outcome where
  | done | raised
  /-- A section was aborted. -/
  | aborted
deriving DecidableEq

mutual
/-- The changes a statement makes, in `depth` contexts, and how it ends: everything up to an exception, which `with` passes on and `try` stops. -/
def meaning (depth : Nat) : Stmt → List (Nat × List Term) × Outcome
  | .write id terms => ([(id, terms)], .done)
  | .raise => ([], .raised)
  | .abort k => ([], if k < depth then .aborted else .raised)
  | .atomic body => meanings (depth + 1) body
  | .tryPass body => ((meanings depth body).1, if (meanings depth body).2 = .raised then .done else (meanings depth body).2)
/-- Statements in turn. -/
def meanings (depth : Nat) : List Stmt → List (Nat × List Term) × Outcome
  | [] => ([], .done)
  | p :: ps =>
    if (meaning depth p).2 = .done then ((meaning depth p).1 ++ (meanings depth ps).1, (meanings depth ps).2) else meaning depth p
end

/-- The terms of messages after changes. -/
def changed (v : Nat → Option Doc) (rev : Nat) (ws : List (Nat × List Term)) : Nat → Option Doc :=
  ws.foldl (fun v w i => if i = w.1 then some ⟨w.2, rev⟩ else v i) v

end Notmuch.PyAtomicSpec
