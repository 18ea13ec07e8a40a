import Verif.Model.Jump

/-!
# What keys lead to, and tables
-/

namespace Notmuch.JumpSpec
open Notmuch.Jump

variable {α : Type}

/-- The action of a key: the last given to it. -/
def lastFor (actions : List (List Char × α)) (k : List Char) : Option α := ((actions.filter fun e => decide (e.1 = k)).getLast?).map (·.2)

/-- What is left of the keys that begin with a path, and after a path DEL. -/
def level (actions : List (List Char × α)) (p : List Char) : List (Entry α) :=
  (actions.filterMap fun e => if p.isPrefixOf e.1 then some (e.1.drop p.length, some e.2) else none) ++ (if p = [] then [] else [(['\x7f'], none)])

/-- After a path (reversed). -/
def stackAt (actions : List (List Char × α)) : List Char → Stack α
  | [] => [level actions []]
  | c :: rp => level actions (c :: rp).reverse :: stackAt actions rp

/-- A row of a table: items in columns. -/
def rowText (cw : Char → Nat) (col : Nat) : List (List Char) → List Char
  | [] => []
  | [i] => i
  | i :: is => i ++ List.replicate (col - width cw i) ' ' ++ rowText cw col is

/-- Rows with newlines between them. -/
def joinRows : List (List Char) → List Char
  | [] => []
  | [r] => r
  | r :: rs => r ++ '\n' :: joinRows rs

end Notmuch.JumpSpec
