import Verif.Model.TermList
import Verif.Spec.StringMap

/-! # Specification: the terms of a document (C36, C37) -/

namespace Notmuch.TermList
open Notmuch.StringMap (Pair)

/-- A document: terms in strictly ascending order. -/
def Sorted (terms : List Str) : Prop := terms.Pairwise (fun a b => StringMap.strcmp a b = .lt)

/-- The values stored with a prefix. -/
def valuesWith (p : Str) (terms : List Str) : List Str := terms.filterMap (fun t => if p.isPrefixOf t then some (t.drop p.length) else none)

/-- All that is assumed of the function that sorts the tags (`_notmuch_string_list_sort`). -/
structure SortsTags (s : List Str → List Str) : Prop where
  perm : ∀ l, (s l).Perm l
  sorted : ∀ l, (s l).Pairwise (fun a b => StringMap.strcmp a b ≠ .gt)

/-- What a user can do with the properties of a message. -/
inductive PropOp
  | add (key value : Str)
  | remove (key value : Str)
  | removeAll (key : Option Str)
  | removeAllWithPrefix (key : Option Str)

/-- The pairs a user must see after an operation that succeeded. -/
def PropOp.apply (P : Str → Str → Prop) : PropOp → Str → Str → Prop
  | .add k v => fun k' v' => P k' v' ∨ (k' = k ∧ v' = v)
  | .remove k v => fun k' v' => P k' v' ∧ ¬ (k' = k ∧ v' = v)
  | .removeAll (some k) => fun k' v' => P k' v' ∧ k' ≠ k
  | .removeAll none => fun _ _ => False
  | .removeAllWithPrefix (some k) => fun k' v' => P k' v' ∧ ¬ k <+: k'
  | .removeAllWithPrefix none => fun _ _ => False

/-- The call of the model. -/
def PropOp.exec (terms : List Str) : PropOp → Option (List Str)
  | .add k v => match modifyProperty terms k v false with
    | .ok t => some t
    | _ => none
  | .remove k v => match modifyProperty terms k v true with
    | .ok t => some t
    | _ => none
  | .removeAll k => removeAllProperties terms k false
  | .removeAllWithPrefix k => removeAllProperties terms k true

/-- The key is one that properties can have: without `=`. -/
def PropOp.KeyOk : PropOp → Prop
  | .removeAll (some k) => 61 ∉ k
  | .removeAllWithPrefix (some k) => 61 ∉ k
  | _ => True

/-- A sequence of operations that succeeded. -/
inductive PropHistory (start : List Str) : List Str → (Str → Str → Prop) → Prop
  | start : PropHistory start start (fun _ _ => False)
  | step {terms P terms'} (op : PropOp) : PropHistory start terms P → op.KeyOk → op.exec terms = some terms' → PropHistory start terms' (op.apply P)

end Notmuch.TermList
