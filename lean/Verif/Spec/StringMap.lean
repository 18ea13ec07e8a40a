import Verif.Model.StringMap

/-!
# What a string map is: a bag of pairs of strings

`contents` of a map is its list of pairs up to order.
-/

namespace Notmuch.StringMapSpec
open Notmuch.StringMap

/-- `a` comes before `b` in the order of strings as sequences of bytes (`b` may equal `a`). -/
def LexLe : Str → Str → Prop
  | [], _ => True
  | _ :: _, [] => False
  | a :: as, b :: bs => a < b ∨ (a = b ∧ LexLe as bs)

/-- The order of pairs: by key, then by value. -/
def PairLe (p q : Pair) : Prop := (p.1 ≠ q.1 ∧ LexLe p.1 q.1) ∨ (p.1 = q.1 ∧ LexLe p.2 q.2)

/-- All that is assumed of `qsort` with a comparison function `cmp`: the elements stay the same, and of
two elements the later is not smaller. -/
structure QSort (cmp : Pair → Pair → Ordering) (qs : List Pair → List Pair) : Prop where
  perm : ∀ l, (qs l).Perm l
  sorted : ∀ l, (qs l).Pairwise (fun a b => cmp a b ≠ .gt)

/-- What a user can do with a map. -/
inductive Op
  | append (key value : Str)
  | set (key value : Str)
  | get (key : Str)
  | iterate (key : Str) (exact : Bool)

/-- The map after an operation (`none`: a read outside the array). -/
def step (qs : List Pair → List Pair) (m : Map) : Op → Option Map
  | .append k v => some (append m k v)
  | .set k v => set qs m k v
  | .get k => (get qs m k).map (·.1)
  | .iterate k e => (iterCreate qs m k e).map (·.1)

/-- The map after a history. -/
def run (qs : List Pair → List Pair) : Map → List Op → Option Map
  | m, [] => some m
  | m, o :: os => (step qs m o).bind (run qs · os)

/-- The loop `for (; iterator_valid (it); iterator_move_to_next (it))`, at most `n` times: the pairs it shows. -/
def walk (m : Map) : Nat → Iter → List Pair
  | 0, _ => []
  | n + 1, it =>
    match iterPair m it with
    | none => []
    | some p => p :: walk m n (iterNext m it)

/-- The key matches: it is the same, or (not `exact`) the given key is a prefix of it. -/
def Matches (key : Str) (exact : Bool) (k : Str) : Prop := if exact then k = key else key <+: k

/-- Setting a key, for a function from keys to values. -/
def update (f : Str → Option Str) : Op → Str → Option Str
  | .set k v => fun x => if x = k then some v else f x
  | _ => f

/-- The value last set for a key. -/
def lastSet (ops : List Op) : Str → Option Str := ops.foldl update (fun _ => none)

end Notmuch.StringMapSpec
