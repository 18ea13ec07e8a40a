import Verif.Model.Ruby

/-!
# What a Ruby program has to do so that no freed memory is used (C78)
-/

namespace Notmuch.Ruby

/-- The value `r` was got from `a`, directly or from something got from it. -/
inductive From (s : State) : Nat → Nat → Prop
  | one {r a : Nat} {v : Val} : s.vals[r]? = some v → v.origin = some a → From s a r
  | more {r b a : Nat} : From s b r → From s a b → From s a r

/-- What a program has to keep while it uses a value of the first class: its database; for Threads the Query too; for the Messages of a thread the Thread too.  A Thread needs nothing. -/
def needs : Kind → Kind → Bool
  | .query, .database => true
  | .directory, .database => true
  | .message, .database => true
  | .threads, .database => true
  | .threads, .query => true
  | .messages, .database => true
  | .messages, .thread => true
  | _, _ => false

/-- `a` is needed to use `r`; for the replies of a message, the message is. -/
def Needed (s : State) (r a : Nat) : Prop :=
  ∃ v va, s.vals[r]? = some v ∧ s.vals[a]? = some va ∧
    ((From s a r ∧ needs v.kind va.kind = true) ∨ (v.origin = some a ∧ v.kind = .messages ∧ va.kind = .message))

/-- The program still has all that is needed to use `r`, and has not destroyed it. -/
def Kept (s : State) (r : Nat) : Prop :=
  ∀ a, Needed s r a → a ∈ s.held ∧ ∃ va, s.vals[a]? = some va ∧ va.data ≠ none

/-- The message was not given to the program before. -/
def Unseen (s : State) (m : Nat) : Prop := ∀ v ∈ s.vals, v.made ≠ some m

/-- The rest of the list of a Messages object. -/
def restOf (s : State) (c : Nat) : List Nat := ((s.objs[c]?).bind (·.iter)).getD []

/-- What is asked of a program at a step: of the collector, nothing is asked.  A message of a thread is given out only once, and the object of a loop is not destroyed within the loop. -/
def Careful1 (s : State) : Event → Prop
  | .open _ => True
  | .leave => True
  | .drop _ => True
  | .gc _ => True
  | .destroy _ => True
  | .query r => Kept s r
  | .directory r => Kept s r
  | .findMessage r => Kept s r
  | .searchThreads r => Kept s r
  | .searchMessages r => Kept s r
  | .listOf r _ => Kept s r
  | .replies r => Kept s r
  | .call r => Kept s r
  | .each r => Kept s r
  | .close r => Kept s r
  | .tags r => Kept s r ∧ ∀ v c, s.vals[r]? = some v → v.data = some (some c) → ∀ m ∈ restOf s c, Unseen s m
  | .next _ => ∀ lp, s.loops.head? = some lp → Kept s lp.val ∧ (∃ v, s.vals[lp.val]? = some v ∧ v.data ≠ none) ∧
      ∀ m, (if lp.started then (restOf s lp.obj).tail else restOf s lp.obj).head? = some m → Unseen s m

def Careful : State → List Event → Prop
  | _, [] => True
  | s, e :: es => Careful1 s e ∧ match step s e with
    | .ok s' => Careful s' es
    | .raised s' => Careful s' es
    | _ => True

end Notmuch.Ruby
