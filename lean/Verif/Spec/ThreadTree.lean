import Verif.Model.ThreadTree

/-!
# What a reply forest is
-/

namespace Notmuch.ThreadTreeSpec
open Notmuch.ThreadTree

mutual
/-- The messages of a tree, in the order of a traversal. -/
def nodes : Tree → List Str
  | .node m ts => m :: nodesAll ts
def nodesAll : List Tree → List Str
  | [] => []
  | t :: ts => nodes t ++ nodesAll ts
end

/-- The message at the root. -/
def root : Tree → Str
  | .node m _ => m

mutual
/-- Every list of replies, and the list of top-level messages, satisfies `p`. -/
def Every (p : List Str → Prop) : Tree → Prop
  | .node _ ts => p (ts.map root) ∧ EveryAll p ts
def EveryAll (p : List Str → Prop) : List Tree → Prop
  | [] => True
  | t :: ts => Every p t ∧ EveryAll p ts
end

mutual
/-- `c` is shown as a reply to `p`. -/
def ReplyTo (p c : Str) : Tree → Prop
  | .node m ts => (m = p ∧ c ∈ ts.map root) ∨ ReplyToAny p c ts
def ReplyToAny (p c : Str) : List Tree → Prop
  | [] => False
  | t :: ts => ReplyTo p c t ∨ ReplyToAny p c ts
end

/-- A sorting function, as far as `qsort` promises: the same elements, ordered by date. -/
structure SortsByDate (date : Str → Int) (sort : List Str → List Str) : Prop where
  perm : ∀ l, (sort l).Perm l
  sorted : ∀ l, (sort l).Pairwise (fun a b => date a ≤ date b)

/-- The In-Reply-To header of `m` names a message of the thread. -/
def Answers (msgs : List Msg) (m : Msg) : Prop := m.irt ≠ [] ∧ m.irt ∈ msgs.map (·.mid)

/-- `x` is `n` In-Reply-To links below a message that answers none of the thread. -/
inductive Depth (msgs : List Msg) : Str → Nat → Prop
  | orphan {m : Msg} : m ∈ msgs → ¬ Answers msgs m → Depth msgs m.mid 0
  | answer {m : Msg} {n : Nat} : m ∈ msgs → Answers msgs m → Depth msgs m.irt n → Depth msgs m.mid (n + 1)

end Notmuch.ThreadTreeSpec
