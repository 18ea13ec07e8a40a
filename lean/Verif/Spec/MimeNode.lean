import Verif.Model.MimeNode

/-! # Specification: numbers of parts (C44) -/

namespace Notmuch.MimeNode

mutual
/-- All parts of a part, depth first: each before its children. -/
def parts : Tree → List Tree
  | .node a l => .node a l :: partsAll l
def partsAll : List Tree → List Tree
  | [] => []
  | t :: l => parts t ++ partsAll l
end

/-- The part at a place: the list has the numbers of the children on the way. -/
def sub : Tree → List Nat → Option Tree
  | t, [] => some t
  | t, c :: p => (t.children[c]?).bind (fun t => sub t p)

/-- How many parts come before the one at a place. -/
def index : Tree → List Nat → Nat
  | _, [] => 0
  | t, c :: p => 1 + (partsAll (t.children.take c)).length + (match t.children[c]? with | some t => index t p | none => 0)

/-- Any calls of `mime_node_child` for nodes that there are. -/
inductive Reached (t : Tree) : List Obj → Prop
  | start : Reached t (openRoot t)
  | child {h} (i c : Nat) : Reached t h → Reached t (child h i c)

end Notmuch.MimeNode
