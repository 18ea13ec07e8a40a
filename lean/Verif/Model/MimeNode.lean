import Verif.Base.Bytes

/-!
# The numbers of the parts of a message: mime-node.c

A part is a tree: what GMime parsed, with the cleartext in place of what was encrypted (mime-node.c:443-460).  The nodes are made when they are
asked for; all nodes that were made so far are a list, and a pointer is a place in it.
-/

namespace Notmuch.MimeNode

/-- A part; the label stands for its content. -/
inductive Tree where
  | node (label : Nat) (children : List Tree)

def Tree.label : Tree → Nat
  | .node a _ => a

def Tree.children : Tree → List Tree
  | .node _ l => l

/-- `mime_node_t`, notmuch-client.h:334-395; `none` is -1.  `at` is not in the code: where the part is in the tree. -/
structure Obj where
  part : Tree
  at_ : List Nat
  parent : Option Nat
  partNum : Option Nat
  nextChild : Nat
  nextPartNum : Option Nat

/-- `mime_node_open`, mime-node.c:159-170. -/
def openRoot (t : Tree) : List Obj := [⟨t, [], none, some 0, 0, some 1⟩]

/-- The loop in `mime_node_child`, mime-node.c:478-480; parents are older, so `fuel` is their number. -/
def climb (h : List Obj) : Nat → Option Nat → Option Nat
  | _, none => none
  | 0, _ => none
  | fuel + 1, some i =>
    match h[i]? with
    | none => none
    | some x => if x.nextChild = x.part.children.length then climb h fuel x.parent else some i

/-- mime-node.c:481-482. -/
def setNext (h : List Obj) (i : Option Nat) (n : Nat) : List Obj :=
  match i with
  | none => h
  | some i => h.modify i (fun x => { x with nextPartNum := some n })

/-- The node that is made and the numbering, mime-node.c:461-484, for a child that there is. -/
def number (h : List Obj) (i c : Nat) (x : Obj) (t : Tree) : List Obj :=
  match x.nextPartNum with
  | some n =>
    if c = x.nextChild then
      let h := h.modify i (fun x => { x with nextChild := x.nextChild + 1, nextPartNum := none }) ++ [⟨t, x.at_ ++ [c], some i, some n, 0, some (n + 1)⟩]
      if t.children = [] then setNext h (climb h h.length (some i)) (n + 1) else h
    else h ++ [⟨t, x.at_ ++ [c], some i, none, 0, none⟩]
  | none => h ++ [⟨t, x.at_ ++ [c], some i, none, 0, none⟩]

/-- `mime_node_child`, mime-node.c:436-487: the new node is the last, if there is one.  Simplified: the memory suffices and the type of the part
is known. -/
def child (h : List Obj) (i c : Nat) : List Obj :=
  match h[i]? with
  | none => h
  | some x =>
    match x.part.children[c]? with
    | none => h
    | some t => number h i c x t

/-- The `part_num` of a node. -/
def numOf (h : List Obj) (i : Nat) : Option Nat := (h[i]?).bind (·.partNum)

mutual
/-- The order in which `format_part_sprinter`, `format_part_text` (notmuch-show.c:673-862, 548-645) and `format_part_reply` (notmuch-reply.c:40-88)
show parts: the number and the content of each. -/
def showNode : Tree → List Obj → Nat → List (Option Nat × Nat) × List Obj
  | .node a l, h, i =>
    let r := showChildren l h i 0
    ((numOf h i, a) :: r.1, r.2)
def showChildren : List Tree → List Obj → Nat → Nat → List (Option Nat × Nat) × List Obj
  | [], h, _, _ => ([], h)
  | t :: l, h, i, c =>
    let r := showNode t (child h i c) h.length
    let r' := showChildren l r.2 i (c + 1)
    (r.1 ++ r'.1, r'.2)
end

mutual
/-- `_mime_node_seek_dfs_walk`, mime-node.c:489-508: the node, or how many are left to skip. -/
def seekNode : Tree → List Obj → Nat → Nat → (Nat × List Obj) ⊕ (Nat × List Obj)
  | _, h, i, 0 => .inl (i, h)
  | .node _ l, h, i, n + 1 => seekChildren l h i 0 n
def seekChildren : List Tree → List Obj → Nat → Nat → Nat → (Nat × List Obj) ⊕ (Nat × List Obj)
  | [], h, _, _, n => .inr (n, h)
  | t :: l, h, i, c, n =>
    match seekNode t (child h i c) h.length n with
    | .inl r => .inl r
    | .inr r => seekChildren l r.2 i (c + 1) r.1
end

/-- `mime_node_seek_dfs`, mime-node.c:510-516. -/
def seek (t : Tree) (n : Int) : Option (Nat × List Obj) :=
  if n < 0 then none
  else
    match seekNode t (openRoot t) 0 n.toNat with
    | .inl r => some r
    | .inr _ => none

/-- What `notmuch show --part=n` shows, notmuch-show.c:1027-1032: nothing if there is no such part. -/
def showPart (t : Tree) (n : Int) : List (Option Nat × Nat) :=
  match seek t (if n < 0 then 0 else n) with
  | none => []
  | some (i, h) =>
    match h[i]? with
    | none => []
    | some x => (showNode x.part h i).1

end Notmuch.MimeNode
