/-!
# emacs/notmuch-tree.el: how a tree of messages is drawn

The lines of `notmuch tree`: for each message the field "tree" (symbols, then the arrow) and the field "subject".  A tree of messages is what
`notmuch show` prints as `[message, [replies...]]`.  Left out: the other fields, colours, text properties, the cursor (`notmuch-tree-goto-and-insert-msg`
inserts at the end of the buffer), padding by the format string ("%s" here).
-/

namespace Notmuch.TreeDraw

/-- A message with the trees of its replies (emacs/notmuch-tree.el:1022-1023: `car` and `cadr` of the tree). -/
inductive Tree (α : Type) where
  | node (msg : α) (replies : List (Tree α))

/-- `notmuch-tree-thread-symbols` (emacs/notmuch-tree.el:73-95). -/
structure Symbols where
  pfx : String
  top : String
  topTee : String
  vertical : String
  verticalTee : String
  bottom : String
  arrow : String
deriving DecidableEq

/-- The default of `notmuch-tree-thread-symbols` (emacs/notmuch-tree.el:73-80). -/
def Symbols.default : Symbols := ⟨" ", "─", "┬", "│", "├", "╰", "►"⟩

/-- What is put on the property list of a message (emacs/notmuch-tree.el:1044-1047): `:first`, `:tree-status` (the last symbol first), `:level`. -/
structure Line (α : Type) where
  msg : α
  first : Bool
  status : List String
  level : Nat
deriving DecidableEq

/-- The symbol for the branch on which the message hangs (emacs/notmuch-tree.el:1027-1039). -/
def branch (σ : Symbols) (depth : Nat) (first last : Bool) : String :=
  if 0 < depth && !last then σ.verticalTee
  else if 0 < depth && last then σ.bottom
  else if first && last then σ.pfx
  else if first && !last then σ.topTee
  else if !first && last then σ.bottom
  else σ.verticalTee

mutual
/-- `notmuch-tree-insert-tree` (emacs/notmuch-tree.el:1017-1053): the lines inserted.  `status` is `tree-status`, a stack. -/
def insertTree {α : Type} (σ : Symbols) : Tree α → Nat → List String → Bool → Bool → List (Line α)
  | .node msg replies, depth, status, first, last =>
    let level := 1 + (if depth == 0 && !first then 1 else depth)
    let status₁ := branch σ depth first last :: status
    let status₂ := ((if replies.isEmpty then σ.top else σ.topTee) ++ σ.arrow) :: status₁
    let line : Line α := ⟨msg, first && depth == 0, status₂, level⟩
    let status₃ := status₂.tail.tail
    line :: insertThread σ replies 1 replies.length (depth + 1) ((if last then " " else σ.vertical) :: status₃)
/-- The loop of `notmuch-tree-insert-thread` (emacs/notmuch-tree.el:1055-1063): `count` and `n` as there. -/
def insertThread {α : Type} (σ : Symbols) : List (Tree α) → Nat → Nat → Nat → List String → List (Line α)
  | [], _, _, _, _ => []
  | t :: ts, count, n, depth, status =>
    insertTree σ t depth status (count == 1) (count == n) ++ insertThread σ ts (count + 1) n depth status
end

/-- `notmuch-tree-insert-forest-thread` (emacs/notmuch-tree.el:1065-1069), the lines. -/
def insertForestThread {α : Type} (σ : Symbols) (thread : List (Tree α)) : List (Line α) :=
  insertThread σ thread 1 thread.length 0 []

/-- The field "tree" (emacs/notmuch-tree.el:939-947). -/
def treeField {α : Type} (l : Line α) : String := l.status.reverse.foldl (· ++ ·) ""

/-- Emacs' `string=` of a string or nil with a string: nil stands for the string "nil" (`symbol-name`). -/
def stringEq (a : Option String) (b : String) : Bool := a.getD "nil" == b

/-- The field "subject" of the lines (emacs/notmuch-tree.el:949-961): `previous` is `notmuch-tree-previous-subject`. -/
def subjectFields : Option String → List String → List String
  | _, [] => []
  | previous, bare :: rest => (if stringEq previous bare then " ..." else bare) :: subjectFields (some bare) rest

/-- `notmuch-tree-insert-forest` (emacs/notmuch-tree.el:1071-1076) with `notmuch-tree-insert-forest-thread` (1065-1069), which resets the previous
subject: for each line the message, the level and the two fields. -/
def insertForest {α : Type} (σ : Symbols) (subject : α → String) (forest : List (List (Tree α))) : List (Line α × String × String) :=
  forest.flatMap fun thread =>
    let lines := insertForestThread σ thread
    lines.zip ((lines.map treeField).zip (subjectFields none (lines.map fun l => subject l.msg)))

end Notmuch.TreeDraw
