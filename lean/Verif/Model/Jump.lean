/-!
# emacs/notmuch-jump.el: jumping by keys

Keys are lists of characters, each a key; actions are abstract.  `base c` says whether the character has a command in `notmuch-jump-minibuffer-map` or its
parents (DEL, RET, C-g, and, by `suppress-keymap`, the digits and "-").  What such a command does is left out: it ends the run.  Prompts and faces are left out.
-/

namespace Notmuch.Jump

variable {α : Type}

/-- An entry of an action map: a key and an action, none for "Backup" (emacs/notmuch-jump.el:199-201). -/
abbrev Entry (α : Type) := List Char × Option α

/-- An action map and, for "Backup", those from which it was reached. -/
abbrev Stack (α : Type) := List (List (Entry α))

/-- What becomes of typing: waiting for a key, an action and what was typed after, or a command of the base map. -/
inductive Outcome (α : Type) where
  | waiting (s : Stack α)
  | done (a : α) (rest : List Char)
  | base (c : Char) (rest : List Char)

/-- The first pass of `notmuch-jump--make-keymap` (emacs/notmuch-jump.el:178-184): keys of one character, the last definition of a key counts. -/
def single (m : List (Entry α)) (c : Char) : Option (Option α) := ((m.filter fun e => decide (e.1 = [c])).getLast?).map (·.2)

/-- Is there a longer key that begins so (emacs/notmuch-jump.el:188-194)? -/
def longer (m : List (Entry α)) (c : Char) : Bool := m.any fun e => decide (1 < e.1.length) && e.1.head? == some c

/-- `action-submap` (emacs/notmuch-jump.el:193-203). -/
def submap (m : List (Entry α)) (c : Char) : List (Entry α) :=
  ((m.filter fun e => e.1.head? == some c).map fun e => (e.1.drop 1, e.2)) ++ [(['\x7f'], none)]

/-- A key is typed in the minibuffer (emacs/notmuch-jump.el:174-212, with `notmuch-jump` 83-124): a binding of the first pass; then, if there is no binding at
all, a submap; then the base map; nothing if the key is undefined.  "Backup" is `notmuch-jump` of the map before. -/
def key (base : Char → Bool) (s : Stack α) (c : Char) : Outcome α :=
  match s with
  | [] => .waiting []
  | m :: outer =>
    match single m c with
    | some (some a) => .done a []
    | some none => .waiting outer
    | none =>
      if base c then .base c []
      else if longer m c then .waiting (submap m c :: m :: outer)
      else .waiting (m :: outer)

/-- Keys are typed one after the other, until an action or a command of the base map (emacs/notmuch-jump.el:120-124). -/
def type (base : Char → Bool) : Stack α → List Char → Outcome α
  | s, [] => .waiting s
  | s, c :: cs =>
    match key base s c with
    | .waiting s' => type base s' cs
    | .done a _ => .done a cs
    | .base d _ => .base d cs

/-- `notmuch-jump` (emacs/notmuch-jump.el:83-124). -/
def jump (base : Char → Bool) (actions : List (List Char × α)) (typed : List Char) : Outcome α :=
  type base [actions.map fun e => (e.1, some e.2)] typed

/-- `string-width` with the widths of characters. -/
def width (cw : Char → Nat) (s : List Char) : Nat := (s.map cw).sum

/-- The width of columns and their number (emacs/notmuch-jump.el:148-154). -/
def columns (cw : Char → Nat) (w : Nat) (items : List (List Char)) : Nat × Nat :=
  let col := 3 + (items.map (width cw)).foldr max 0
  if w < col * items.length then (col, max 1 (w / col)) else (w / items.length, items.length)

/-- The inner loop (emacs/notmuch-jump.el:156-161): from column `k` on; what is inserted and the items that are left. -/
def row (cw : Char → Nat) (col ncols : Nat) : Nat → List (List Char) → List Char × List (List Char)
  | _, [] => ([], [])
  | k, item :: items =>
    if k < ncols then
      let pad := if !items.isEmpty && decide (k < ncols - 1) then List.replicate (col - width cw item) ' ' else []
      let r := row cw col ncols (k + 1) items
      (item ++ pad ++ r.1, r.2)
    else ([], item :: items)

/-- The outer loop (emacs/notmuch-jump.el:155-163).  The number bounds the rows. -/
def table (cw : Char → Nat) (col ncols : Nat) : Nat → List (List Char) → List Char
  | 0, _ => []
  | _ + 1, [] => []
  | n + 1, items =>
    let r := row cw col ncols 0 items
    if r.2.isEmpty then r.1 else r.1 ++ '\n' :: table cw col ncols n r.2

/-- `notmuch-jump--insert-items` (emacs/notmuch-jump.el:146-163). -/
def insertItems (cw : Char → Nat) (w : Nat) (items : List (List Char)) : List Char :=
  let c := columns cw w items
  table cw c.1 c.2 items.length items

end Notmuch.Jump
