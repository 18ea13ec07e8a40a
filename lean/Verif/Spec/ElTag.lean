import Verif.Spec.TagOps
import Verif.Spec.StringMap

/-!
# What tagging from Emacs should do
-/

namespace Notmuch.ElTagSpec
open Notmuch.TagUtil (TagOp)
open Notmuch.TagSpec

/-- Blank, tab, newline, form feed, carriage return. -/
def Space (c : UInt8) : Prop := c = 32 ∨ c = 9 ∨ c = 10 ∨ c = 12 ∨ c = 13

/-- A change as it is written in Emacs: `+tag` or `-tag`. -/
def text (o : TagOp) : Str := (if o.remove then 45 else 43) :: o.tag

/-- The opposite change. -/
def inv (o : TagOp) : TagOp := { o with remove := !o.remove }

/-- A change that both Emacs and notmuch take: a tag without blanks and NULs, not empty; an added tag does not begin with `-`, and a
removed one is not `-`. -/
structure Sendable (o : TagOp) : Prop where
  nonempty : o.tag ≠ []
  noSpace : ∀ c ∈ o.tag, ¬ Space c
  noNul : 0 ∉ o.tag
  add : o.remove = false → o.tag.head? ≠ some 45
  remove : o.remove = true → o.tag ≠ [45]

/-- A query that can stand in a line after `--`. -/
structure OneLine (q : Str) : Prop where
  nonempty : q ≠ []
  head : q.head? ≠ some 32
  noNewline : 10 ∉ q
  noNul : 0 ∉ q

/-- The tag can be stored and asked for: not too long, and with no slash at an end (C12). -/
def Plain (o : TagOp) : Prop := o.tag.length ≤ 200 ∧ o.tag.head? ≠ some 47 ∧ o.tag.getLast? ≠ some 47

/-- Two databases with the same messages, with the same tags. -/
def Same {α : Type} (a b : List (α × List Str)) : Prop :=
  a.map Prod.fst = b.map Prod.fst ∧
    ∀ (i : Nat) (x y : α × List Str), a[i]? = some x → b[i]? = some y → ∀ t, t ∈ x.2 ↔ t ∈ y.2

/-- The database after the changes, for the messages that match. -/
def Tagged {α : Type} (f : α → List Str → Bool) (ops : List TagOp) (a b : List (α × List Str)) : Prop :=
  a.map Prod.fst = b.map Prod.fst ∧
    ∀ (i : Nat) (x y : α × List Str), a[i]? = some x → b[i]? = some y →
      ∀ t, t ∈ y.2 ↔ if f x.1 x.2 then Final ops false x.2 t else t ∈ x.2

/-- Every change has an effect on a message with these tags, and no tag is named twice. -/
def Effective (ops : List TagOp) (tags : List Str) : Prop :=
  (ops.map (·.tag)).Nodup ∧ ∀ o ∈ ops, o.tag ∈ tags ↔ o.remove = true

/-- A tagging command whose undoing must restore the tags: a query whose answer does not depend on the tags (as `id:…`), and changes each of which
changes each of the messages. -/
structure Undoable {α : Type} (sel : Str → Option (α → List Str → Bool)) (db : List (α × List Str)) (q : Str) (ops : List TagOp) : Prop where
  query : OneLine q
  nonempty : ops ≠ []
  sendable : ∀ o ∈ ops, Sendable o ∧ o.tag.head? ≠ some 45
  plain : ∀ o ∈ ops, Plain o
  stable : ∃ g : α → Bool, sel q = some (fun a _ => g a) ∧ (q = bs "*" → ∀ a, g a = true) ∧ ∀ m ∈ db, g m.1 = true → Effective ops m.2

end Notmuch.ElTagSpec
