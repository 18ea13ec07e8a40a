import Verif.Model.TagUtil

/-!
# What a list of tag operations means
-/

namespace Notmuch.TagSpec
open Notmuch.TagUtil (TagOp)

/-- The last operation that names `t` exists and has the given kind. -/
def LastIs (ops : List TagOp) (t : Str) (remove : Bool) : Prop :=
  ∃ pre op post, ops = pre ++ op :: post ∧ op.tag = t ∧ op.remove = remove ∧
    ∀ o ∈ post, o.tag ≠ t

/-- No operation names `t`. -/
def Unnamed (ops : List TagOp) (t : Str) : Prop := ∀ o ∈ ops, o.tag ≠ t

/-- Is `t` among the tags after applying `ops` to a message tagged `tags`? -/
def Final (ops : List TagOp) (removeAll : Bool) (tags : List Str) (t : Str) : Prop :=
  LastIs ops t false ∨ (Unnamed ops t ∧ removeAll = false ∧ t ∈ tags)

/-- All tags of the operations have an admissible length. -/
def Lengths (ops : List TagOp) : Prop := ∀ o ∈ ops, o.tag.length ≤ 200

/-- Adding the empty tag or a tag that starts with `-` (45) is not legal; removing any tag is. -/
def LegalOp (o : TagOp) : Prop := o.remove = false → o.tag ≠ [] ∧ o.tag.head? ≠ some 45

/-- The text of one operation: sign and tag, hex-encoded. -/
def opText (enc : Str → Str) (o : TagOp) : Str := (if o.remove then 45 else 43) :: enc o.tag

/-- The operations separated by single blanks. -/
def opsText (enc : Str → Str) : List TagOp → Str
  | [] => []
  | [o] => opText enc o
  | o :: os => opText enc o ++ 32 :: opsText enc os

/-- A batch line: operations, `--`, query, newline. -/
def lineText (enc : Str → Str) (ops : List TagOp) (query : Str) : Str :=
  opsText enc ops ++ [32, 45, 45, 32] ++ query ++ [10]

end Notmuch.TagSpec
