import Verif.Model.Hex
import Verif.Model.StringUtil

/-!
# tag-util.c and notmuch-tag.c: tag operation lists, batch lines, query rewriting
-/

namespace Notmuch.TagUtil
open Notmuch.StringUtil

/-- `tag_operation_t`, tag-util.c:8-11. -/
structure TagOp where
  tag : Str
  remove : Bool
deriving DecidableEq, Repr

/-- `NOTMUCH_TAG_MAX`, lib/notmuch.h:1822. -/
def tagMax : Nat := 200

/-! ## Tags of one message

The tags of a message are the terms with the tag prefix of its Xapian document, a set; the list
order is irrelevant (only membership is used). -/

/-- `notmuch_message_add_tag`, lib/message.cc:1653-1683: `none` is `TAG_TOO_LONG`. -/
def addTag (tags : List Str) (t : Str) : Option (List Str) :=
  if t.length > tagMax then none
  else if t ∈ tags then some tags else some (tags ++ [t])

/-- `notmuch_message_remove_tag`, lib/message.cc:1688-1718 (removing an absent term is no
error: `Xapian::InvalidArgumentError` is ignored by `_notmuch_message_remove_term`). -/
def removeTag (tags : List Str) (t : Str) : Option (List Str) :=
  if t.length > tagMax then none else some (tags.filter (· ≠ t))

/-- The loop of `tag_op_list_apply`, tag-util.c:297-313. -/
def applyLoop : List TagOp → List Str → Option (List Str)
  | [], tags => some tags
  | op :: ops, tags =>
    match (if op.remove then removeTag tags op.tag else addTag tags op.tag) with
    | none => none
    | some tags => applyLoop ops tags

/-- `last_op` of `makes_changes`, tag-util.c:222-233: backwards scan, -1 removed, 1 added. -/
def lastOp (removeAll : Bool) (cur : Str) (ops : List TagOp) : Int :=
  match ops.reverse.find? (fun o => o.tag == cur) with
  | some o => if o.remove then -1 else 1
  | none => if removeAll then -1 else 0

/-- `makes_changes`, tag-util.c:207-272. -/
def makesChanges (tags : List Str) (ops : List TagOp) (removeAll : Bool) : Bool :=
  tags.any (fun t => lastOp removeAll t ops == -1) ||
  ops.any (fun o => !o.remove && !tags.contains o.tag)

/-- `tag_op_list_apply`, tag-util.c:274-332, its effect on the stored tags.  The changes are made
between a freeze and a thaw, so an error (`none`) leaves the stored tags alone.  Maildir
synchronisation is modelled in `Verif.Model.Maildir`. -/
def opListApply (tags : List Str) (ops : List TagOp) (removeAll preOptimized : Bool) :
    Option (List Str) :=
  if !preOptimized && !makesChanges tags ops removeAll then some tags
  else applyLoop ops (if removeAll then [] else tags)

/-! ## Batch lines -/

/-- `illegal_tag`, tag-util.c:37-52. -/
def illegalTag (tag : Str) (remove : Bool) : Bool :=
  (tag.isEmpty && !remove) || (tag.head? == some 45 && !remove)

/-- `chomp_newline`, notmuch-client.h:106-111 (for the non-empty lines `getline` returns). -/
def chomp (line : Str) : Str := if line.getLast? = some 10 then line.dropLast else line

/-- What a C string function sees of a buffer: the bytes before the first NUL. -/
def cstr (s : Str) : Str := s.takeWhile (· != 0)

/-- Result of `parse_tag_line`, tag-util.h:35-50. -/
inductive ParseResult
  | skipped
  | invalid
  | ok (ops : List TagOp) (query : Str)
deriving DecidableEq, Repr

theorem strtokLen_rest_lt {d : UInt8 → Bool} {s tok rest : Str}
    (h : strtokLen d s = some (tok, rest)) : rest.length < s.length := by
  unfold strtokLen at h
  simp only at h
  split at h
  · simp at h
  · rename_i hne
    simp at h
    obtain ⟨rfl, rfl⟩ := h
    have h1 : (s.dropWhile d).length ≤ s.length := (List.dropWhile_suffix d).length_le
    have h2 := List.takeWhile_append_dropWhile (p := fun c => !d c) (l := s.dropWhile d)
    have h3 := congrArg List.length h2
    simp only [List.length_append] at h3
    have h4 : 0 < ((s.dropWhile d).takeWhile (fun c => !d c)).length := by
      rw [List.length_pos_iff]; simpa using hne
    omega

/-- The token loop of `parse_tag_line`, tag-util.c:85-134, on the text from `tok + tok_len` on. -/
def parseTags (generous : Bool) (s : Str) (acc : List TagOp) : ParseResult :=
  match _h : strtokLen (· == 32) s with
  | none => .invalid                                    -- "missing query string"
  | some (tok, rest) =>
    if tok = [45, 45] then                              -- "--"
      match strtokLen (· == 32) rest with
      | none => .invalid                                -- "no query string after --"
      | some (t, r) => .ok acc (t ++ r)
    else if tok.head? ≠ some 45 ∧ tok.head? ≠ some 43 then .ok acc (tok ++ rest)
    else match rest with
      | [] => .invalid                                  -- "no query string"
      | _ :: rest' =>
        let remove := tok.head? == some 45
        let tag := tok.tail
        if !generous && illegalTag tag remove then .invalid
        else match Hex.decode tag with
          | none => .invalid
          | some t => parseTags generous rest' (acc ++ [{ tag := cstr t, remove := remove }])
termination_by s.length
decreasing_by
  have := strtokLen_rest_lt _h
  simp at this; omega

/-- `parse_tag_line`, tag-util.c:54-152.  `hex_decode_inplace` only overwrites the token being
decoded (C04_decode_shrinks), so the rest of the line can be treated as immutable. -/
def parseTagLine (generous : Bool) (line : Str) : ParseResult :=
  let tok := (chomp line).dropWhile (fun c => c == 32 || c == 9)
  match tok with
  | [] => .skipped
  | c :: _ => if c = 35 then .skipped else parseTags generous tok []

/-- The tag part of `parse_tag_command_line`, tag-util.c:154-187: operations and the remaining
arguments (which `query_string_from_args` joins into the query). `none` is `TAG_PARSE_INVALID`. -/
def parseTagArgs : List Str → List TagOp → Option (List TagOp × List Str)
  | [], acc => some (acc, [])
  | a :: as, acc =>
    if a = [45, 45] then some (acc, as)
    else if a.head? ≠ some 43 ∧ a.head? ≠ some 45 then some (acc, a :: as)
    else
      let remove := a.head? == some 45
      if illegalTag a.tail remove then none
      else parseTagArgs as (acc ++ [{ tag := a.tail, remove := remove }])

/-! ## `notmuch tag`: query rewriting -/

/-- Shape of the rewritten queries; `user` stands for the user's own query. -/
inductive Q
  | user
  | all
  | tag (t : Str)
  | not (q : Q)
  | and (qs : List Q)
  | or (qs : List Q)

/-- The condition contributed by one operation, notmuch-tag.c:74-77 and 103-105. -/
def opCond (o : TagOp) : Q := if o.remove then .tag o.tag else .not (.tag o.tag)

/-- `_optimize_tag_query_infix`, notmuch-tag.c:41-87.  `star` says that the user's query is the
literal `*`.  The text `( Q ) and (c1 or c2 …)` is represented by its syntax tree. -/
def optimizeInfix (star : Bool) (ops : List TagOp) : Q :=
  if ops.isEmpty then .user
  else if star then .or (ops.map opCond)
  else .and [.user, .or (ops.map opCond)]

/-- `_optimize_tag_query` for the s-expression syntax, notmuch-tag.c:89-115:
`(and Q c1 c2 …)`. -/
def optimizeSexp (ops : List TagOp) : Q :=
  if ops.isEmpty then .user else .and (.user :: ops.map opCond)

/-- What `tag:"t"` asks for, `RegexpFieldProcessor::operator()`, lib/regexp-fields.cc:198-258, for the field tag, which has no flag but the processor's: `none` is an error.
`rx` is `regcomp` and `regexec`.  C06 has the quoting; the whole of it is in Model/Fields.lean. -/
def infixLeaf (rx : Str → Option (Str → Bool)) (t : Str) : Option (List Str → Bool) :=
  if t.head? = some 47 then
    if 1 < t.length ∧ t.getLast? = some 47 then (rx t.tail.dropLast).map (fun f tags => tags.any f) else none
  else if 1 < t.length ∧ t.getLast? = some 47 then some (fun tags => tags.contains t.dropLast)
  else some (fun tags => tags.contains t)

/-- What `(tag "t")` asks for, notmuch-tag.c:103-105: the tag is not escaped.  `rd` is what sfsexp reads of the text between the quotation marks: `none` is an error. -/
def sexpLeaf (rd : Str → Option Str) (t : Str) : Option (List Str → Bool) := (rd t).map (fun u tags => tags.contains u)

/-- A tag that cannot be asked for makes the query fail, so this is not used for it. -/
def leafOf (leaf : Str → Option (List Str → Bool)) (t : Str) (tags : List Str) : Bool := ((leaf t).map (fun f => f tags)).getD false

mutual
/-- Which messages a rewritten query matches, given whether the message matches the user's query
and its tags; `leaf` is what the text with a tag asks for. -/
def Q.eval (leaf : Str → Option (List Str → Bool)) (m : Bool) (tags : List Str) : Q → Bool
  | .user => m
  | .all => true
  | .tag t => leafOf leaf t tags
  | .not q => !q.eval leaf m tags
  | .and qs => Q.evalAll leaf m tags qs
  | .or qs => Q.evalAny leaf m tags qs
def Q.evalAll (leaf : Str → Option (List Str → Bool)) (m : Bool) (tags : List Str) : List Q → Bool
  | [] => true
  | q :: qs => q.eval leaf m tags && Q.evalAll leaf m tags qs
def Q.evalAny (leaf : Str → Option (List Str → Bool)) (m : Bool) (tags : List Str) : List Q → Bool
  | [] => false
  | q :: qs => q.eval leaf m tags || Q.evalAny leaf m tags qs
end

/-- The message loop of `tag_query`, notmuch-tag.c:155-163, over all messages of the database
(tag lists), `sel` being the query actually run.  Stops at the first error; already processed
messages keep their new tags.  `interrupted` is not modelled here. -/
def tagLoop {α} (sel : α → Bool) (tagsOf : α → List Str) (setTags : α → List Str → α)
    (ops : List TagOp) (removeAll pre : Bool) : List α → List α × Bool
  | [] => ([], true)
  | m :: ms =>
    if sel m then
      match opListApply (tagsOf m) ops removeAll pre with
      | none => (m :: ms, false)
      | some t =>
        let r := tagLoop sel tagsOf setTags ops removeAll pre ms
        (setTags m t :: r.1, r.2)
    else
      let r := tagLoop sel tagsOf setTags ops removeAll pre ms
      (m :: r.1, r.2)

/-- `tag_query`, notmuch-tag.c:119-169, on messages given as (matches the user's query, tags).
`sexp` selects the query syntax, and `leaf` is what it makes of a tag; with `star` the query is the
literal `*` (infix only) and matches everything.  If the rewritten query is an error nothing is done. -/
def tagQuery (leaf : Str → Option (List Str → Bool)) (sexp star : Bool) (ops : List TagOp) (removeAll : Bool)
    (msgs : List (Bool × List Str)) : List (Bool × List Str) × Bool :=
  if removeAll then
    tagLoop (fun m => m.1) (·.2) (fun m t => (m.1, t)) ops true false msgs
  else if ops.all (fun o => (leaf o.tag).isSome) then
    let q := if sexp then optimizeSexp ops else optimizeInfix star ops
    tagLoop (fun m => q.eval leaf m.1 m.2) (·.2) (fun m t => (m.1, t)) ops false true msgs
  else (msgs, false)

end Notmuch.TagUtil
