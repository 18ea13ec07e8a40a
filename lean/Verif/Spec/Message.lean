import Verif.Model.Message
import Verif.Spec.TermList

/-!
# Specification: a message (C62)

A message has an id, a thread, tags, properties and files, and a program that has one message object sees exactly that, whatever it asked before and in whatever order.
-/

namespace Notmuch.Message

open Notmuch.TermList
open Notmuch.StringMap (Pair Map cmppair)
open Notmuch.StringMapSpec (LexLe PairLe Matches QSort)

/-- A message: `files` are the entries of its files (the number of the directory, `:`, the name); `data` is the file of a document of an old version. -/
structure Msg where
  id : Str
  thread : Str
  data : Str
  ghost : Bool
  tags : Str → Prop
  props : Str → Str → Prop
  files : Str → Prop
  writable : Bool
  frozen : Nat

/-- The name of the file of an entry. -/
def nameOf (W : World) (entry f : Str) : Prop :=
  ∃ id base directory, entry = dec id ++ bs ":" ++ base ∧ W.dir id = some directory ∧
    f = W.root ++ bs "/" ++ (if directory = [] then [] else directory ++ bs "/") ++ base

/-- The names of the files of a message, in the order of the entries. -/
def FileNames (W : World) (m : Msg) (l : List Str) : Prop :=
  ∃ es : List Str, Sorted es ∧ (∀ e, e ∈ es ↔ m.files e) ∧
    ((es = [] ∧ l = [m.data]) ∨ (es ≠ [] ∧ l.length = es.length ∧ ∀ (i : Nat) e f, es[i]? = some e → l[i]? = some f → nameOf W e f))

/-- The file is in a maildir and tells something about its flags: it is in `new`, or there is `:2,` in its name (Model/Maildir.lean). -/
def Info (f : Str) : Prop := ∃ a dir b, Maildir.inMaildir f = some (a, dir, b) ∧ (dir = bs "new" ∨ Maildir.splitInfo f ≠ none)

/-- The file is in a maildir and has the flag. -/
def Flag (f : Str) (c : UInt8) : Prop := Maildir.inMaildir f ≠ none ∧ ∃ a b, Maildir.splitInfo f = some (a, b) ∧ c ∈ b

/-- What `notmuch_message_maildir_flags_to_tags` makes of the tags. -/
def tagsFrom (fl : UInt8 → Prop) (tags : Str → Prop) (t : Str) : Prop :=
  (t = bs "draft" ∧ fl 68) ∨ (t = bs "flagged" ∧ fl 70) ∨ (t = bs "passed" ∧ fl 80) ∨ (t = bs "replied" ∧ fl 82) ∨ (t = bs "unread" ∧ ¬ fl 83) ∨
    (t ∉ [bs "draft", bs "flagged", bs "passed", bs "replied", bs "unread"] ∧ tags t)

/-- What a call must give, and the message after it. -/
def Step (W : World) (m : Msg) (c : Call) (r : Result) (m' : Msg) : Prop :=
  match c with
  | .messageId => m' = m ∧ r = .text m.id
  | .threadId => m' = m ∧ r = .text m.thread
  | .tags => m' = m ∧ ∃ l, r = .texts l ∧ Sorted l ∧ ∀ t, t ∈ l ↔ m.tags t
  | .filename => m' = m ∧ ∃ l f, FileNames W m l ∧ l.head? = some f ∧ r = .text f
  | .filenames => m' = m ∧ ∃ l, FileNames W m l ∧ r = .texts l
  | .countFiles => m' = m ∧ ∃ l, FileNames W m l ∧ r = .number l.length
  | .isGhost => m' = m ∧ r = .bool m.ghost
  | .maildirFlag c => m' = m ∧ ∃ l b, FileNames W m l ∧ r = .bool b ∧ ((∃ f ∈ l, Info f) → (b = true ↔ c = 0 ∨ ∃ f ∈ l, Flag f c))
  | .property k => m' = m ∧ ∃ v, r = .value v ∧ (v = none ↔ ∀ w, ¬ m.props k w) ∧ ∀ w, v = some w → m.props k w ∧ ∀ w', m.props k w' → LexLe w w'
  | .countProperties k => m' = m ∧ ∃ l : List Str, l.Nodup ∧ (∀ v, v ∈ l ↔ m.props k v) ∧ r = .number l.length
  | .properties k e => m' = m ∧ ∃ l, r = .pairs l ∧ l.Pairwise PairLe ∧ l.Nodup ∧ ∀ k' v, (k', v) ∈ l ↔ m.props k' v ∧ Matches k e k'
  | .reopen => m' = m ∧ r = .status .success
  | .flagsToTags => ∃ l, FileNames W m l ∧
      ((¬ (∃ f ∈ l, Info f) ∧ m' = m ∧ r = .status .success) ∨
       ((∃ f ∈ l, Info f) ∧ m.writable = false ∧ m' = m ∧ r = .status .readOnly) ∨
       ((∃ f ∈ l, Info f) ∧ m.writable = true ∧ r = .status .success ∧ m' = { m with tags := tagsFrom (fun c => ∃ f ∈ l, Flag f c) m.tags }))
  | .addTag t =>
    if m.writable = false then m' = m ∧ r = .status .readOnly
    else if t.length > 200 then m' = m ∧ r = .status .tagTooLong
    else m' = { m with tags := fun x => m.tags x ∨ x = t } ∧ r = .status .success
  | .removeTag t =>
    if m.writable = false then m' = m ∧ r = .status .readOnly
    else if t.length > 200 then m' = m ∧ r = .status .tagTooLong
    else m' = { m with tags := fun x => m.tags x ∧ x ≠ t } ∧ r = .status .success
  | .removeAllTags =>
    if m.writable = false then m' = m ∧ r = .status .readOnly
    else m' = { m with tags := fun _ => False } ∧ r = .status .success
  | .addProperty k v =>
    if m.writable = false then m' = m ∧ r = .status .readOnly
    else if 61 ∈ k then m' = m ∧ r = .status .illegalArgument
    else m' = { m with props := PropOp.apply m.props (.add k v) } ∧ r = .status .success
  | .removeProperty k v =>
    if m.writable = false then m' = m ∧ r = .status .readOnly
    else if 61 ∈ k then m' = m ∧ r = .status .illegalArgument
    else m' = { m with props := PropOp.apply m.props (.remove k v) } ∧ r = .status .success
  | .removeAllProperties k pre =>
    if m.writable = false then m' = m ∧ r = .status .readOnly
    else m' = { m with props := PropOp.apply m.props (if pre then .removeAllWithPrefix k else .removeAll k) } ∧ r = .status .success
  | .moveFile old new =>
    if m.writable = false then m' = m ∧ r = .status .readOnly
    else m' = { m with files := fun e => (m.files e ∧ e ≠ old) ∨ e = new } ∧ r = .status .success
  | .freeze =>
    if m.writable = false then m' = m ∧ r = .status .readOnly
    else m' = { m with frozen := m.frozen + 1 } ∧ r = .status .success
  | .thaw =>
    if m.writable = false then m' = m ∧ r = .status .readOnly
    else if m.frozen = 0 then m' = m ∧ r = .status .unbalancedFreezeThaw
    else m' = { m with frozen := m.frozen - 1 } ∧ r = .status .success

/-- What a sequence of calls must give. -/
def Conform (W : World) : Msg → List Call → List Result → Msg → Prop
  | m, [], [], m' => m' = m
  | m, c :: cs, r :: rs, m' => ∃ m1, Step W m c r m1 ∧ Conform W m1 cs rs m'
  | _, _, _, _ => False

/-- The document says the same as the message. -/
structure Holds (W : World) (terms : List Str) (m : Msg) : Prop where
  sorted : Sorted terms
  short : ∀ t ∈ terms, t.length ≤ 245
  id : valuesWith (bs "Q") terms = [m.id]
  thread : valuesWith (bs "G") terms = [m.thread]
  type : valuesWith (bs "T") terms = [if m.ghost then bs "ghost" else bs "mail"]
  tags : ∀ t, bs "K" ++ t ∈ terms ↔ m.tags t
  propKeys : ∀ k v, m.props k v → 61 ∉ k
  props : ∀ s, bs "XPROPERTY" ++ s ∈ terms ↔ ∃ k v, m.props k v ∧ s = k ++ bs "=" ++ v
  files : ∀ e, bs "XFDIRENTRY" ++ e ∈ terms ↔ m.files e
  dirs : ∀ e, m.files e → ∃ f, nameOf W e f

/-- What is assumed of the world: the sorting functions sort, and no directory is so long that its terms are not allowed. -/
structure World.Ok (W : World) : Prop where
  sortTags : SortsTags W.sortTags
  qs : QSort cmppair W.qs
  folder : ∀ id d, W.dir id = some d → (W.folder d).length ≤ 237
  paths : ∀ id d, W.dir id = some d → ∀ p ∈ W.paths d, p.length ≤ 244

/-- The arguments are such that the call does not end the process, and that properties can have the key. -/
def Call.Ok (W : World) : Call → Prop
  | .addProperty k v => k.length + v.length ≤ 235
  | .removeProperty k v => k.length + v.length ≤ 235
  | .removeAllProperties (some k) _ => 61 ∉ k
  | .moveFile old new => old.length ≤ 235 ∧ new.length ≤ 235 ∧ ∃ f, nameOf W new f
  | _ => True

end Notmuch.Message
