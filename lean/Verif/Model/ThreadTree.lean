import Verif.Base.Bytes

/-!
# lib/thread.cc, lib/message.cc: the reply forest of a thread

Messages are referred to by their message id; `ids` are the keys of `thread->message_hash` (all messages
of the thread, lib/thread.cc:279-281).  Functions that recurse over the replies get a number of levels
after which the model gives up (`none`): this stands for unbounded recursion, and the theorems show
that it does not occur.
-/

namespace Notmuch.ThreadTree

/-- What the algorithm looks at: message id, In-Reply-To (empty: none), references, date. -/
structure Msg where
  mid : Str
  irt : Str
  refs : List Str
  date : Int

/-- The lists `message->replies`. -/
abbrev Replies := Str → List Str

/-- `_notmuch_message_add_reply`, lib/message.cc:606-611 (appends, lib/messages.c:46-57). -/
def addReply (r : Replies) (parent m : Str) : Replies := fun x => if x = parent then r x ++ [m] else r x

/-- `_parent_via_in_reply_to`, lib/thread.cc:397-416. -/
def viaInReplyTo (ids : List Str) (r : Replies) (m : Msg) : Option Replies :=
  if m.irt ≠ [] ∧ m.irt ∈ ids then some (addReply r m.irt m.mid) else none

/-- The first loop of `_resolve_thread_relationships`, lib/thread.cc:472-476. -/
def pass1 (ids : List Str) : List Msg → Replies × List Msg → Replies × List Msg
  | [], s => s
  | m :: rest, (r, maybe) =>
    match viaInReplyTo ids r m with
    | some r' => pass1 ids rest (r', maybe)
    | none => pass1 ids rest (r, maybe ++ [m])

/-- The treatment of the first message, lib/thread.cc:484-497. -/
def passFirst (ids : List Str) (first : Msg) (s : Replies × List Msg) : Replies × List Msg :=
  if s.2.isEmpty then (s.1, s.2 ++ [first])
  else match viaInReplyTo ids s.1 first with
    | some r' => (r', s.2)
    | none => (s.1, s.2 ++ [first])

/-- The loop over the replies in `_notmuch_message_label_depths`, lib/message.cc:625-630. -/
def labelLoop (f : Str → (Str → Nat) → Option (Str → Nat)) : List Str → (Str → Nat) → Option (Str → Nat)
  | [], lab => some lab
  | c :: cs, lab =>
    match f c lab with
    | none => none
    | some lab' => labelLoop f cs lab'

/-- `_notmuch_message_label_depths`, lib/message.cc:619-631. -/
def label (r : Replies) : Nat → Nat → Str → (Str → Nat) → Option (Str → Nat)
  | 0, _, _, _ => none
  | fuel + 1, depth, m, lab => labelLoop (label r fuel (depth + 1)) (r m) (fun x => if x = m then depth else lab x)

/-- The same for several messages, lib/thread.cc:499-504. -/
def labelAll (r : Replies) (fuel depth : Nat) (cs : List Str) (lab : Str → Nat) : Option (Str → Nat) :=
  labelLoop (label r fuel depth) cs lab

/-- The choice of a parent in `_parent_or_toplevel`, lib/thread.cc:429-443: among the references
that are in the thread, the first of those with the greatest depth. -/
def chooseParent (ids : List Str) (depth : Str → Nat) (refs : List Str) : Option Str :=
  (refs.foldl (fun (s : Nat × Option Str) ref =>
    if ref ∈ ids then
      if depth ref > s.1 ∨ s.2 = none then (depth ref, some ref) else s
    else s) (0, none)).2

/-- `_parent_or_toplevel`, lib/thread.cc:418-455. -/
def parentOrToplevel (ids : List Str) (depth : Str → Nat) (s : Replies × List Str) (m : Msg) : Replies × List Str :=
  match chooseParent ids depth m.refs with
  | some p => (addReply s.1 p m.mid, s.2)
  | none => (s.1, s.2 ++ [m.mid])

/-- The last loop of `_resolve_thread_relationships`, lib/thread.cc:506-516. -/
def pass3 (ids : List Str) (depth : Str → Nat) : List Msg → Replies × List Str → Replies × List Str
  | [], s => s
  | m :: rest, s =>
    if rest ≠ [] ∨ s.2 ≠ [] then pass3 ids depth rest (parentOrToplevel ids depth s m)
    else pass3 ids depth rest (s.1, s.2 ++ [m.mid])

inductive Tree
  | node : Str → List Tree → Tree

/-- The loop over the messages of a list in `_notmuch_message_sort_subtrees`. -/
def treesLoop (f : Str → Option Tree) : List Str → Option (List Tree)
  | [] => some []
  | c :: cs =>
    match f c, treesLoop f cs with
    | some t, some ts => some (t :: ts)
    | _, _ => none

/-- `_notmuch_message_sort_subtrees`, lib/message.cc:656-690, for one message: its tree of sorted
replies.  `sort` is `qsort` with `_cmpmsg` (lib/message.cc:639-652). -/
def tree (sort : List Str → List Str) (r : Replies) : Nat → Str → Option Tree
  | 0, _ => none
  | fuel + 1, m =>
    match treesLoop (tree sort r fuel) (sort (r m)) with
    | none => none
    | some ts => some (.node m ts)

/-- And for a sorted list. -/
def treesAux (sort : List Str → List Str) (r : Replies) (fuel : Nat) (cs : List Str) : Option (List Tree) :=
  treesLoop (tree sort r fuel) cs

/-- And for a list. -/
def trees (sort : List Str → List Str) (r : Replies) (fuel : Nat) (l : List Str) : Option (List Tree) :=
  treesAux sort r fuel (sort l)

/-- The replies and the top-level messages before sorting, lib/thread.cc:457-516. -/
def links (msgs : List Msg) : Option (Replies × List Str) :=
  match msgs with
  | [] => some (fun _ => [], [])
  | first :: rest =>
    let ids := msgs.map (·.mid)
    let s := passFirst ids first (pass1 ids rest (fun _ => [], []))
    match labelAll s.1 (msgs.length + 1) 0 (s.2.map (·.mid)) (fun _ => 0) with
    | none => none
    | some depth => some (pass3 ids depth s.2 (s.1, []))

/-- `_resolve_thread_relationships`, lib/thread.cc:457-523: the top-level messages with their
replies, for the messages `msgs` of the thread, oldest first. -/
def resolve (sort : List Str → List Str) (msgs : List Msg) : Option (List Tree) :=
  match links msgs with
  | none => none
  | some (r, top) => trees sort r (msgs.length + 1) top

end Notmuch.ThreadTree
