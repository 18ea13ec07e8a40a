import Verif.Base.Bytes

/-!
# lib/add-message.cc, lib/message.cc, lib/database.cc: threading, adding and removing messages

A database with the ghost-message feature (every database created or upgraded since 2014).
Xapian is modelled by its contract: a document is a set of terms, posting lists are sorted by
document id, a posting list being iterated is not affected by changes made meanwhile.
Everything happens between `begin_atomic` and `end_atomic` without errors (see `MessageSync` for
the transactions).
-/

namespace Notmuch.Threading

/-- The term `type:mail` or `type:ghost` of a document. -/
inductive Kind | mail | ghost
deriving DecidableEq

/-- A message document.  `mid`: the `id` term; `threads`, `refs`, `files`: the terms with the
prefixes `thread`, `reference` and `file-direntry`. -/
structure Doc where
  docId : Nat
  mid : Str
  kind : Kind
  threads : List Nat
  refs : List Str
  files : List Str
deriving DecidableEq

structure Db where
  docs : List Doc
  lastThread : Nat
  lastDoc : Nat

/-- `NOTMUCH_MESSAGE_ID_MAX`, lib/notmuch-private.h:122: 200 less `sizeof ("thread_id_")`. -/
def idMax : Nat := 189

/-- The longest message id that fits into a reference term: `NOTMUCH_TERM_MAX`
(lib/notmuch-private.h:112) less the prefix `XREFERENCE` (lib/prefix.cc). -/
def refMax : Nat := 235

/-- `_notmuch_message_id_compressed` and its use in `notmuch_database_find_message`,
`_notmuch_message_create_for_message_id`, lib/database.cc:421-446, lib/message.cc:271-272.  `sha1` is
the hash function, of which nothing is assumed. -/
def normId (sha1 : Str → Str) (id : Str) : Str :=
  if id.length > idMax then bs "notmuch-sha1-" ++ sha1 id else id

/-- Adding a term to a set of terms. -/
def addTo {α} [DecidableEq α] (s : List α) (x : α) : List α := if x ∈ s then s else s ++ [x]

/-- `notmuch_database_find_message`, lib/database.cc:434-471, for a normalised id. -/
def findMid (db : Db) (mid : Str) : Option Doc := db.docs.find? (fun d => d.mid == mid)

/-- `notmuch_message_get_thread_id`, lib/message.cc:570-585: the first thread term. -/
def Doc.thread (d : Doc) : Nat := d.threads.headD 0

/-- `_notmuch_database_generate_thread_id`, lib/add-message.cc:39-50. -/
def genThread (db : Db) : Nat × Db := (db.lastThread + 1, { db with lastThread := db.lastThread + 1 })

/-- `_notmuch_database_generate_doc_id`, lib/database.cc. -/
def genDoc (db : Db) : Nat × Db := (db.lastDoc + 1, { db with lastDoc := db.lastDoc + 1 })

/-- `replace_document` (a new document id adds the document). -/
def putDoc (db : Db) (d : Doc) : Db :=
  if d.docId ∈ db.docs.map (·.docId) then
    { db with docs := db.docs.map (fun e => if e.docId = d.docId then d else e) }
  else { db with docs := db.docs ++ [d] }

/-- `_resolve_message_id_to_thread_id`, lib/add-message.cc:80-124: thread of the message with this
id; an unknown message becomes a ghost with a new thread. -/
def resolve (sha1 : Str → Str) (db : Db) (id : Str) : Nat × Db :=
  match findMid db (normId sha1 id) with
  | some d => (d.thread, db)
  | none =>
    let (docId, db) := genDoc db
    let (t, db) := genThread db
    (t, putDoc db ⟨docId, normId sha1 id, .ghost, [t], [], []⟩)

/-- `_merge_threads`, lib/add-message.cc:171-206. -/
def merge (db : Db) (winner loser : Nat) : Db :=
  { db with docs := db.docs.map (fun d =>
      if loser ∈ d.threads then { d with threads := addTo (d.threads.filter (· ≠ loser)) winner } else d) }

/-- What `_notmuch_database_link_message_to_parents` works on: the database, the document of the
message object (not yet written) and `*thread_id`. -/
structure Link where
  db : Db
  cur : Doc
  tid : Option Nat

/-- One round of the loop over the parents, lib/add-message.cc:266-291. -/
def linkParent (sha1 : Str → Str) (s : Link) (ref : Str) : Link :=
  let cur := if ref.length > refMax then s.cur else { s.cur with refs := addTo s.cur.refs ref }
  let (pt, db) := resolve sha1 s.db ref
  match s.tid with
  | none => { db := db, cur := { cur with threads := addTo cur.threads pt }, tid := some pt }
  | some t => if t = pt then { db := db, cur := cur, tid := some t }
              else { db := merge db t pt, cur := cur, tid := some t }

/-- `_notmuch_database_link_message_to_parents`, lib/add-message.cc:215-302.  `refs`: the message ids
found in the References and In-Reply-To headers, in the order in which the hash table is
iterated; `parse_references` drops those equal to the message's own id (lib/add-message.cc:28). -/
def linkParents (sha1 : Str → Str) (s : Link) (refs : List Str) : Link :=
  (refs.filter (· ≠ s.cur.mid)).foldl (linkParent sha1) s

/-- The end of `_notmuch_database_link_message`, lib/add-message.cc:449-454. -/
def finishThread (s : Link) : Link :=
  match s.tid with
  | some _ => s
  | none =>
    let (t, db) := genThread s.db
    { db := db, cur := { s.cur with threads := addTo s.cur.threads t }, tid := some t }

inductive Status | success | duplicateMessageId
deriving DecidableEq

/-- `notmuch_database_index_file`, lib/add-message.cc:463-580, for a file with the given message id
and references: the indexing of the text, dates and so on is left out. -/
def addMessage (sha1 : Str → Str) (db : Db) (file mid : Str) (refs : List Str) : Status × Db :=
  match findMid db (normId sha1 mid) with
  | none =>
    let (docId, db) := genDoc db
    let cur : Doc := ⟨docId, normId sha1 mid, .mail, [], [], [file]⟩
    let s := finishThread (linkParents sha1 ⟨db, cur, none⟩ refs)
    (.success, putDoc s.db s.cur)
  | some d =>
    let cur := { d with kind := .mail, files := addTo d.files file }
    let s := finishThread (linkParents sha1 ⟨db, cur, some d.thread⟩ refs)
    (if d.kind = .ghost then .success else .duplicateMessageId, putDoc s.db s.cur)

/-! ## Removing -/

/-- A posting list: the document ids with some term, ascending. -/
def postings (db : Db) (p : Doc → Bool) : List Nat :=
  ((db.docs.filter p).map (·.docId)).mergeSort (fun a b => a ≤ b)

/-- `PostingIterator::skip_to`. -/
def skipTo (l : List Nat) (x : Nat) : List Nat := l.dropWhile (fun y => decide (y < x))

theorem skipTo_length_le (l : List Nat) (x : Nat) : (skipTo l x).length ≤ l.length :=
  (List.dropWhile_suffix _).length_le

theorem skipTo_ge {l : List Nat} {x y : Nat} {r : List Nat} (h : skipTo l x = y :: r) : x ≤ y := by
  induction l with
  | nil => simp [skipTo] at h
  | cons a l ih =>
    unfold skipTo at h ih
    rw [List.dropWhile_cons] at h
    split at h
    · exact ih h
    · rename_i hn; simp at h hn; omega

/-- The loop of `_notmuch_message_delete`, lib/message.cc:1416-1429: is there a document in both posting
lists? -/
def intersects : List Nat → List Nat → Bool
  | [], _ => false
  | _, [] => false
  | t :: ts, m :: ms =>
    match h : skipTo (t :: ts) m with
    | [] => false
    | t' :: ts' =>
      if hne : t' = m then true
      else
        match h2 : skipTo (m :: ms) t' with
        | [] => false
        | m' :: ms' => if t' = m' then true else intersects (t' :: ts') (m' :: ms')
termination_by ts ms => ts.length + ms.length
decreasing_by
  have h1 := skipTo_ge h
  have h3 := skipTo_length_le (t :: ts) m
  have h4 : skipTo (m :: ms) t' = skipTo ms t' := by
    unfold skipTo
    rw [List.dropWhile_cons, if_pos (by simp; omega)]
  have h5 := skipTo_length_le ms t'
  rw [h] at h3
  rw [← h4, h2] at h5
  simp at h3 h5 ⊢
  omega

/-- `_notmuch_message_delete`, lib/message.cc:1377-1467, of the message with document `d`. -/
def deleteMessage (sha1 : Str → Str) (db : Db) (d : Doc) : Db :=
  let db := { db with docs := db.docs.filter (fun e => e.docId ≠ d.docId) }
  if d.kind = .ghost then db
  else if intersects (postings db (fun e => d.thread ∈ e.threads)) (postings db (fun e => e.kind = .mail)) then
    match findMid db (normId sha1 d.mid) with
    | some _ => db
    | none =>
      let (docId, db) := genDoc db
      putDoc db ⟨docId, normId sha1 d.mid, .ghost, [d.thread], [], []⟩
  else { db with docs := db.docs.filter (fun e => d.thread ∉ e.threads) }

/-- `notmuch_database_remove_message`, lib/database.cc:1446-1469, with
`notmuch_database_find_message_by_filename` (1471-1525) and `_notmuch_message_remove_filename`
(lib/message.cc:1007-1047). -/
def removeMessage (sha1 : Str → Str) (db : Db) (file : Str) : Status × Db :=
  match (postings db (fun e => file ∈ e.files)).head? with
  | none => (.success, db)
  | some docId =>
    match db.docs.find? (fun e => e.docId == docId) with
    | none => (.success, db)       -- not reachable
    | some d =>
      if d.files.length > 1 ∧ d.files.filter (· ≠ file) ≠ [] then
        (.duplicateMessageId, putDoc db { d with files := d.files.filter (· ≠ file) })
      else (.success, deleteMessage sha1 db d)

/-- What happens to a database. -/
inductive Op
  | add (file mid : Str) (refs : List Str)
  | remove (file : Str)

def step (sha1 : Str → Str) (db : Db) : Op → Db
  | .add file mid refs => (addMessage sha1 db file mid refs).2
  | .remove file => (removeMessage sha1 db file).2

def empty : Db := ⟨[], 0, 0⟩

def run (sha1 : Str → Str) (ops : List Op) : Db := ops.foldl (step sha1) empty

end Notmuch.Threading
