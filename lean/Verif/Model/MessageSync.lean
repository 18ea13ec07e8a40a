import Verif.Base.Bytes

/-!
# lib/message.cc, lib/database.cc: modifying messages, revisions, atomic sections

The Xapian database is modelled by its documented contract: a writer sees its own changes at once
(`view`); what survives a crash (`disk`) is the state at the last flush, and Xapian never flushes
while a transaction is open.  A flush outside a transaction can happen at any moment (flush
threshold, `commit`, autocommit after `commit_transaction`).
-/

namespace Notmuch.MessageSync

/-- The boolean terms of a message that the API modifies: tags and properties
(lib/prefix.cc: "tag" is K, "property" is XPROPERTY). -/
inductive Term
  | tag (t : Str)
  | prop (k v : Str)
deriving DecidableEq

def Term.isTag : Term → Bool
  | .tag _ => true
  | .prop _ _ => false

/-- A message document: its terms and `NOTMUCH_VALUE_LAST_MOD`. -/
structure Doc where
  terms : List Term
  lastMod : Nat
deriving DecidableEq

/-- The fields of `notmuch_database_t` that matter here (lib/database-private.h), and the Xapian
database.  `bound` is Xapian's upper bound of the last-modification values. -/
structure Db where
  writable : Bool
  needsUpgrade : Bool
  view : Nat → Option Doc
  viewBound : Nat
  disk : Nat → Option Doc
  diskBound : Nat
  revision : Nat
  nesting : Nat
  dirty : Bool

inductive Status
  | success | readOnly | upgradeRequired | unbalancedAtomic | unbalancedFreezeThaw
  | tagTooLong | illegalArgument | termTooLong
deriving DecidableEq

/-- `_notmuch_database_new_revision`, lib/database.cc:487-502: the new revision and the database. -/
def newRevision (db : Db) : Nat × Db :=
  if db.nesting ≠ 0 then (db.revision + 1, { db with dirty := true })
  else (db.revision + 1, { db with revision := db.revision + 1 })

/-- `replace_document` of a document with that last-modification value. -/
def replaceDoc (db : Db) (id : Nat) (d : Doc) : Db :=
  { db with view := fun i => if i = id then some d else db.view i
            viewBound := max db.viewBound d.lastMod }

/-- The database part of `_notmuch_message_sync`, lib/message.cc:1349-1377 (the database has the
last-modification feature): the document as written and the database. -/
def writeDoc (db : Db) (id : Nat) (terms : List Term) : Doc × Db :=
  let r := newRevision db
  (⟨terms, r.1⟩, replaceDoc r.2 id ⟨terms, r.1⟩)

/-- `notmuch_database_begin_atomic`, lib/database.cc:1110-1132. -/
def beginAtomic (db : Db) : Status × Db :=
  if db.writable = false ∨ db.nesting > 0 then (.success, { db with nesting := db.nesting + 1 })
  else if db.needsUpgrade then (.upgradeRequired, db)
  else (.success, { db with nesting := db.nesting + 1 })

/-- `notmuch_database_end_atomic`, lib/database.cc:1134-1179, when Xapian does not fail.  The
autocommit is a flush, which may happen at any moment outside transactions. -/
def endAtomic (db : Db) : Status × Db :=
  if db.nesting = 0 then (.unbalancedAtomic, db)
  else if db.writable = false ∨ db.nesting > 1 then (.success, { db with nesting := db.nesting - 1 })
  else if db.dirty then
    (.success, { db with revision := db.revision + 1, dirty := false, nesting := db.nesting - 1 })
  else (.success, { db with nesting := db.nesting - 1 })

/-- Xapian makes the current state durable; not while a transaction is open. -/
def flush (db : Db) : Db :=
  if db.nesting = 0 then { db with disk := db.view, diskBound := db.viewBound } else db

/-- Opening the database again (`_load_database_state`, lib/open.cc:406-435) after the
process died. -/
def reopen (db : Db) : Db :=
  { db with view := db.disk, viewBound := db.diskBound, revision := db.diskBound, nesting := 0, dirty := false }

/-- `notmuch_database_close`, lib/database.cc:504-529, and opening the database again: closing flushes
unless a transaction is open, in which case its changes are discarded. -/
def closeReopen (db : Db) : Db := reopen (flush db)

/-- What can happen to the database. -/
inductive Op
  | beginAtomic | endAtomic
  | write (id : Nat) (terms : List Term)
  | flush | crash | close

def step (db : Db) : Op → Db
  | .beginAtomic => (beginAtomic db).2
  | .endAtomic => (endAtomic db).2
  | .write id terms => if db.writable then (writeDoc db id terms).2 else db
  | .flush => flush db
  | .crash => reopen db
  | .close => closeReopen db

def run (db : Db) (ops : List Op) : Db := ops.foldl step db

/-! ## A message object -/

/-- The fields of `notmuch_message_t`, lib/message.cc:28-60. -/
structure Handle where
  docId : Nat
  doc : Doc
  frozen : Nat
  modified : Bool

/-- A message object and its database. -/
structure State where
  db : Db
  h : Handle

/-- `_notmuch_message_sync`, lib/message.cc:1349-1377. -/
def sync (s : State) : State :=
  if s.db.writable = false then s
  else if s.h.modified = false then s
  else
    let r := writeDoc s.db s.h.docId s.h.doc.terms
    { db := r.2, h := { s.h with doc := r.1, modified := false } }

/-- `if (! message->frozen) _notmuch_message_sync (message)`. -/
def syncUnlessFrozen (s : State) : State := if s.h.frozen = 0 then sync s else s

/-- Adding a term to the document, lib/message.cc:1507-1540. -/
def addTerm (s : State) (t : Term) : State :=
  { s with h := { s.h with doc := { s.h.doc with
      terms := if t ∈ s.h.doc.terms then s.h.doc.terms else s.h.doc.terms ++ [t] }, modified := true } }

/-- Removing a term: an absent term is not an error and does not mark the message modified,
lib/message.cc:1583-1616. -/
def removeTerm (s : State) (t : Term) : State :=
  if t ∈ s.h.doc.terms then
    { s with h := { s.h with doc := { s.h.doc with terms := s.h.doc.terms.filter (· ≠ t) }, modified := true } }
  else s

/-- Calls of the message API. -/
inductive Call
  | freeze | thaw | addTag (t : Str) | removeTag (t : Str) | removeAllTags
  | addProp (k v : Str) | removeProp (k v : Str)

/-- `NOTMUCH_TAG_MAX` (lib/notmuch.h:50) and `NOTMUCH_TERM_MAX` less the prefix `XPROPERTY`
(lib/notmuch-private.h:112). -/
def tagMax : Nat := 200
def propMax : Nat := 236

/-- The calls `notmuch_message_freeze`, `_thaw` (lib/message.cc:2144-2176), `_add_tag`,
`_remove_tag` (1648-1719), `_remove_all_tags` (2109-2142), `notmuch_message_add_property`,
`_remove_property` (lib/message-property.cc:77-130). -/
def call (s : State) : Call → Status × State
  | .freeze =>
    if s.db.writable = false then (.readOnly, s)
    else (.success, { s with h := { s.h with frozen := s.h.frozen + 1 } })
  | .thaw =>
    if s.db.writable = false then (.readOnly, s)
    else if s.h.frozen > 0 then
      (.success, syncUnlessFrozen { s with h := { s.h with frozen := s.h.frozen - 1 } })
    else (.unbalancedFreezeThaw, s)
  | .addTag t =>
    if s.db.writable = false then (.readOnly, s)
    else if t.length > tagMax then (.tagTooLong, s)
    else (.success, syncUnlessFrozen (addTerm s (.tag t)))
  | .removeTag t =>
    if s.db.writable = false then (.readOnly, s)
    else if t.length > tagMax then (.tagTooLong, s)
    else (.success, syncUnlessFrozen (removeTerm s (.tag t)))
  | .removeAllTags =>
    if s.db.writable = false then (.readOnly, s)
    else (.success, syncUnlessFrozen
      ((s.h.doc.terms.filter Term.isTag).foldl removeTerm s))
  | .addProp k v =>
    if s.db.writable = false then (.readOnly, s)
    else if 61 ∈ k then (.illegalArgument, s)
    else if k.length + 1 + v.length > propMax then (.termTooLong, s)
    else (.success, syncUnlessFrozen (addTerm s (.prop k v)))
  | .removeProp k v =>
    if s.db.writable = false then (.readOnly, s)
    else if 61 ∈ k then (.illegalArgument, s)
    else if k.length + 1 + v.length > propMax then (.termTooLong, s)
    else (.success, syncUnlessFrozen (removeTerm s (.prop k v)))

/-- A sequence of calls on the same message object. -/
def calls (s : State) (cs : List Call) : State := cs.foldl (fun s c => (call s c).2) s

/-- The part of `notmuch_message_tags_to_maildir_flags` after a successful `rename`,
lib/message.cc:2079-2097: the file terms of the document change (not modelled here) and the document
is synchronised, frozen or not. -/
def renameFile (s : State) : State := sync { s with h := { s.h with modified := true } }

end Notmuch.MessageSync
