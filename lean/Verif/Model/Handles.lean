import Verif.Base.Bytes

/-!
# Several programs with one database: lib/open.cc, lib/database.cc, lib/config.cc

Each program has one handle.  Xapian is modelled by its documentation: one `WritableDatabase` at a time has the lock; it sees its changes at once, others see them when they are
flushed, which can happen at any moment outside a transaction, and all of them are; a `Database` keeps to what was flushed when it was opened.  After `close`, an object throws
whatever it is used for.  Simplified: the database has all features; of the documents there is a body and the revision; the configuration is that in the database.
-/

namespace Notmuch.Handles

/-- A message's document. -/
structure Doc where
  body : Str
  lastMod : Nat
  deriving DecidableEq

/-- The content: documents, Xapian's upper bound of the revisions, and the metadata with the prefix C (empty if not there). -/
structure Content where
  docs : Nat → Option Doc
  bound : Nat
  conf : Str → Str

/-- `xapian_db`: `NULL`, after `close`, a `Database`, a `WritableDatabase` with an open transaction or without. -/
inductive Xdb where
  | null
  | closed
  | reader (snap : Content)
  | writer (view : Content) (trans : Bool)

/-- `notmuch_database_mode_t`. -/
inductive Mode | readOnly | readWrite
  deriving DecidableEq

/-- `notmuch_database_t`, lib/database-private.h:213-302; `writable` is whether `writable_xapian_db` is not `NULL`; `waits` if it is in `notmuch_database_reopen`, where the old
object is gone and the new one not yet there. -/
structure Handle where
  writable : Bool
  isOpen : Bool
  xdb : Xdb
  nesting : Nat
  dirty : Bool
  revision : Nat
  views : Nat
  conf : Str → Str
  waits : Option Mode

/-- What is on the disk, who has the lock, and the handles of the programs. -/
structure World where
  disk : Content
  lock : Option Nat
  handles : Nat → Option Handle

inductive Status
  | success | readOnly | closed | exception | unbalanced | illegal
  deriving DecidableEq

/-- What a program sees of a call: it may have to wait, or die (an exception that is not caught, or a `NULL` pointer). -/
inductive Out where
  | status (s : Status)
  | revision (n : Nat)
  | doc (d : Option Doc)
  | value (v : Str)
  | blocked
  | dies
  deriving DecidableEq

inductive Call where
  | open_ (m : Mode)
  | close
  | destroy
  | reopen (m : Mode)
  /-- the new object is made, if there is nothing to wait for -/
  | resume
  | beginAtomic
  | endAtomic
  | getRevision
  | put (id : Nat) (body : Str)
  | remove (id : Nat)
  | setConfig (k v : Str)
  | getConfig (k : Str)
  | find (id : Nat)
  /-- not a call: Xapian writes to the disk -/
  | flush
  /-- not a call: the process dies -/
  | die

/-- One handle changes. -/
def World.set (w : World) (p : Nat) (h : Option Handle) : World := { w with handles := fun i => if i = p then h else w.handles i }

/-- The lock of a handle that goes. -/
def World.unlock (w : World) (p : Nat) : World := { w with lock := if w.lock = some p then none else w.lock }

/-- The process is gone, with what was not flushed. -/
def World.gone (w : World) (p : Nat) : World := (w.set p none).unlock p

/-- Xapian's `close`: it flushes, but not in a transaction, of which nothing remains.  If it fails (`fault`), what is not flushed is lost. -/
def World.xclose (w : World) (p : Nat) (x : Xdb) (fault : Bool) : World :=
  match x with
  | .writer v false => { w.unlock p with disk := if fault then w.disk else v }
  | _ => w.unlock p

/-- `_load_database_state`, lib/open.cc:406-435. -/
def Handle.load (h : Handle) (c : Content) : Handle := { h with revision := c.bound }

/-- A new Xapian object, lib/open.cc:501-507, 862-872. -/
def newXdb (m : Mode) (c : Content) : Xdb :=
  match m with
  | .readOnly => .reader c
  | .readWrite => .writer c false

/-- `_notmuch_database_ensure_writable`, lib/database.cc:471-485. -/
def ensureWritable (h : Handle) : Status :=
  if h.writable = false then .readOnly
  else if h.isOpen = false then .closed
  else .success

/-- `_notmuch_database_new_revision`, lib/database.cc:487-502. -/
def newRevision (h : Handle) : Nat × Handle :=
  if h.nesting ≠ 0 then (h.revision + 1, { h with dirty := true }) else (h.revision + 1, { h with revision := h.revision + 1 })

/-- `replace_document`. -/
def Content.put (c : Content) (id : Nat) (d : Doc) : Content := { c with docs := fun i => if i = id then some d else c.docs i, bound := max c.bound d.lastMod }

/-- `delete_document`. -/
def Content.remove (c : Content) (id : Nat) : Content := { c with docs := fun i => if i = id then none else c.docs i }

/-- `set_metadata`. -/
def Content.setConf (c : Content) (k v : Str) : Content := { c with conf := fun i => if i = k then v else c.conf i }

/-- `notmuch_database_open`, lib/open.cc:485-617, 690-740: it waits for the lock. -/
def openCall (w : World) (p : Nat) (m : Mode) (fault : Bool) : World × Out :=
  if (w.handles p).isSome then (w, .blocked)
  else if m = .readWrite ∧ w.lock.isSome then (w, .blocked)
  else if fault then (w, .status .exception)
  else
    ({ w.set p (some ⟨m == .readWrite, true, newXdb m w.disk, 0, false, w.disk.bound, 1, w.disk.conf, none⟩) with lock := if m = .readWrite then some p else w.lock },
      .status .success)

/-- `notmuch_database_close`, lib/database.cc:504-529. -/
def closeCall (w : World) (p : Nat) (h : Handle) (fault : Bool) : World × Out :=
  if h.isOpen then
    match h.xdb with
    | .null => (w.gone p, .dies)
    | x => ((w.xclose p x fault).set p (some { h with isOpen := false, xdb := .closed }), .status (if fault then .exception else .success))
  else (w.set p (some { h with isOpen := false }), .status .success)

/-- `notmuch_database_destroy`, lib/database.cc:735-769. -/
def destroyCall (w : World) (p : Nat) (h : Handle) (fault : Bool) : World × Out :=
  ((closeCall w p h fault).1.gone p, (closeCall w p h fault).2)

/-- `notmuch_database_reopen`, lib/open.cc:841-887, up to the new object. -/
def reopenCall (w : World) (p : Nat) (h : Handle) (m : Mode) (fault : Bool) : World × Out :=
  match h.xdb with
  | .null => (w, .status .illegal)
  | x =>
    if h.writable = false ∧ m = .readOnly then
      match x with
      | .reader _ =>
        if fault then (w, .status .exception)
        else (w.set p (some { h.load w.disk with xdb := .reader w.disk, views := h.views + 1, isOpen := true }), .status .success)
      | _ => (w, .status .exception)
    else if fault then ((w.xclose p x true).set p (some { h with xdb := .closed }), .status .exception)
    else ((w.xclose p x false).set p (some { h with xdb := .null, writable := false, waits := some m }), .blocked)

/-- `notmuch_database_reopen`, lib/open.cc:864-886, the new object. -/
def resumeCall (w : World) (p : Nat) (h : Handle) (fault : Bool) : World × Out :=
  match h.waits with
  | none => (w, .blocked)
  | some m =>
    if m = .readWrite ∧ w.lock.isSome then (w, .blocked)
    else if fault then (w.set p (some { h with waits := none }), .status .exception)
    else
      ({ w.set p (some { h.load w.disk with xdb := newXdb m w.disk, writable := m == .readWrite, views := h.views + 1, isOpen := true, waits := none }) with
          lock := if m = .readWrite then some p else w.lock }, .status .success)

/-- `notmuch_database_begin_atomic`, lib/database.cc:1110-1132. -/
def beginCall (w : World) (p : Nat) (h : Handle) : World × Out :=
  if h.writable = false ∨ h.nesting > 0 then (w.set p (some { h with nesting := h.nesting + 1 }), .status .success)
  else
    match h.xdb with
    | .writer v false => (w.set p (some { h with xdb := .writer v true, nesting := h.nesting + 1 }), .status .success)
    | _ => (w, .status .exception)

/-- `notmuch_database_end_atomic`, lib/database.cc:1134-1179.  With `database.autocommit` it also flushes, which is a moment for `flush`; if that fails (`fault`), the transaction is
over and its changes are lost. -/
def endCall (w : World) (p : Nat) (h : Handle) (fault : Bool) : World × Out :=
  if h.nesting = 0 then (w, .status .unbalanced)
  else if h.writable = false ∨ h.nesting > 1 then (w.set p (some { h with nesting := h.nesting - 1 }), .status .success)
  else
    match h.xdb with
    | .writer v true =>
      if fault then (w.set p (some { h with xdb := .writer w.disk false }), .status .exception)
      else
        (w.set p (some { h with xdb := .writer v false, revision := if h.dirty then h.revision + 1 else h.revision, dirty := false, nesting := h.nesting - 1 }), .status .success)
    | _ => (w, .status .exception)

/-- A change of a message: the check that each of these functions makes (lib/message.cc:1392, 1659, 1694, 2117), and `_notmuch_message_sync`, lib/message.cc:1349-1377, which does
not catch exceptions. -/
def putCall (w : World) (p : Nat) (h : Handle) (id : Nat) (body : Str) (fault : Bool) : World × Out :=
  if ensureWritable h ≠ .success then (w, .status (ensureWritable h))
  else
    match h.xdb with
    | .writer v t =>
      if fault then (w.gone p, .dies)
      else (w.set p (some { (newRevision h).2 with xdb := .writer (v.put id ⟨body, (newRevision h).1⟩) t }), .status .success)
    | _ => (w.gone p, .dies)

/-- The removal of a message, lib/message.cc:1382-1428. -/
def removeCall (w : World) (p : Nat) (h : Handle) (id : Nat) (fault : Bool) : World × Out :=
  if ensureWritable h ≠ .success then (w, .status (ensureWritable h))
  else
    match h.xdb with
    | .writer v t => if fault then (w.gone p, .dies) else (w.set p (some { h with xdb := .writer (v.remove id) t }), .status .success)
    | _ => (w.gone p, .dies)

/-- `notmuch_database_set_config`, lib/config.cc:59-91. -/
def setConfigCall (w : World) (p : Nat) (h : Handle) (k v : Str) (fault : Bool) : World × Out :=
  if ensureWritable h ≠ .success then (w, .status (ensureWritable h))
  else
    match h.xdb with
    | .writer c t =>
      if fault then (w, .status .exception)
      else (w.set p (some { h with xdb := .writer (c.setConf k v) t, conf := fun i => if i = k then v else h.conf i }), .status .success)
    | _ => (w, .status .exception)

/-- `notmuch_database_find_message`, lib/database.cc:433-469, and what is read from the document. -/
def findCall (w : World) (p : Nat) (h : Handle) (id : Nat) (fault : Bool) : World × Out :=
  match h.xdb with
  | .null => (w.gone p, .dies)
  | .closed => (w, .status .exception)
  | .reader c => (w, if fault then .status .exception else .doc (c.docs id))
  | .writer c _ => (w, if fault then .status .exception else .doc (c.docs id))

/-- A flush outside a transaction. -/
def flushCall (w : World) (p : Nat) (h : Handle) : World × Out :=
  match h.xdb with
  | .writer v false => ({ w with disk := v }, .blocked)
  | _ => (w, .blocked)

/-- What the program `p` does next; `fault`: Xapian throws (not for what needs no access to the disk). -/
def step (w : World) (p : Nat) (c : Call) (fault : Bool) : World × Out :=
  match c with
  | .open_ m => openCall w p m fault
  | c =>
    match w.handles p with
    | none => (w, .blocked)
    | some h =>
      match h.waits, c with
      | _, .resume => resumeCall w p h fault
      | _, .die => (w.gone p, .dies)
      | some _, _ => (w, .blocked)
      | none, .close => closeCall w p h fault
      | none, .destroy => destroyCall w p h fault
      | none, .reopen m => reopenCall w p h m fault
      | none, .beginAtomic => beginCall w p h
      | none, .endAtomic => endCall w p h fault
      /- `notmuch_database_get_revision`, lib/database.cc:1181-1188 -/
      | none, .getRevision => (w, .revision h.revision)
      | none, .put id b => putCall w p h id b fault
      | none, .remove id => removeCall w p h id fault
      | none, .setConfig k v => setConfigCall w p h k v fault
      /- `notmuch_database_get_config`, lib/config.cc:110-137 -/
      | none, .getConfig k => (w, .value (h.conf k))
      | none, .find id => findCall w p h id fault
      | none, .flush => flushCall w p h
      | none, .open_ _ => (w, .blocked)

/-- What one of the programs does. -/
structure Event where
  who : Nat
  call : Call
  fault : Bool

/-- A schedule. -/
def run (w : World) : List Event → World
  | [] => w
  | e :: es => run (step w e.who e.call e.fault).1 es

/-- Before any program runs. -/
def World.idle (c : Content) : World := ⟨c, none, fun _ => none⟩

end Notmuch.Handles
