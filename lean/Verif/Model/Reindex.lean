import Verif.Model.Message

/-!
# `notmuch_message_reindex` (lib/message.cc) and `notmuch reindex` (notmuch-reindex.c)

The object is that of Model/Message.lean.  What the headers, the links and the index of a file give is a parameter (`Mail`); the text of a mail and how words are found in it are
in other models.
-/

namespace Notmuch.Reindex

open Notmuch.TermList
open Notmuch.Message (World Handle)

/-- `notmuch_status_t`, as far as it occurs here. -/
inductive Status
  | success | readOnly | fileError | fileNotEmail | xapianException
  deriving DecidableEq

/-- What indexing a file adds: a term by `_notmuch_message_add_term` (lib/message.cc:1507-1540; the callers in lib/index.cc ignore its status), a word by
`_notmuch_message_gen_terms` (lib/message.cc:1541-1572), or a property by `notmuch_message_add_property` (lib/index.cc:427, 477, 609-646). -/
inductive Add
  | term (name value : Str)
  | text (word : Str)
  | prop (key value : Str)

/-- One of them.  `_notmuch_message_gen_terms` does not mark the message as modified. -/
def addOne (a : Add) (h : Handle) : Option Handle :=
  match a with
  | .term n v => some ((Message.addTermTo n v h).getD h)
  | .text w => some { h with terms := addTerm w h.terms }
  | .prop k v => (Message.modifyProperty k v false h).map (·.1)

/-- Several. -/
def addAll : List Add → Handle → Option Handle
  | [], h => some h
  | a :: as, h => (addOne a h).bind (addAll as)

/-- A file that can be opened: the status of `_notmuch_message_file_get_headers` (lib/message-file.c:325-395), its entry, what
`_notmuch_database_link_message_to_parents` (lib/add-message.cc:217-298) adds, its status and the thread it finds, and what `_notmuch_message_index_file` (lib/index.cc:727-768)
adds and its status. -/
structure Mail where
  headers : Status
  entry : Str
  links : List (Str × Str)
  linkStatus : Status
  thread : Option Str
  index : List Add
  indexStatus : Status

/-- The variables of the loop; `values` is the name of the file whose headers are the values of the document (`none`: as before). -/
structure St where
  h : Handle
  values : Option Str
  found : Nat
  ret : Status

/-- `_notmuch_message_remove_indexed_terms`, lib/message.cc:728-785. -/
def removeIndexed (W : World) (h : Handle) : Option Handle :=
  match Message.ensure W false h with
  | none => none
  | some h =>
    match h.md.messageId with
    | none => none
    | some id =>
      match Message.getTags W { h with terms := addTerm (bs "Q" ++ id) (addTerm (bs "Tmail") []), modified := true } with
      | none => none
      | some (h, tags) =>
        match Message.getProperties W [] false
            { h with terms := (tags.filter (fun t => t ≠ bs "encrypted" ∧ t ≠ bs "signed" ∧ t ≠ bs "attachment")).foldl (fun ts t => addTerm (bs "K" ++ t) ts) h.terms } with
        | none => none
        | some (h, ps) => some { h with terms := ps.foldl (fun ts p => addTerm (bs "XPROPERTY" ++ p.1 ++ bs "=" ++ p.2) ts) h.terms }

/-- `_notmuch_database_link_message_to_parents`, lib/add-message.cc:217-298, as far as this message is concerned. -/
def link (m : Mail) (h : Handle) : Handle :=
  let h := m.links.foldl (fun h l => (Message.addTermTo l.1 l.2 h).getD h) h
  match m.thread with
  | none => h
  | some t => (Message.addTermTo (bs "thread") t h).getD h

/-- One file that was opened, lib/message.cc:2296-2333, and whether the loop goes on.  The status of adding the name is ignored; a thread that is too long ends the process. -/
def file (W : World) (orig name : Str) (m : Mail) (s : St) : Option (St × Bool) :=
  if m.headers ≠ .success then some ({ s with ret := m.headers }, false)
  else match Message.addFilename W m.entry s.h with
    | none => none
    | some (h, _) =>
      if m.linkStatus ≠ .success then some ({ s with h := link m h, ret := m.linkStatus }, false)
      else match Message.addTermTo (bs "thread") (m.thread.getD orig) (link m h) with
        | none => none
        | some h =>
          match addAll m.index (if s.found = 0 then { h with modified := true } else h) with
          | none => none
          | some h =>
            let values := if s.found = 0 then some name else s.values
            if m.indexStatus = .fileError then some (⟨h, values, s.found, .fileError⟩, true)
            else if m.indexStatus ≠ .success then some (⟨h, values, s.found, m.indexStatus⟩, false)
            else some (⟨h, values, s.found + 1, .success⟩, true)

/-- The loop, lib/message.cc:2284-2334; a file that cannot be opened is left out. -/
def loop (W : World) (files : Str → Option Mail) (orig : Str) : List Str → St → Option (St × Bool)
  | [], s => some (s, true)
  | f :: fs, s =>
    match files f with
    | none => loop W files orig fs s
    | some m => match file W orig f m s with
      | none => none
      | some (s, true) => loop W files orig fs s
      | some (s, false) => some (s, false)

/-- What `notmuch_message_reindex` does: the object, the file of the values, whether the message is deleted (Model/Threading.lean), and the status. -/
structure Done where
  h : Handle
  values : Option Str
  deleted : Bool
  ret : Status

/-- The status of the properties. -/
def propStatus : Message.Status → Status
  | .success => .success
  | .readOnly => .readOnly
  | _ => .xapianException

/-- After the loop, lib/message.cc:2335-2350. -/
def finish (orig : Str) : Option (St × Bool) → Option Done
  | none => none
  | some (s, false) => some ⟨s.h, s.values, false, s.ret⟩
  | some (s, true) =>
    if s.found = 0 then (Message.addTermTo (bs "thread") orig s.h).map (fun h => ⟨h, s.values, true, .success⟩)
    else some ⟨Message.sync s.h, s.values, false, s.ret⟩

/-- After the terms were removed, lib/message.cc:2276-2350; `noDecrypt`: the policy is `NOTMUCH_DECRYPT_FALSE`. -/
def rebuild (W : World) (files : Str → Option Mail) (noDecrypt : Bool) (orig : Str) (names : List Str) (h : Handle) : Option Done :=
  match Message.removeAllProperties (some (bs "index.")) true h with
  | none => none
  | some (h, s) =>
    if s ≠ .success then some ⟨h, none, false, propStatus s⟩
    else match (if noDecrypt then Message.removeAllProperties (some (bs "session-key")) false h else some (h, .success)) with
      | none => none
      | some (h, s) =>
        if s ≠ .success then some ⟨h, none, false, propStatus s⟩
        else finish orig (loop W files orig names ⟨h, none, 0, .success⟩)

/-- `notmuch_message_reindex`, lib/message.cc:2235-2358.  NULL instead of the list of the files is a list without files (lib/filenames.c:40-47). -/
def reindex (W : World) (files : Str → Option Mail) (noDecrypt : Bool) (h : Handle) : Option Done :=
  match Message.getThreadId W h with
  | some (h, .text orig) =>
    if h.writable = false then some ⟨h, none, false, .readOnly⟩
    else match Message.getFilenames W h with
      | none => none
      | some (h, l) => match removeIndexed W h with
        | none => none
        | some h => rebuild W files noDecrypt orig (l.getD []) h
  | _ => none

/-! ## The command -/

/-- The loop of `reindex_query`, notmuch-reindex.c:65-75: `step i` is `notmuch_message_reindex` of the `i`th message on the database, and whether it succeeds;
`interrupted i`: whether there was a SIGINT before the `i`th message.  The database, whether all succeeded, and whether it was interrupted. -/
def cmdLoop {D : Type} (step : Nat → D → D × Bool) (interrupted : Nat → Bool) (ok : Bool) : Nat → Nat → D → D × Bool
  | _, 0, d => (d, ok)
  | i, n + 1, d =>
    if interrupted i then (d, ok)
    else if (step i d).2 then cmdLoop step interrupted true (i + 1) n (step i d).1
    else ((step i d).1, false)

/-- `reindex_query`, notmuch-reindex.c:42-82, and closing the database (lib/database.cc:514-517: an atomic section that is not ended is discarded): what is in the database after it, and
whether the exit status is 0.  `begin`: whether `notmuch_database_begin_atomic` succeeded (its status is forgotten if there is a message); if not, there is no atomic
section, and ending it fails.  `stop`: whether there was a SIGINT at all. -/
def reindexQuery {D : Type} (step : Nat → D → D × Bool) (interrupted : Nat → Bool) (begin ending stop : Bool) (n : Nat) (d : D) : D × Bool :=
  let r := cmdLoop step interrupted begin 0 n d
  if r.2 then
    if begin then (if ending then r.1 else d, ending && !stop)
    else (r.1, false)
  else (if begin then d else r.1, false)

end Notmuch.Reindex
