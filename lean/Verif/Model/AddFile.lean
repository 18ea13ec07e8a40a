import Verif.Model.Reindex
import Verif.Model.MessageId
import Verif.Model.Threading
import Verif.Model.Open
import Verif.Model.StringUtil

/-!
# `notmuch_database_index_file` (lib/add-message.cc), the headers of a file (lib/message-file.c) and its hash (lib/sha1.c)

A database with the features of the current version.  GMime's parser, the decoding of headers and dates, the entry of a file (Model/Directory.lean), the order of GLib's
hash table and what the text of a mail adds (Model/Mime.lean) are parameters.  Xapian exceptions occur only where an atomic section begins or ends.  `none` is the end of
the process.
-/

namespace Notmuch.AddFile

open Notmuch.TermList
open Notmuch.Message (World Handle)
open Notmuch.StringUtil (strcaseEqual)

/-- `notmuch_status_t`, as far as it occurs here. -/
inductive Status
  | success | readOnly | xapianException | fileError | fileNotEmail | duplicateMessageId | pathError
  deriving DecidableEq

/-! ## A file -/

/-- What GMime's parser makes of a stream: the headers (name and raw value) in order, and whether it is at the end. -/
structure Parsed where
  headers : List (Str × Str)
  eos : Bool

/-- What `fread` gives: some bytes, or none at the end of the file, or none for an error, or none for neither. -/
inductive Read
  | data (b : Str)
  | eof
  | error
  | nothing

/-- A file that can be opened: its first bytes, what the parser makes of it with and without looking for `From ` lines, and what opening it again and reading it gives (lib/sha1.c). -/
structure File where
  start : Str
  gmime : Bool → Option Parsed
  again : Option (List Read)

/-- `struct _notmuch_message_file`, lib/message-file.c:29-41: `parsed` is `message`, `cache` the hash table `headers`. -/
structure MsgFile where
  file : File
  parsed : Option Parsed
  cache : List (Str × Str)

/-- `_notmuch_message_file_open`, lib/message-file.c:58-109. -/
def opened (f : File) : MsgFile := ⟨f, none, []⟩

/-- `_is_mbox`, lib/message-file.c:122-136. -/
def isMbox (f : File) : Bool := f.start.take 5 == bs "From "

/-- `_notmuch_message_file_parse`, lib/message-file.c:138-188. -/
def parse (m : MsgFile) : Status × MsgFile :=
  match m.parsed with
  | some _ => (.success, m)
  | none =>
    match m.file.gmime (isMbox m.file) with
    | none => (.fileNotEmail, m)
    | some p => if isMbox m.file && !p.eos then (.fileNotEmail, m) else (.success, { m with parsed := some p, cache := [] })

/-- `_extend_header`, lib/message-file.c:213-242; `decode` is `g_mime_utils_header_decode_text`. -/
def extendHeader (decode : Str → Option Str) (combined : Option Str) (value : Str) : Option Str :=
  match decode value with
  | none => none
  | some d => match combined with
    | some c => some (c ++ bs " " ++ d)
    | none => some d

/-- `_notmuch_message_file_get_combined_header`, lib/message-file.c:244-275. -/
def combinedHeader (decode : Str → Option Str) (p : Parsed) (name : Str) : Str :=
  (p.headers.foldl (fun c h => if strcaseEqual h.1 name then extendHeader decode c h.2 else c) none).getD []

/-- The value that is not in the cache, lib/message-file.c:291-316; `g_mime_object_get_header` gives the first header of the name. -/
def freshHeader (decode : Str → Option Str) (p : Parsed) (name : Str) : Option Str :=
  if strcaseEqual name (bs "received") || strcaseEqual name (bs "delivered-to") then some (combinedHeader decode p name)
  else match p.headers.find? (fun h => strcaseEqual h.1 name) with
    | some h => decode h.2
    | none => some []

/-- `_notmuch_message_file_get_header`, lib/message-file.c:277-323; `none` is NULL. -/
def getHeader (decode : Str → Option Str) (name : Str) (m : MsgFile) : Option Str × MsgFile :=
  match parse m with
  | (.success, m) =>
    match m.cache.find? (fun e => strcaseEqual e.1 name) with
    | some e => (some e.2, m)
    | none =>
      match m.parsed with
      | none => (none, m)
      | some p =>
        match freshHeader decode p name with
        | none => (none, m)
        | some v => (some v, { m with cache := (name, v) :: m.cache })
  | (_, m) => (none, m)

/-- The loop of `_notmuch_sha1_of_file`, lib/sha1.c:71-83: the bytes that are hashed; the list ends where the file does. -/
def readAll : List Read → Option Str
  | [] => some []
  | .data b :: rs => if b.isEmpty then readAll rs else (readAll rs).map (b ++ ·)
  | .eof :: _ => some []
  | .error :: _ => none
  | .nothing :: rs => readAll rs

/-- `_notmuch_sha1_of_file`, lib/sha1.c:54-94; `digest` is the hash of GLib. -/
def sha1OfFile (digest : Str → Str) (f : File) : Option Str := (f.again.bind readAll).map digest

/-- `_notmuch_sha1_of_string`, lib/sha1.c:31-43: with the NUL at the end. -/
def sha1OfString (digest : Str → Str) (s : Str) : Str := digest (s ++ [0])

/-- What `_notmuch_message_file_get_headers` gives. -/
structure Headers where
  from_ : Option Str
  subject : Option Str
  to : Option Str
  date : Option Str
  id : Str

/-- `from == NULL || *from == '\0'`. -/
def noText (v : Option Str) : Bool := v.getD [] == []

/-- `_notmuch_message_file_get_headers`, lib/message-file.c:325-402. -/
def getHeaders (decode : Str → Option Str) (digest : Str → Str) (m : MsgFile) : Option (Status × Option Headers × MsgFile) :=
  match parse m with
  | (.success, m) =>
    let (f, m) := getHeader decode (bs "from") m
    let (s, m) := getHeader decode (bs "subject") m
    let (t, m) := getHeader decode (bs "to") m
    let (d, m) := getHeader decode (bs "date") m
    if noText f && noText s && noText t then some (.fileNotEmail, none, m)
    else
      let (h, m) := getHeader decode (bs "message-id") m
      match MessageId.messageId h (sha1OfFile digest m.file) with
      | none => none
      | some none => some (.fileError, none, m)
      | some (some id) => some (.success, some ⟨f, s, t, d, id⟩, m)
  | (st, m) => some (st, none, m)

/-! ## The database -/

/-- The values of a document that come from the headers. -/
structure Values where
  time : Int
  from_ : Str
  subject : Str
  deriving DecidableEq

/-- A document of a message. -/
structure Doc where
  docId : Nat
  terms : List Str
  values : Option Values
  deriving DecidableEq

/-- The database; the documents are in the order of their numbers. -/
structure Db where
  docs : List Doc
  lastThread : Nat
  lastDoc : Nat
  deriving DecidableEq

/-- What the function needs; `date` is `g_mime_utils_header_decode_date_unix`, `keys` is `g_hash_table_get_keys` of a table with these strings, `entry` is
`_notmuch_database_filename_to_direntry`, `index` and `indexStatus` are what `_notmuch_message_index_file` adds, and `begin`, `ending` are the statuses of the atomic section. -/
structure Env where
  W : World
  writable : Bool
  open_ : Str → Option File
  decode : Str → Option Str
  digest : Str → Str
  date : Str → Int
  keys : List Str → List Str
  entry : Str → Option Str
  index : Str → List Reindex.Add
  indexStatus : Str → Status
  begin : Status
  ending : Status

/-- `_notmuch_database_generate_doc_id`, lib/database.cc. -/
def genDoc (db : Db) : Nat × Db := (db.lastDoc + 1, { db with lastDoc := db.lastDoc + 1 })

/-- `_notmuch_database_generate_thread_id`, lib/add-message.cc:39-50 (the overflow of the number is not modelled here, see C48). -/
def genThread (db : Db) : Str × Db := (Open.hex16 (db.lastThread + 1), { db with lastThread := db.lastThread + 1 })

/-- `replace_document`. -/
def putDoc (db : Db) (d : Doc) : Db :=
  if d.docId ∈ db.docs.map (·.docId) then { db with docs := db.docs.map (fun e => if e.docId = d.docId then d else e) }
  else { db with docs := db.docs ++ [d] }

/-- `notmuch_database_find_message`, lib/database.cc:434-471. -/
def findId (E : Env) (db : Db) (id : Str) : Option Doc :=
  db.docs.find? (fun d => decide (bs "Q" ++ Threading.normId (sha1OfString E.digest) id ∈ d.terms))

/-- A message object for terms.  `stored` is empty as long as the object was not written. -/
def object (terms : List Str) : Handle := { Message.create true 0 terms [] with stored := [] }

/-- `_notmuch_message_sync`, lib/message.cc:1349-1377: the object was written if `stored` is not empty. -/
def written (db : Db) (docId : Nat) (values : Option Values) (h : Handle) : Db := if h.stored = [] then db else putDoc db ⟨docId, h.stored, values⟩

/-- The thread id of an object, read from its terms (lib/message.cc:592-606; the object remembers what it read, which makes no difference, see C62). -/
def threadOf (terms : List Str) : Option Str := (getTerm (bs "G") terms).1

/-- `_notmuch_message_initialize_ghost`, lib/message.cc:1472-1486, of a blank message. -/
def ghostObject (id thread : Str) : Option Handle :=
  (Message.addTermTo (bs "type") (bs "ghost") (object [bs "Q" ++ id])).bind (Message.addTermTo (bs "thread") thread)

/-- `_resolve_message_id_to_thread_id`, lib/add-message.cc:80-124. -/
def resolve (E : Env) (db : Db) (ref : Str) : Option (Str × Db) :=
  match findId E db ref with
  | some d => (threadOf d.terms).map (fun t => (t, db))
  | none =>
    let (docId, db) := genDoc db
    let (t, db) := genThread db
    (ghostObject (Threading.normId (sha1OfString E.digest) ref) t).map (fun h => (t, written db docId none (Message.sync h)))

/-- One message of `_merge_threads`, lib/add-message.cc:187-195. -/
def mergeOne (winner loser : Str) (d : Doc) : Doc :=
  let h := object d.terms
  let h := (Message.removeTermFrom (bs "thread") loser h).getD h
  let h := (Message.addTermTo (bs "thread") winner h).getD h
  let h := Message.sync h
  { d with terms := if h.stored = [] then d.terms else h.stored }

/-- `_merge_threads`, lib/add-message.cc:171-206: the messages with the term of the loser. -/
def merge (db : Db) (winner loser : Str) : Db :=
  { db with docs := db.docs.map (fun d => if bs "G" ++ loser ∈ d.terms then mergeOne winner loser d else d) }

/-- The variables of the loop over the parents. -/
structure Link where
  db : Db
  h : Handle
  thread : Option Str

/-- One round, lib/add-message.cc:266-291; the statuses of adding terms are ignored. -/
def linkParent (E : Env) (s : Link) (ref : Str) : Option Link :=
  let h := (Message.addTermTo (bs "reference") ref s.h).getD s.h
  match resolve E s.db ref with
  | none => none
  | some (pt, db) =>
    match s.thread with
    | none => some ⟨db, (Message.addTermTo (bs "thread") pt h).getD h, some pt⟩
    | some t => if t = pt then some ⟨db, h, some t⟩ else some ⟨merge db t pt, h, some t⟩

/-- The loop. -/
def linkParents (E : Env) : List Str → Link → Option Link
  | [], s => some s
  | r :: rs, s => (linkParent E s r).bind (linkParents E rs)

/-- `_notmuch_database_link_message_to_parents`, lib/add-message.cc:215-302: the `replyto` term and the parents. -/
def linkToParents (E : Env) (refs inReplyTo : Option Str) (s : Link) : Option Link :=
  match (getTerm (bs "Q") s.h.terms).1 with
  | none => none
  | some this =>
    match MessageId.parents this refs inReplyTo with
    | none => none
    | some (parents, reply) =>
      let h := match reply with
        | some r => (Message.addTermTo (bs "replyto") r s.h).getD s.h
        | none => s.h
      linkParents E (E.keys parents) { s with h := h }

/-- The end of `_notmuch_database_link_message`, lib/add-message.cc:449-454. -/
def finishThread (s : Link) : Link :=
  match s.thread with
  | some _ => s
  | none =>
    let (t, db) := genThread s.db
    ⟨db, (Message.addTermTo (bs "thread") t s.h).getD s.h, some t⟩

/-- `_notmuch_message_set_header_values`, lib/message.cc:1302-1330: a NULL pointer instead of a string ends the process. -/
def headerValues (E : Env) (hs : Headers) : Option Values :=
  match hs.from_, hs.subject with
  | some f, some s => some ⟨if noText hs.date then 0 else (if E.date (hs.date.getD []) < 0 then 0 else E.date (hs.date.getD [])), f, s⟩
  | _, _ => none

/-- After linking, lib/add-message.cc:543-560. -/
def indexAndWrite (E : Env) (name : Str) (docId : Nat) (values : Option Values) (dup : Bool) (s : Link) : Option (Db × Status × Option Nat) :=
  match Reindex.addAll (E.index name) { s.h with modified := s.h.modified || !dup } with
  | none => none
  | some h =>
    if E.indexStatus name ≠ .success then some (written s.db docId values h, E.indexStatus name, none)
    else some (written s.db docId values (Message.sync h), if dup then .duplicateMessageId else .success, some docId)

/-- Linking and what follows, lib/add-message.cc:531-560; `thread` is the thread of the message if it was there, and `new` whether there was no message (perhaps a ghost). -/
def linkAndIndex (E : Env) (name : Str) (docId : Nat) (old : Option Values) (new : Bool) (thread : Option Str) (hs : Headers) (m : MsgFile) (db : Db) (h : Handle) :
    Option (Db × Status × Option Nat) :=
  let (refs, m) := getHeader E.decode (bs "references") m
  let (reply, _) := getHeader E.decode (bs "in-reply-to") m
  match (linkToParents E refs reply ⟨db, h, thread⟩).map finishThread with
  | none => none
  | some s =>
    if new then (headerValues E hs).bind (fun v => indexAndWrite E name docId (some v) false s)
    else indexAndWrite E name docId old true s

/-- The name of the file, and the type, lib/add-message.cc:516-529. -/
def addName (E : Env) (name : Str) (new ghost : Bool) (h : Handle) : Option (Handle × Status) :=
  match E.entry name with
  | none => some (h, .pathError)
  | some e =>
    match Message.addFilename E.W e h with
    | none => none
    | some (h, false) => some (h, .pathError)
    | some (h, true) =>
      if new then
        match Message.addTermTo (bs "type") (bs "mail") h with
        | none => none
        | some h => if ghost then (Message.removeTermFrom (bs "type") (bs "ghost") h).map (fun h => (h, .success)) else some (h, .success)
      else some (h, .success)

/-- Within the atomic section, lib/add-message.cc:486-560: the database, the status and the message. -/
def inside (E : Env) (db : Db) (name : Str) (f : File) : Option (Db × Status × Option Nat) :=
  match getHeaders E.decode E.digest (opened f) with
  | none => none
  | some (st, none, _) => some (db, st, none)
  | some (_, some hs, m) =>
    match findId E db hs.id with
    | none =>
      let (docId, db) := genDoc db
      match addName E name true false (object [bs "Q" ++ Threading.normId (sha1OfString E.digest) hs.id]) with
      | none => none
      | some (h, .success) => linkAndIndex E name docId none true none hs m db h
      | some (_, st) => some (db, st, none)
    | some d =>
      match readGhost d.terms with
      | none => none
      | some ghost =>
        match addName E name ghost ghost (object d.terms) with
        | none => none
        | some (h, .success) =>
          match threadOf h.terms with
          | none => none
          | some t => linkAndIndex E name d.docId d.values ghost (some t) hs m db h
        | some (_, st) => some (db, st, none)

/-- Has the message been given to the caller, lib/add-message.cc:573-579?  The status is that before the end of the atomic section. -/
def endStatus (E : Env) (st : Status) : Status :=
  if (st = .success ∨ st = .duplicateMessageId) ∧ E.ending ≠ .success then E.ending else st

/-- `notmuch_database_index_file`, lib/add-message.cc:463-593: the database, the status and the message (`*message_ret`). -/
def indexFile (E : Env) (db : Db) (name : Str) : Option (Db × Status × Option Nat) :=
  if E.writable = false then some (db, .readOnly, none)
  else match E.open_ name with
    | none => some (db, .fileError, none)
    | some f =>
      if E.begin ≠ .success then some (db, E.begin, none)
      else (inside E db name f).map (fun r => (r.1, endStatus E r.2.1, r.2.2))

end Notmuch.AddFile
