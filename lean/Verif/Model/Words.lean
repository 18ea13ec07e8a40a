import Verif.Model.TermList
import Verif.Model.Mime

/-!
# The words of a message: lib/index.cc, lib/message.cc and lib/prefix.cc

Xapian's `TermGenerator` is a parameter: how it cuts a text into words, and the stem of a word.  The two maps of the user's headers are lists in the order in which the iterators of C22 give them.
What indexing the parts of a message gives is the log of `Verif.Model.Mime` (C43).  Xapian's errors are not modelled.
-/

namespace Notmuch.Words

open Notmuch.TermList (findPrefix userPrefix)
open Notmuch.Mime (Eff)

/-- Xapian's `TermGenerator`. -/
structure Gen where
  words : Str → List Str
  stem : Str → Option Str

/-- The words of a document, with their positions, and the terms without. -/
structure Doc where
  posts : List (Str × Nat)
  terms : List Str

/-- The document and the position in `struct _notmuch_message`, lib/message.cc:28-60. -/
structure Msg where
  doc : Doc
  termpos : Nat

/-- `_notmuch_message_create_for_document`, lib/message.cc:123-175: a message object starts at position 0 (line 171), whatever the document has. -/
def fresh (d : Doc) : Msg := ⟨d, 0⟩

/-- `TermGenerator::index_text` after `set_termpos`, and `get_termpos` after it. -/
def indexText (G : Gen) (d : Doc) (pos : Nat) (text pre : Str) : Doc × Nat :=
  (⟨d.posts ++ ((G.words text).zipIdx (pos + 1)).map (fun e => (pre ++ e.1, e.2)), d.terms ++ ((G.words text).filterMap G.stem).map (fun s => bs "Z" ++ pre ++ s)⟩, pos + (G.words text).length)

/-- The entries of `user_prefix` and `user_header` that `_notmuch_database_setup_user_query_fields` makes of the configuration, lib/prefix.cc:171-215: the name and the header. -/
def setupUser (config : List (Str × Str)) : List (Str × Str) :=
  (config.filter (fun e => (bs "index.header.").isPrefixOf e.1)).map (fun e => (e.1.drop (bs "index.header.").length, e.2))

/-- The field that the query parser is given for a name, lib/prefix.cc:202-209. -/
def queryField (e : Str × Str) : Str × Str := (e.1, userPrefix e.1)

/-- `_notmuch_database_prefix`, lib/prefix.cc:103-119. -/
def databasePrefix (user : List (Str × Str)) (name : Str) : Option Str :=
  match findPrefix name with
  | some p => p
  | none => if user.any (fun e => e.1 == name) then some (userPrefix name) else none

/-- `notmuch_private_status_t` of `_notmuch_message_gen_terms`. -/
inductive Status | success | nullPointer | badPrefix
  deriving DecidableEq

/-- `_notmuch_message_gen_terms`, lib/message.cc:1541-1574. -/
def genTerms (G : Gen) (user : List (Str × Str)) (m : Msg) (name : Option Str) (text : Option Str) : Status × Msg :=
  match text with
  | none => (.nullPointer, m)
  | some text =>
    match name with
    | none =>
      let r := indexText G m.doc m.termpos text []
      (.success, ⟨r.1, r.2 + 100⟩)
    | some name =>
      match databasePrefix user name with
      | none => (.badPrefix, m)
      | some p =>
        let r := indexText G m.doc m.termpos text p
        (.success, ⟨r.1, r.2 + 100⟩)

/-- `InternetAddress`. -/
inductive Addr where
  | mailbox (name addr : Option Str)
  | group (members : Option (List Addr))

/-- The text of a mailbox, lib/index.cc:296-302. -/
def combined : Option Str → Option Str → Option Str
  | some n, some a => some (n ++ bs " " ++ a)
  | some n, none => some n
  | none, a => a

mutual
/-- One address of `_index_address_list`, with `_index_address_mailbox` and `_index_address_group`, lib/index.cc:283-333, 345-353. -/
def indexAddr (G : Gen) (user : List (Str × Str)) (field : Str) (m : Msg) : Addr → Msg
  | .mailbox n a =>
    match combined n a with
    | none => m
    | some t => (genTerms G user m (some field) (some t)).2
  | .group none => m
  | .group (some l) => indexAddrs G user field m l

/-- `_index_address_list`, lib/index.cc:335-354. -/
def indexAddrs (G : Gen) (user : List (Str × Str)) (field : Str) (m : Msg) : List Addr → Msg
  | [] => m
  | a :: l => indexAddrs G user field (indexAddr G user field m a) l
end

/-- What GMime gives for a file: the addresses, the subject, the headers, and what indexing the parts gives (`Mime.indexFile`). -/
structure Mail where
  sender : Option (List Addr)
  recipients : Option (List Addr)
  subject : Option Str
  header : Str → Option Str
  parts : List Eff

/-- `_notmuch_message_index_user_headers`, lib/index.cc:703-726. -/
def indexUserHeaders (G : Gen) (user : List (Str × Str)) (mail : Mail) (m : Msg) : Msg :=
  user.foldl (fun m e =>
    match mail.header e.2 with
    | none => m
    | some h => (genTerms G user m (some e.1) (some h)).2) m

/-- The words that indexing a part gives, lib/index.cc:366, 515, 563, 763; the other effects have no words. -/
def indexEff (G : Gen) (user : List (Str × Str)) (m : Msg) : Eff → Msg
  | .mimetype s => (genTerms G user m (some (bs "mimetype")) (some s)).2
  | .attachment s => (genTerms G user m (some (bs "attachment")) (some s)).2
  | .body s => (genTerms G user m none (some s)).2
  | .subject s => (genTerms G user m (some (bs "subject")) (some s)).2
  | _ => m

/-- `_notmuch_message_index_file`, lib/index.cc:728-772. -/
def indexFile (G : Gen) (user : List (Str × Str)) (m : Msg) (mail : Mail) : Msg :=
  let m := match mail.sender with
    | none => m
    | some l => indexAddrs G user (bs "from") m l
  let m := match mail.recipients with
    | none => m
    | some l => indexAddrs G user (bs "to") m l
  let m := (genTerms G user m (some (bs "subject")) mail.subject).2
  let m := indexUserHeaders G user mail m
  mail.parts.foldl (indexEff G user) m

/-- `notmuch_database_index_file` for a file of a message, lib/add-message.cc:508-510, 556: a new message object. -/
def addFile (G : Gen) (user : List (Str × Str)) (d : Doc) (mail : Mail) : Doc := (indexFile G user (fresh d) mail).doc

/-- `notmuch_message_reindex`, lib/message.cc:2270-2330: all words are removed, then the files are indexed by the same message object. -/
def reindex (G : Gen) (user : List (Str × Str)) (mails : List Mail) : Doc := (mails.foldl (indexFile G user) (fresh ⟨[], []⟩)).doc

end Notmuch.Words
