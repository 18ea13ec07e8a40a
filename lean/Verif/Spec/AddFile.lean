import Verif.Model.AddFile
import Verif.Spec.Reindex
import Verif.Spec.Threading

/-!
# Specification: adding a file (C65)

What the headers of a file are, what its hash is, and what adding it makes of the database: the message gets what the file says, other messages change their thread only.
-/

namespace Notmuch.AddFile

open Notmuch.TermList
open Notmuch.Message (World nameOf)

/-! ## The file -/

/-- A file is mail for GMime; a file that begins with a `From ` line is so only if there is one message in it. -/
def IsMail (f : File) (p : Parsed) : Prop :=
  (bs "From " <+: f.start ∧ f.gmime true = some p ∧ p.eos = true) ∨ (¬ bs "From " <+: f.start ∧ f.gmime false = some p)

/-- The names of headers are compared without case. -/
def SameName (a b : Str) : Prop := a.map toLower = b.map toLower

instance (a b : Str) : Decidable (SameName a b) := by unfold SameName; infer_instance

/-- The decoded values of the headers of a name. -/
def valuesOf (dec : Str → Str) (p : Parsed) (name : Str) : List Str := (p.headers.filter (fun h => SameName h.1 name)).map (fun h => dec h.2)

/-- Strings with blanks between them. -/
def spaced : List Str → Str
  | [] => []
  | [s] => s
  | s :: ss => s ++ bs " " ++ spaced ss

/-- The text of a header: of `Received` and `Delivered-To` all the values, of others the first; empty if there is none. -/
def text (dec : Str → Str) (p : Parsed) (name : Str) : Str :=
  if SameName name (bs "received") ∨ SameName name (bs "delivered-to") then spaced (valuesOf dec p name) else (valuesOf dec p name).headD []

/-- The state after asking for some headers. -/
def ask (decode : Str → Option Str) : List Str → MsgFile → MsgFile
  | [], m => m
  | n :: ns, m => ask decode ns (getHeader decode n m).2

/-- Reading gives the contents, in any pieces. -/
inductive Reads : List Read → Str → Prop
  | eof {rs : List Read} : Reads (.eof :: rs) []
  | data {b s : Str} {rs : List Read} : Reads rs s → Reads (.data b :: rs) (b ++ s)
  | again {rs : List Read} {s : Str} : Reads rs s → Reads (.nothing :: rs) s

/-- Reading ends with an error. -/
inductive Fails : List Read → Prop
  | error {rs : List Read} : Fails (.error :: rs)
  | data {b : Str} {rs : List Read} : Fails rs → Fails (.data b :: rs)
  | again {rs : List Read} : Fails rs → Fails (.nothing :: rs)

/-! ## The database -/

/-- The term for the type. -/
def kindTerm : Threading.Kind → Str
  | .mail => bs "mail"
  | .ghost => bs "ghost"

/-- The terms of a document say what C19 and C20 talk about. -/
structure Says (terms : List Str) (a : Threading.Doc) : Prop where
  sorted : Sorted terms
  id : ∀ x, bs "Q" ++ x ∈ terms ↔ x = a.mid
  kind : ∀ x, bs "T" ++ x ∈ terms ↔ x = kindTerm a.kind
  threads : ∀ x, bs "G" ++ x ∈ terms ↔ ∃ t ∈ a.threads, x = Open.hex16 t
  refs : ∀ x, bs "XREFERENCE" ++ x ∈ terms ↔ x ∈ a.refs
  files : ∀ x, bs "XFDIRENTRY" ++ x ∈ terms ↔ x ∈ a.files

/-- The elements of two lists are related, one by one. -/
inductive All2 {α β : Type} (R : α → β → Prop) : List α → List β → Prop
  | nil : All2 R [] []
  | cons {a : α} {b : β} {as : List α} {bs : List β} : R a b → All2 R as bs → All2 R (a :: as) (b :: bs)

/-- The database says what C19 and C20 talk about. -/
structure SaysDb (db : Db) (A : Threading.Db) : Prop where
  docs : All2 (fun d a => d.docId = a.docId ∧ Says d.terms a) db.docs A.docs
  lastThread : db.lastThread = A.lastThread
  lastDoc : db.lastDoc = A.lastDoc

/-- The prefixes of terms that only linking and naming set. -/
def linking : List Str := [bs "Q", bs "G", bs "T", bs "XREFERENCE", bs "XREPLYTO", bs "XFDIRENTRY"]

/-- What the text of a mail adds has none of these prefixes. -/
def Quiet (a : Reindex.Add) : Prop := ∀ x, a.gives x → ∀ p ∈ linking, ¬ p <+: x

/-- Nothing about the file hinders adding it: it is mail with entry `e`, its headers can be decoded, it can be read, and its text gives terms for searching. -/
structure Ready (E : Env) (name : Str) (f : File) (p : Parsed) (dec : Str → Str) (e : Str) : Prop where
  writable : E.writable = true
  opens : E.open_ name = some f
  begins : E.begin = .success
  ends : E.ending = .success
  mail : IsMail f p
  decodes : ∀ v, E.decode v = some (dec v)
  noNul : ∀ v, 0 ∉ dec v
  reads : ∃ rs content, f.again = some rs ∧ Reads rs content
  hash : ∀ s, (E.digest s).length = 40
  keys : ∀ l x, x ∈ E.keys l ↔ x ∈ l
  world : E.W.Ok
  entry : E.entry name = some e
  entryLength : e.length ≤ 235
  entryDir : ∃ n, nameOf E.W e n
  props : ∀ k v, .prop k v ∈ E.index name → 61 ∉ k ∧ k.length + v.length ≤ 235
  terms : ∀ n v, .term n v ∈ E.index name → (Message.prefixOf n ++ v).length ≤ 245
  saved : (∃ w, (E.index name).getLast? = some (.text w)) → ∀ k v, .prop k v ∉ E.index name
  quiet : ∀ a ∈ E.index name, Quiet a
  indexed : E.indexStatus name = .success

/-- There is text in `From`, `Subject` or `To`. -/
def Addressed (dec : Str → Str) (p : Parsed) : Prop := ∃ n ∈ [bs "From", bs "Subject", bs "To"], text dec p n ≠ []

instance (dec : Str → Str) (p : Parsed) : Decidable (Addressed dec p) := by unfold Addressed; infer_instance

/-- The values of the document: the date (0 if there is none, or it is before 1970), the sender and the subject. -/
def valuesFrom (E : Env) (dec : Str → Str) (p : Parsed) : Values :=
  ⟨if text dec p (bs "Date") = [] then 0 else max 0 (E.date (text dec p (bs "Date"))), text dec p (bs "From"), text dec p (bs "Subject")⟩

/-- The terms that a name gives: the entry, and those of the directory. -/
def NameTerm (W : World) (e x : Str) : Prop :=
  ∃ id base d, e = dec id ++ bs ":" ++ base ∧ W.dir id = some d ∧ (x = bs "XFDIRENTRY" ++ e ∨ x = bs "XFOLDER:" ++ W.folder d ∨ ∃ p ∈ W.paths d, x = bs "P" ++ p)

/-- A term that is dropped if it is too long. -/
def Term (pre v x : Str) : Prop := x = pre ++ v ∧ x.length ≤ 245

/-- The terms that adding the file with this entry, these parents and this parent replied to gives the message. -/
def Gives (E : Env) (name e : Str) (parents : List Str) (reply : Option Str) (thread x : Str) : Prop :=
  NameTerm E.W e x ∨ (∃ r, reply = some r ∧ Term (bs "XREPLYTO") r x) ∨ (∃ r ∈ parents, Term (bs "XREFERENCE") r x) ∨ x = bs "G" ++ thread ∨ ∃ a ∈ E.index name, a.gives x

/-- What the document of the message is afterwards, and which status is returned: for a message that was not known, for one that was known only as the parent of others, and
for one of which there was another file. -/
inductive Outcome (E : Env) (dec : Str → Str) (p : Parsed) (name e id : Str) (parents : List Str) (reply : Option Str) (db : Db) (doc : Doc) : Status → Prop
  | new (thread : Str) : (∀ d ∈ db.docs, bs "Q" ++ id ∉ d.terms) → (∀ d ∈ db.docs, d.docId ≠ doc.docId) → doc.values = some (valuesFrom E dec p) →
      (∀ x, x ∈ doc.terms ↔ x = bs "Q" ++ id ∨ x = bs "Tmail" ∨ Gives E name e parents reply thread x) → Outcome E dec p name e id parents reply db doc .success
  | ghost (d : Doc) (thread : Str) : d ∈ db.docs → bs "Q" ++ id ∈ d.terms → bs "Tghost" ∈ d.terms → bs "G" ++ thread ∈ d.terms → doc.docId = d.docId →
      doc.values = some (valuesFrom E dec p) →
      (∀ x, x ∈ doc.terms ↔ (x ∈ d.terms ∧ x ≠ bs "Tghost") ∨ x = bs "Tmail" ∨ Gives E name e parents reply thread x) → Outcome E dec p name e id parents reply db doc .success
  | duplicate (d : Doc) (thread : Str) : d ∈ db.docs → bs "Q" ++ id ∈ d.terms → bs "Tmail" ∈ d.terms → bs "G" ++ thread ∈ d.terms → doc.docId = d.docId →
      doc.values = d.values →
      (∀ x, x ∈ doc.terms ↔ x ∈ d.terms ∨ Gives E name e parents reply thread x) → Outcome E dec p name e id parents reply db doc .duplicateMessageId

/-- The same document but for its thread. -/
structure SameButThread (d d' : Doc) : Prop where
  docId : d'.docId = d.docId
  values : d'.values = d.values
  terms : ∀ x, ¬ bs "G" <+: x → (x ∈ d'.terms ↔ x ∈ d.terms)

/-- A message of which nothing is known but its id and its thread. -/
def OnlyGhost (d : Doc) : Prop := d.values = none ∧ ∃ id thread, ∀ x, x ∈ d.terms ↔ x = bs "Q" ++ id ∨ x = bs "Tghost" ∨ x = bs "G" ++ thread

/-- All documents but that of the message: those of before with perhaps another thread, and ghosts for parents that were not known. -/
structure OthersKept (db db' : Db) (n : Nat) : Prop where
  back : ∀ d' ∈ db'.docs, d'.docId ≠ n → (∃ d ∈ db.docs, SameButThread d d') ∨ (OnlyGhost d' ∧ ∀ d ∈ db.docs, d.docId ≠ d'.docId)
  forth : ∀ d ∈ db.docs, d.docId ≠ n → ∃ d' ∈ db'.docs, SameButThread d d'

/-- Why a file is not added, with the status: the database is read-only, the file cannot be opened, no atomic section can begin, the file is not mail, it is mail without
text in `From`, `Subject` and `To`, or it has no message id and cannot be read again for its hash. -/
inductive Refused (E : Env) (name : Str) : Status → Prop
  | readOnly : E.writable = false → Refused E name .readOnly
  | notOpened : E.writable = true → E.open_ name = none → Refused E name .fileError
  | notBegun {f : File} : E.writable = true → E.open_ name = some f → E.begin ≠ .success → Refused E name E.begin
  | notMail {f : File} : E.writable = true → E.open_ name = some f → E.begin = .success → (∀ p, ¬ IsMail f p) → Refused E name .fileNotEmail
  | notAddressed {f : File} {p : Parsed} {dec : Str → Str} : E.writable = true → E.open_ name = some f → E.begin = .success → IsMail f p → (∀ v, E.decode v = some (dec v)) →
      ¬ Addressed dec p → Refused E name .fileNotEmail
  | noId {f : File} {p : Parsed} {dec : Str → Str} : E.writable = true → E.open_ name = some f → E.begin = .success → IsMail f p → (∀ v, E.decode v = some (dec v)) →
      Addressed dec p → text dec p (bs "Message-ID") = [] → (∀ rs, f.again = some rs → Fails rs) → Refused E name .fileError

/-- How a database comes about: files are added to an empty one, some are refused.  The operations are those of C19. -/
inductive History (digest : Str → Str) : Db → List Threading.Op → Prop
  | empty : History digest ⟨[], 0, 0⟩ []
  | added {db db' : Db} {ops : List Threading.Op} {E : Env} {name : Str} {f : File} {p : Parsed} {dec : Str → Str} {e id : Str} {parents : List Str} {reply : Option Str} {st : Status}
      {n : Option Nat} : History digest db ops → E.digest = digest → Ready E name f p dec e → Addressed dec p →
      MessageId.messageId (some (text dec p (bs "Message-ID"))) (sha1OfFile digest f) = some (some id) →
      MessageId.parents (Threading.normId (sha1OfString digest) id) (some (text dec p (bs "References"))) (some (text dec p (bs "In-Reply-To"))) = some (parents, reply) →
      db.lastThread + (E.keys parents).length + 1 < 2 ^ 64 → indexFile E db name = some (db', st, n) → History digest db' (ops ++ [.add e id (E.keys parents)])
  | refused {db db' : Db} {ops : List Threading.Op} {E : Env} {name : Str} {st st' : Status} {n : Option Nat} : History digest db ops → Refused E name st →
      indexFile E db name = some (db', st', n) → History digest db' ops

end Notmuch.AddFile
