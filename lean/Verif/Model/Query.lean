import Verif.Model.DocIdSet

/-!
# lib/query.cc, lib/thread.cc: searching, counting, threads

A Xapian query is a tree with terms and other leaves (value ranges, wildcards, regular expressions: any
predicate on documents).  `Enquire::get_mset` with `BoolWeight` gives the documents that match, in an
order `ord` the theorems say little about.  Parsing the query string is not modelled: a query starts
from its parsed form.  Exceptions and running out of memory are not modelled.  `none` is a crash.
-/

namespace Notmuch.Query
open Notmuch.DocIdSet

/-- A document of the database: id, terms, timestamp, message id, number of files, `From` header, the
name (or else address) of its first address as GMime parses it, `Subject` header. -/
structure Doc where
  id : Nat
  terms : List Str
  date : Int
  mid : Str
  files : Nat
  sender : Option Str
  name : Option Str
  subject : Option Str

/-- `prefix_table`, lib/prefix.cc:30-: the prefixes of types, threads and tags. -/
def typeTerm (t : Str) : Str := 84 :: t
def threadTerm (t : Str) : Str := 71 :: t
def tagTerm (t : Str) : Str := 75 :: t

/-- `_notmuch_database_get_terms_with_prefix`, lib/database.cc:1529-1550, for a prefix of one byte
(terms of a document are ordered, so those with a prefix are adjacent). -/
def termsWithPrefix (p : UInt8) (d : Doc) : List Str :=
  d.terms.filterMap (fun t => match t with
    | c :: rest => if c = p then some rest else none
    | [] => none)

/-- `notmuch_message_get_tags`. -/
def tags (d : Doc) : List Str := termsWithPrefix 75 d

/-- `notmuch_message_get_thread_id`, lib/message.cc:591-604: the first term with the prefix. -/
def threadId (d : Doc) : Option Str := (termsWithPrefix 71 d).head?

/-- `Xapian::Query`. -/
inductive XQuery
  | nothing
  | term (t : Str)
  | leaf (p : Doc → Bool)
  | and (a b : XQuery)
  | or (a b : XQuery)
  | andNot (a b : XQuery)

/-- Which documents a query matches. -/
def XQuery.eval : XQuery → Doc → Bool
  | .nothing, _ => false
  | .term t, d => t ∈ d.terms
  | .leaf p, d => p d
  | .and a b, d => a.eval d && b.eval d
  | .or a b, d => a.eval d || b.eval d
  | .andNot a b, d => a.eval d && !b.eval d

/-- `Xapian::Query::get_terms_begin`. -/
def XQuery.terms : XQuery → List Str
  | .nothing => []
  | .term t => [t]
  | .leaf _ => []
  | .and a b => a.terms ++ b.terms
  | .or a b => a.terms ++ b.terms
  | .andNot a b => a.terms ++ b.terms

/-- `notmuch_exclude_t`, lib/notmuch.h:1037-1042: `FLAG`, `TRUE`, `FALSE`, `ALL`. -/
inductive Exclude
  | flag | yes | no | all
  deriving DecidableEq

/-- `notmuch_sort_t`. -/
inductive SortOrder
  | oldestFirst | newestFirst | messageId | unsorted
  deriving DecidableEq

/-- `struct _notmuch_query`, lib/query.cc:27-37, after parsing. -/
structure Query where
  xapian : XQuery
  terms : List Str
  excludeTerms : List Str
  omitExcluded : Exclude
  sort : SortOrder

/-- A parsed query: lib/query.cc:86-119 and 162-173. -/
def mkQuery (x : XQuery) : Query := ⟨x, x.terms, [], .yes, .newestFirst⟩

/-- `notmuch_query_add_tag_exclude`, lib/query.cc:276-294: whether it was ignored, and the query. -/
def addTagExclude (q : Query) (tag : Str) : Bool × Query :=
  let term := tagTerm tag
  if term ∈ q.terms then (true, q)
  else (false, { q with excludeTerms := q.excludeTerms ++ [term] })

/-- `_notmuch_exclude_tags`, lib/query.cc:311-324. -/
def excludeTags (q : Query) : XQuery :=
  q.excludeTerms.foldl (fun e t => .or e (.term t)) .nothing

/-- `get_mset (0, get_doccount ())`. -/
def getMset (ord : SortOrder → List Doc → List Doc) (db : List Doc) (x : XQuery) (s : SortOrder) : List Doc :=
  ord s (db.filter x.eval)

/-- The result of `_notmuch_query_search_documents`: the documents of the mset and the excluded ids. -/
structure Messages where
  docs : List Doc
  excludedDocIds : Option DocIdSet

/-- `_notmuch_query_search_documents`, lib/query.cc:340-467. -/
def searchDocuments (ord : SortOrder → List Doc → List Doc) (db : List Doc) (q : Query) (type : Str) : Option Messages :=
  let mailQuery := XQuery.term (typeTerm type)
  let finalQuery := XQuery.and mailQuery q.xapian
  if q.omitExcluded ≠ .no then
    let excludeQuery := excludeTags q
    if q.omitExcluded = .yes ∨ q.omitExcluded = .all then
      some ⟨getMset ord db (.andNot finalQuery excludeQuery) q.sort, none⟩
    else
      let mset := getMset ord db (.and excludeQuery finalQuery) .unsorted
      match init (mset.map (·.id)) with
      | none => none
      | some s => some ⟨getMset ord db finalQuery q.sort, some s⟩
  else some ⟨getMset ord db finalQuery q.sort, none⟩

/-- `_notmuch_mset_messages_get`, lib/query.cc:493-523, for each message of the result: the document and
whether it is flagged as excluded. -/
def getMessages (m : Messages) : List Doc → Option (List (Doc × Bool))
  | [] => some []
  | d :: ds =>
    let flag := match m.excludedDocIds with
      | none => some false
      | some s => contains s d.id
    match flag, getMessages m ds with
    | some b, some rest => some ((d, b) :: rest)
    | _, _ => none

/-- `notmuch_query_search_messages` (lib/query.cc:333-338) and iterating over the result. -/
def searchMessages (ord : SortOrder → List Doc → List Doc) (db : List Doc) (q : Query) : Option (List (Doc × Bool)) :=
  match searchDocuments ord db q (bs "mail") with
  | none => none
  | some m => getMessages m m.docs

/-- `_notmuch_query_count_documents`, lib/query.cc:698-760. -/
def countDocuments (db : List Doc) (q : Query) (type : Str) : Nat :=
  let mailQuery := XQuery.term (typeTerm type)
  let finalQuery := XQuery.and mailQuery q.xapian
  let excludeQuery := excludeTags q
  (db.filter (XQuery.andNot finalQuery excludeQuery).eval).length

/-- `notmuch_query_count_messages`, lib/query.cc:690-694. -/
def countMessages (db : List Doc) (q : Query) : Nat := countDocuments db q (bs "mail")

/-- The hash table of `notmuch_query_count_threads`, lib/query.cc:799-812: `none` if a message has no
thread. -/
def hashThreads : List (Doc × Bool) → List Str → Option (List Str)
  | [], h => some h
  | (d, _) :: ds, h =>
    match threadId d with
    | none => none
    | some t => hashThreads ds (if t ∈ h then h else h ++ [t])

/-- `notmuch_query_count_threads`, lib/query.cc:774-820. -/
def countThreads (ord : SortOrder → List Doc → List Doc) (db : List Doc) (q : Query) : Option Nat :=
  match searchMessages ord db { q with sort := .unsorted } with
  | none => none
  | some ms => (hashThreads ms []).map List.length

/-- `strcasestr (haystack, needle) != NULL`. -/
def strcasestr : Str → Str → Bool
  | [], needle => needle.isEmpty
  | c :: hs, needle => (needle.map toLower).isPrefixOf ((c :: hs).map toLower) || strcasestr hs needle

/-- `_thread_cleanup_author`, lib/thread.cc:183-232. -/
def cleanupAuthor (author sender : Str) : Str :=
  let lname := author.takeWhile (· ≠ 44)
  let comma := author.dropWhile (· ≠ 44)
  if comma.length > 1 then
    let clean := (comma.drop 1).dropWhile (· = 32) ++ [32] ++ lname
    let test := clean.map (fun c => if c = 32 then 46 else c)
    if strcasestr sender test then clean else author
  else author

/-- A message of a thread with its flags. -/
structure TMsg where
  doc : Doc
  excluded : Bool
  isMatch : Bool
  author : Option Str

/-- `struct _notmuch_thread`, lib/thread.cc:34-55.  The hash tables of authors hold the same authors as
the arrays; the hash table of messages is a search from the end of the list. -/
structure Thread where
  threadId : Str
  subject : Option Str
  authors : List Str
  matchedAuthors : List Str
  tags : List Str
  messages : List TMsg
  totalMessages : Nat
  totalFiles : Nat
  matchedMessages : Nat
  oldest : Int
  newest : Int

/-- `_thread_add_author`, `_thread_add_matched_author`, lib/thread.cc:80-120. -/
def addAuthor (l : List Str) (a : Option Str) : List Str :=
  match a with
  | none => l
  | some a => if a ∈ l then l else l ++ [a]

/-- `g_hash_table_insert (thread->tags, ..)`, lib/thread.cc:305-310. -/
def addTag (l : List Str) (t : Str) : List Str := if t ∈ l then l else l ++ [t]

/-- Whether a message counts as excluded, lib/thread.cc:252-270. -/
def messageExcluded (q : Query) (d : Doc) : Bool :=
  q.omitExcluded ≠ .no && (tags d).any (fun tag => q.excludeTerms.any (fun term => term ≠ [] && tag == term.drop 1))

/-- The author of a message, lib/thread.cc:283-297. -/
def docAuthor (d : Doc) : Option Str :=
  match d.sender with
  | none => none
  | some s =>
    match d.name with
    | none => none
    | some a => some (cleanupAuthor a s)

/-- `_thread_add_message`, lib/thread.cc:239-315. -/
def addMessage (q : Query) (th : Thread) (d : Doc) : Thread :=
  let excluded := messageExcluded q d
  if excluded && q.omitExcluded = .all then th
  else
    { th with
      messages := th.messages ++ [⟨d, excluded, false, docAuthor d⟩]
      totalMessages := th.totalMessages + 1
      totalFiles := th.totalFiles + d.files
      authors := addAuthor th.authors (docAuthor d)
      subject := match th.subject with
        | none => some (d.subject.getD [])
        | some s => some s
      tags := (tags d).foldl addTag th.tags }

/-- `_thread_set_subject_from_message`, lib/thread.cc:317-345. -/
def setSubject (subject : Option Str) (d : Doc) : Option Str :=
  match d.subject with
  | none => subject
  | some s =>
    let low := (s.take 4).map toLower
    let cleaned := if low = bs "re: " ∨ low = bs "aw: " ∨ low = bs "vs: " ∨ low = bs "sv: " then s.drop 4 else s
    if cleaned = [] then subject else some cleaned

/-- Looking up the message in `message_hash` and setting its flag, lib/thread.cc:385-391: the messages
and the author of the message found. -/
def setMatch : List TMsg → Str → Option (List TMsg × Option Str)
  | [], _ => none
  | m :: ms, mid =>
    match setMatch ms mid with
    | some (ms', a) => some (m :: ms', a)
    | none => if m.doc.mid = mid then some ({ m with isMatch := true } :: ms, m.author) else none

/-- `_thread_add_matched_message`, lib/thread.cc:352-395.  `excluded` is the flag of the message.  A thread
without a subject is a crash, as is a message that is not in the hash table. -/
def addMatchedMessage (sort : SortOrder) (th : Thread) (d : Doc) (excluded : Bool) : Option Thread :=
  let first := decide (d.date < th.oldest) || th.matchedMessages == 0
  let oldest := if first then d.date else th.oldest
  let subject1 := if first && sort == .oldestFirst then setSubject th.subject d else th.subject
  let last := decide (d.date > th.newest) || th.matchedMessages == 0
  let newest := if last then d.date else th.newest
  match subject1 with
  | none => none
  | some cur =>
    let subject2 := if last && (sort ≠ .oldestFirst || cur == []) then setSubject (some cur) d else some cur
    match setMatch th.messages d.mid with
    | none => none
    | some (messages, author) =>
      some { th with
        oldest := oldest
        newest := newest
        subject := subject2
        matchedMessages := if excluded then th.matchedMessages else th.matchedMessages + 1
        messages := messages
        matchedAuthors := addAuthor th.matchedAuthors author }

/-- The loop of `_notmuch_thread_create`, lib/thread.cc:614-634.  The flag of a message is set by
`_thread_add_message`, if the message is added. -/
def threadLoop (q : Query) : List Doc → Thread → DocIdSet → Option (Thread × DocIdSet)
  | [], th, s => some (th, s)
  | d :: ds, th, s =>
    let th1 := addMessage q th d
    match contains s d.id with
    | none => none
    | some false => threadLoop q ds th1 s
    | some true =>
      match remove s d.id, addMatchedMessage q.sort th1 d (messageExcluded q d && q.omitExcluded ≠ .all) with
      | some s', some th2 => threadLoop q ds th2 s'
      | _, _ => none

/-- `_notmuch_thread_create`, lib/thread.cc:541-647, up to the string of authors and the reply
relation.  The query `thread:<id>` matches the documents with that thread term. -/
def threadCreate (ord : SortOrder → List Doc → List Doc) (db : List Doc) (q : Query) (seed : Nat) (s : DocIdSet) :
    Option (Thread × DocIdSet) :=
  match db.find? (fun d => d.id = seed) with
  | none => none
  | some sd =>
    match threadId sd with
    | none => none
    | some tid =>
      match searchDocuments ord db { mkQuery (.term (threadTerm tid)) with sort := .oldestFirst } (bs "mail") with
      | none => none
      | some ms => threadLoop q ms.docs ⟨tid, none, [], [], [], [], 0, 0, 0, 0, 0⟩ s

/-- The first loop of `_resolve_thread_authors_string`, lib/thread.cc:138-148: `thread->authors` is NULL
before the first author. -/
def appendAuthor : Option Str → Str → Option Str
  | some s, a => some (s ++ bs ", " ++ a)
  | none, a => some a

/-- `_resolve_thread_authors_string`, lib/thread.cc:126-174. -/
def authorsString (th : Thread) : Str :=
  let matchedPart := th.matchedAuthors.foldl appendAuthor none
  let others := th.authors.filter (fun a => a ∉ th.matchedAuthors)
  -- a NULL thread->authors would be printed as "(null)"
  let all := others.foldl (fun (s : Bool × Option Str) a =>
    (false, some (s.2.getD (bs "(null)") ++ (if s.1 then bs "| " else bs ", ") ++ a))) (true, matchedPart)
  all.2.getD []

/-- `struct _notmuch_threads`, lib/query.cc:54-64. -/
structure Threads where
  docIds : List Nat
  pos : Nat
  matchSet : DocIdSet

/-- `notmuch_query_search_threads`, lib/query.cc:596-637. -/
def searchThreads (ord : SortOrder → List Doc → List Doc) (db : List Doc) (q : Query) : Option Threads :=
  match searchDocuments ord db q (bs "mail") with
  | none => none
  | some m =>
    match init (m.docs.map (·.id)) with
    | none => none
    | some s => some ⟨m.docs.map (·.id), 0, s⟩

/-- The loop of `notmuch_threads_valid`, lib/query.cc:653-660, over the rest of the array. -/
def skip (s : DocIdSet) : List Nat → Nat → Option Nat
  | [], pos => some pos
  | d :: ds, pos =>
    match contains s d with
    | none => none
    | some true => some pos
    | some false => skip s ds (pos + 1)

/-- `notmuch_threads_valid`, lib/query.cc:645-663. -/
def threadsValid (t : Threads) : Option (Bool × Threads) :=
  match skip t.matchSet (t.docIds.drop t.pos) t.pos with
  | none => none
  | some pos => some (decide (pos < t.docIds.length), { t with pos := pos })

/-- `notmuch_threads_get`, lib/query.cc:665-683. -/
def threadsGet (ord : SortOrder → List Doc → List Doc) (db : List Doc) (q : Query) (t : Threads) :
    Option (Option Thread × Threads) :=
  match threadsValid t with
  | none => none
  | some (false, t) => some (none, t)
  | some (true, t) =>
    match t.docIds[t.pos]? with
    | none => none
    | some seed =>
      match threadCreate ord db q seed t.matchSet with
      | none => none
      | some (th, s) => some (some th, { t with matchSet := s })

/-- `notmuch_threads_move_to_next`, lib/query.cc:685-689. -/
def threadsNext (t : Threads) : Threads := { t with pos := t.pos + 1 }

end Notmuch.Query
