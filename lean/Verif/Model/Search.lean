import Verif.Model.Query
import Verif.Model.StringUtil
import Verif.Model.Sprinter
import Verif.Model.TermList

/-!
# notmuch-search.c (`notmuch search`), sprinter-text.c

What the library does is in `Model/Query.lean`.  `rel` is `notmuch_time_relative_date`, `filenames` gives the file names of a message, and `sortTags` is
`_notmuch_string_list_sort`.  Running out of memory and exceptions of Xapian are not modelled.
-/

namespace Notmuch.Search

open Notmuch.Query Notmuch.Sprinter
open Notmuch.StringUtil (sanitize makeBooleanTerm)

/-! ## sprinter-text.c -/

/-- What the commands do with the printer; `raw` is `printf`. -/
inductive TCall where
  | setPrefix (p : Str)
  | raw (s : Str)
  | call (c : Call)
  deriving DecidableEq

/-- `text_string_len`, sprinter-text.c:28-37: the prefix, if one is set, and a colon. -/
def textPrefix : Option Str → Str
  | none => []
  | some p => p ++ bs ":"

/-- sprinter-text.c:28-119: the current prefix and the output.  `sep` is a newline or, for text0, a zero byte. -/
def textStep (sep : UInt8) (st : Option Str × Str) : TCall → Option Str × Str
  | .setPrefix p => (some p, st.2)
  | .raw s => (st.1, st.2 ++ s)
  | .call (.string s) => (st.1, st.2 ++ (textPrefix st.1 ++ cstr s))
  | .call (.stringLen s) => (st.1, st.2 ++ (textPrefix st.1 ++ s))
  | .call (.integer i) => (st.1, st.2 ++ printInt i)
  | .call (.boolean b) => (st.1, st.2 ++ (if b then bs "true" else bs "false"))
  | .call .separator => (st.1, st.2 ++ [sep])
  | .call _ => st

def textRun (sep : UInt8) (cs : List TCall) : Str := (cs.foldl (textStep sep) (none, [])).2

/-- The calls that a structured printer sees; `set_prefix` does nothing there (sprinter-json.c:180-183). -/
def structured (cs : List TCall) : List Call :=
  cs.filterMap (fun c => match c with
    | .call c => some c
    | _ => none)

/-! ## Offset and limit -/

/-- Conversion of a number to `int`. -/
def toInt (n : Int) : Int := (n + 2147483648) % 4294967296 - 2147483648

/-- notmuch-search.c:128-139, 553-564: `ctx->offset += count`, where the count is unsigned. -/
def startOffset (offset : Int) (count : Nat) : Int :=
  if offset < 0 then (if toInt (offset + count) < 0 then 0 else toInt (offset + count)) else offset

/-- `ctx->limit < 0 || i < ctx->offset + ctx->limit`, notmuch-search.c:148, 573: `none` when the sum overflows. -/
def below (offset limit i : Int) : Option Bool :=
  if limit < 0 then some true
  else if offset + limit > 2147483647 then none
  else some (decide (i < offset + limit))

/-- The loop over messages, notmuch-search.c:572-577: those that are printed.  Simplified: `i` does not overflow. -/
def messagesLoop {α : Type} (offset limit : Int) : Int → List α → Option (List α)
  | _, [] => some []
  | i, m :: ms =>
    match below offset limit i with
    | none => none
    | some false => some []
    | some true => (messagesLoop offset limit (i + 1) ms).map (fun l => if i < offset then l else m :: l)

/-- The loop over threads, notmuch-search.c:147-155: those that are printed.  `none`: a crash, an overflow, or more than `fuel` rounds. -/
def threadsLoop (ord : SortOrder → List Doc → List Doc) (db : List Doc) (q : Query) (offset limit : Int) : Nat → Int → Threads → Option (List Thread)
  | 0, _, _ => none
  | fuel + 1, i, t =>
    match threadsValid t with
    | none => none
    | some (false, _) => some []
    | some (true, t) =>
      match below offset limit i with
      | none => none
      | some false => some []
      | some true =>
        match threadsGet ord db q t with
        | some (some th, t) => (threadsLoop ord db q offset limit fuel (i + 1) (threadsNext t)).map (fun l => if i < offset then l else th :: l)
        | _ => none

/-! ## What is printed -/

inductive Output where
  | summary
  | threads
  | messages
  | files
  | tags
  deriving DecidableEq

/-- The options of the command. -/
structure Opts where
  output : Output
  exclude : Exclude
  sort : SortOrder
  offset : Int
  limit : Int
  dupe : Int
  version : Nat

/-- The query that `_notmuch_search_prepare` makes, notmuch-search.c:724-757; `ex` are the tags of `search.exclude_tags`. -/
def prepare (x : XQuery) (ex : List Str) (o : Opts) : Query :=
  let q := { mkQuery x with sort := o.sort }
  let e := if o.exclude = .flag ∧ o.output ≠ .summary then .no else o.exclude
  if e ≠ .no then { ex.foldl (fun q t => (addTagExclude q t).2) q with omitExcluded := e } else q

/-- One step of `get_thread_query`, notmuch-search.c:96-112. -/
def appendId (buf : Option Str) (mid : Str) : Option Str :=
  match buf with
  | some s => some (s ++ bs " " ++ makeBooleanTerm (some (bs "id")) mid)
  | none => some (makeBooleanTerm (some (bs "id")) mid)

/-- `get_thread_query`, notmuch-search.c:78-116: for the matched and for the other messages. -/
def threadQuery (th : Thread) : Option Str × Option Str :=
  th.messages.foldl (fun r m => if m.isMatch then (appendId r.1 m.doc.mid, r.2) else (r.1, appendId r.2 m.doc.mid)) (none, none)

/-- `%12s`. -/
def pad12 (s : Str) : Str := List.replicate (12 - s.length) 32 ++ s

def printQuery : Option Str → TCall
  | some s => .call (.string (some s))
  | none => .call .null

/-- The tags of a thread, notmuch-search.c:243-261. -/
def printTags (text : Bool) : Bool → List Str → List TCall
  | _, [] => []
  | first, t :: l => (if text then (if first then [] else [.raw (bs " ")]) ++ [.raw t] else [.call (.string (some t))]) ++ printTags text false l

/-- `notmuch_thread_get_tags`, lib/thread.cc:720-747. -/
def threadTags (sortTags : List Str → List Str) (th : Thread) : List Str := sortTags th.tags

/-- The date that is printed, notmuch-search.c:176-179. -/
def threadDate (sort : SortOrder) (th : Thread) : Int := if sort = .oldestFirst then th.oldest else th.newest

/-- One thread, notmuch-search.c:157-270. -/
def printThread (sortTags : List Str → List Str) (rel : Int → Str) (text : Bool) (o : Opts) (th : Thread) : List TCall :=
  if o.output = .threads then [.setPrefix (bs "thread"), .call (.string (some th.threadId)), .call .separator]
  else
    [.call .beginMap] ++
    (if text then
      [.raw (bs "thread:" ++ th.threadId ++ bs " " ++ pad12 (rel (threadDate o.sort th)) ++ bs " "),
       .raw (bs "[" ++ printInt th.matchedMessages ++ bs "/" ++ printInt th.totalMessages ++
         (if th.totalMessages = th.totalFiles then [] else bs "(" ++ printInt th.totalFiles ++ bs ")") ++
         bs "] " ++ sanitize (authorsString th) ++ bs "; " ++ sanitize (th.subject.getD []) ++ bs " (")]
    else
      [.call (.mapKey (bs "thread")), .call (.string (some th.threadId)),
       .call (.mapKey (bs "timestamp")), .call (.integer (threadDate o.sort th)),
       .call (.mapKey (bs "date_relative")), .call (.string (some (rel (threadDate o.sort th)))),
       .call (.mapKey (bs "matched")), .call (.integer th.matchedMessages),
       .call (.mapKey (bs "total")), .call (.integer th.totalMessages),
       .call (.mapKey (bs "authors")), .call (.string (some (authorsString th))),
       .call (.mapKey (bs "subject")), .call (.string th.subject)] ++
      (if o.version ≥ 2 then
        [.call (.mapKey (bs "query")), .call .beginList, printQuery (threadQuery th).1, printQuery (threadQuery th).2, .call .endAgg]
      else [])) ++
    [.call (.mapKey (bs "tags")), .call .beginList] ++ printTags text true (threadTags sortTags th) ++
    (if text then [.raw (bs ")")] else []) ++
    [.call .endAgg, .call .endAgg, .call .separator]

/-- The loop over file names, notmuch-search.c:585-592: `j` counts from 1. -/
def printFiles (dupe : Int) : Int → List Str → List TCall
  | _, [] => []
  | j, f :: l => (if dupe < 0 ∨ dupe = j then [.call (.string (some f)), .call .separator] else []) ++ printFiles dupe (j + 1) l

/-- One message, notmuch-search.c:581-604. -/
def printMessage (filenames : Doc → List Str) (o : Opts) (d : Doc) : List TCall :=
  if o.output = .files then printFiles o.dupe 1 (filenames d)
  else if o.dupe ≤ 1 ∨ o.dupe ≤ (filenames d).length then [.setPrefix (bs "id"), .call (.string (some d.mid)), .call .separator]
  else []

/-- `do_search_threads`, notmuch-search.c:118-277. -/
def searchThreads (ord : SortOrder → List Doc → List Doc) (sortTags : List Str → List Str) (rel : Int → Str) (text : Bool) (db : List Doc) (q : Query) (o : Opts) : Option (List TCall) :=
  match (if o.offset < 0 then (countThreads ord db q).map (startOffset o.offset) else some o.offset) with
  | none => none
  | some offset =>
    match Query.searchThreads ord db q with
    | none => none
    | some t =>
      (threadsLoop ord db q offset o.limit (t.docIds.length + 1) 0 t).map
        (fun ths => [.call .beginList] ++ ths.flatMap (printThread sortTags rel text o) ++ [.call .endAgg])

/-- `do_search_messages`, notmuch-search.c:542-637, for `notmuch search`. -/
def searchMessages (ord : SortOrder → List Doc → List Doc) (filenames : Doc → List Str) (db : List Doc) (q : Query) (o : Opts) : Option (List TCall) :=
  match Query.searchMessages ord db q with
  | none => none
  | some ms =>
    (messagesLoop (if o.offset < 0 then startOffset o.offset (countMessages db q) else o.offset) o.limit 0 ms).map
      (fun ms => [.call .beginList] ++ ms.flatMap (fun m => printMessage filenames o m.1) ++ [.call .endAgg])

/-- `notmuch_messages_collect_tags`, lib/messages.c:158-194: the hash table, and its keys sorted. -/
def collectTags (sortTags : List Str → List Str) (ms : List (Doc × Bool)) : List Str := sortTags (ms.foldl (fun h m => (tags m.1).foldl addTag h) [])

/-- `notmuch_database_get_all_tags`, lib/database.cc:1552-1571: `allterms` are the terms of the database in order. -/
def getAllTags (sortTags : List Str → List Str) (allterms : List Str) : List Str := sortTags (TermList.getTermsWithPrefix (bs "K") allterms).1

/-- `do_search_tags`, notmuch-search.c:639-687: `star` if the query is `*`. -/
def searchTags (ord : SortOrder → List Doc → List Doc) (sortTags : List Str → List Str) (allterms : List Str) (star : Bool) (db : List Doc) (q : Query) : Option (List TCall) :=
  (if star then some (getAllTags sortTags allterms) else (Query.searchMessages ord db q).map (collectTags sortTags)).map
    (fun l => [.call .beginList] ++ l.flatMap (fun t => [.call (.string (some t)), .call .separator]) ++ [.call .endAgg])

/-- `notmuch_search_command`, notmuch-search.c:797-857, after the options were read: `none` is a crash, or an error. -/
def search (ord : SortOrder → List Doc → List Doc) (sortTags : List Str → List Str) (rel : Int → Str) (filenames : Doc → List Str) (allterms : List Str) (star text : Bool)
    (db : List Doc) (x : XQuery) (ex : List Str) (o : Opts) : Option (List TCall) :=
  if o.output ≠ .files ∧ o.output ≠ .messages ∧ o.dupe ≠ -1 then none
  else
    match o.output with
    | .summary => searchThreads ord sortTags rel text db (prepare x ex o) o
    | .threads => searchThreads ord sortTags rel text db (prepare x ex o) o
    | .messages => searchMessages ord filenames db (prepare x ex o) o
    | .files => searchMessages ord filenames db (prepare x ex o) o
    | .tags => searchTags ord sortTags allterms star db (prepare x ex o)

end Notmuch.Search
