import Verif.Model.StringMap

/-!
# lib/prefix.cc, lib/message.cc, lib/database.cc: the terms of a document, as Xapian has them

A document is the list of its terms in the order of bytes (what `termlist_begin` .. `termlist_end` show).  An
iterator is the list of the terms from its position to the end.  `Xapian::DatabaseModifiedError`, other Xapian
errors and running out of memory are not modelled.
-/

namespace Notmuch.TermList
open Notmuch.StringMap (strcmp Pair Map)

/-- `prefix_table`, lib/prefix.cc:29-77: name and prefix (`none` is NULL). -/
def prefixTable : List (Str × Option Str) :=
  [(bs "type", some (bs "T")), (bs "reference", some (bs "XREFERENCE")), (bs "replyto", some (bs "XREPLYTO")),
   (bs "directory", some (bs "XDIRECTORY")), (bs "file-direntry", some (bs "XFDIRENTRY")),
   (bs "directory-direntry", some (bs "XDDIRENTRY")), (bs "body", some []), (bs "thread", some (bs "G")),
   (bs "tag", some (bs "K")), (bs "is", some (bs "K")), (bs "id", some (bs "Q")), (bs "mid", some (bs "Q")),
   (bs "path", some (bs "P")), (bs "property", some (bs "XPROPERTY")), (bs "folder", some (bs "XFOLDER:")),
   (bs "date", none), (bs "query", none), (bs "sexp", none), (bs "from", some (bs "XFROM")), (bs "to", some (bs "XTO")),
   (bs "attachment", some (bs "XATTACHMENT")), (bs "mimetype", some (bs "XMIMETYPE")), (bs "subject", some (bs "XSUBJECT"))]

/-- `_find_prefix`, lib/prefix.cc:85-98: the outer `none` is `INTERNAL_ERROR`. -/
def findPrefix (name : Str) : Option (Option Str) := (prefixTable.find? (fun e => e.1 = name)).map (·.2)

/-- `_user_prefix`, lib/prefix.cc:80-84. -/
def userPrefix (name : Str) : Str := bs "XU" ++ name ++ bs ":"

/-- `TermIterator::skip_to`: the first term that is not before `p`; an iterator never goes back. -/
def skipTo (p : Str) (it : List Str) : List Str := it.dropWhile (fun t => strcmp t p = .lt)

/-- The loop of `_notmuch_database_get_terms_with_prefix`, lib/database.cc:1541-1547. -/
def collect (p : Str) : List Str → List Str × List Str
  | [] => ([], [])
  | t :: it => if p.isPrefixOf t then ((t.drop p.length) :: (collect p it).1, (collect p it).2) else ([], t :: it)

/-- `_notmuch_database_get_terms_with_prefix`, lib/database.cc:1529-1550: the list and the iterator after it. -/
def getTermsWithPrefix (p : Str) (it : List Str) : List Str × List Str := collect p (skipTo p it)

/-- `_notmuch_message_get_term`, lib/message.cc:311-342. -/
def getTerm (p : Str) (it : List Str) : Option Str × List Str :=
  match skipTo p it with
  | [] => (none, [])
  | t :: rest => (if p.isPrefixOf t then some (t.drop p.length) else none, t :: rest)

/-- The lazily read fields of `struct _notmuch_message`, lib/message.cc:27-60; `none` is NULL (for `ghost`: the
bit in `lazy_flags` is not set). -/
structure Metadata where
  threadId : Option Str
  tagList : Option (List Str)
  messageId : Option Str
  ghost : Option Bool
  filenameTermList : Option (List Str)
  propertyTermList : Option (List Str)
  referenceList : Option (List Str)
  inReplyTo : Option Str

/-- A message whose fields were not read. -/
def Metadata.empty : Metadata := ⟨none, none, none, none, none, none, none, none⟩

/-- `i.skip_to (type_prefix)` and the tests after it, lib/message.cc:390-400: `none` if it is neither or there
is no term (there, the end is dereferenced). -/
def readGhost (it : List Str) : Option Bool :=
  match skipTo (bs "T") it with
  | [] => none
  | t :: _ => if t = bs "Tmail" then some false else if t = bs "Tghost" then some true else none

/-- Reading a list of terms unless it is there already: lib/message.cc:375-381, 406-427. -/
def readList (p : Str) (old : Option (List Str)) (it : List Str) : Option (List Str) × List Str :=
  match old with
  | some l => (some l, it)
  | none => (some (getTermsWithPrefix p it).1, (getTermsWithPrefix p it).2)

/-- Reading one term unless it is there already: lib/message.cc:369-371, 384-387, 430-432. -/
def readOne (p : Str) (old : Option Str) (it : List Str) : Option Str × List Str :=
  match old with
  | some v => (some v, it)
  | none => getTerm p it

/-- `_notmuch_message_ensure_metadata`, lib/message.cc:344-452: `none` for `INTERNAL_ERROR`.  The list of tags is
sorted afterwards (`sortTags`). -/
def ensureMetadata (sortTags : List Str → List Str) (terms : List Str) (m : Metadata) : Option Metadata :=
  let (threadId, it) := readOne (bs "G") m.threadId terms
  let (tags, it) := readList (bs "K") m.tagList it
  let tags := if m.tagList = none then tags.map sortTags else tags
  let (messageId, it) := readOne (bs "Q") m.messageId it
  match (if m.ghost = none then readGhost it else m.ghost) with
  | none => none
  | some g =>
    let it := if m.ghost = none then skipTo (bs "T") it else it
    let (files, it) := readList (bs "XFDIRENTRY") m.filenameTermList it
    let (props, it) := readList (bs "XPROPERTY") m.propertyTermList it
    let (refs, it) := readList (bs "XREFERENCE") m.referenceList it
    let (reply, _) := readOne (bs "XREPLYTO") m.inReplyTo it
    some ⟨threadId, tags, messageId, some g, files, props, refs, some (reply.getD [])⟩

/-- `Document::add_term`. -/
def addTerm (t : Str) : List Str → List Str
  | [] => [t]
  | x :: xs => if strcmp t x = .lt then t :: x :: xs else if strcmp t x = .eq then x :: xs else x :: addTerm t xs

/-- `Document::remove_term` (an exception for a term that is not there is ignored). -/
def removeTerm (t : Str) (terms : List Str) : List Str := terms.filter (fun x => x ≠ t)

/-- The loop of `_notmuch_message_remove_terms`, lib/message.cc:706-721; `none` if it does not end. -/
def removeTerms (p : Str) : Nat → List Str → Option (List Str)
  | 0, _ => none
  | fuel + 1, terms =>
    match skipTo p terms with
    | [] => some terms
    | t :: _ => if p.isPrefixOf t then removeTerms p fuel (removeTerm t terms) else some terms

/-- `strchr (s, '=')` and the split there, lib/message.cc:2205-2211. -/
def splitProperty (s : Str) : Option Pair :=
  match s.dropWhile (fun c => c ≠ 61) with
  | [] => none
  | _ :: v => some (s.takeWhile (fun c => c ≠ 61), v)

/-- The loop of `_notmuch_message_ensure_property_map`, lib/message.cc:2199-2215; `none` is `INTERNAL_ERROR`. -/
def propertyMap : List Str → Map → Option Map
  | [], m => some m
  | s :: ss, m =>
    match splitProperty s with
    | none => none
    | some (k, v) => propertyMap ss (StringMap.append m k v)

/-- The tags that indexing sets itself, lib/message.cc:763-765. -/
def automaticTag (t : Str) : Bool := t = bs "encrypted" || t = bs "signed" || t = bs "attachment"

/-- `_notmuch_message_remove_indexed_terms`, lib/message.cc:731-786; `properties` are what the iterator over the
properties shows. -/
def removeIndexedTerms (messageId : Str) (tags : List Str) (properties : List Pair) : List Str :=
  let d := addTerm (bs "T" ++ bs "mail") []
  let d := addTerm (bs "Q" ++ messageId) d
  let d := (tags.filter (fun t => !automaticTag t)).foldl (fun d t => addTerm (bs "K" ++ t) d) d
  properties.foldl (fun d p => addTerm (bs "XPROPERTY" ++ p.1 ++ bs "=" ++ p.2) d) d

/-- The result of `_notmuch_message_modify_property`, lib/message-property.cc:78-121. -/
inductive PropertyResult
  | ok (terms : List Str)
  | illegalArgument
  | abort

/-- `_notmuch_message_modify_property`, lib/message-property.cc:78-121, of a writable database and with key and
value: `COERCE_STATUS` of a term that is too long ends the process. -/
def modifyProperty (terms : List Str) (key value : Str) (delete : Bool) : PropertyResult :=
  if 61 ∈ key then .illegalArgument
  else
    let term := bs "XPROPERTY" ++ (key ++ bs "=" ++ value)
    if term.length > 245 then .abort
    else if delete then .ok (removeTerm term terms) else .ok (addTerm term terms)

/-- `_notmuch_message_remove_all_properties`, lib/message-property.cc:135-167. -/
def removeAllProperties (terms : List Str) (key : Option Str) (pre : Bool) : Option (List Str) :=
  let p := match key with
    | some k => bs "XPROPERTY" ++ k ++ (if pre then [] else bs "=")
    | none => bs "XPROPERTY"
  removeTerms p (terms.length + 1) terms

/-- The map of the properties of a message, read from its terms: `_notmuch_message_property_map`,
lib/message.cc:2189-2227. -/
def messageProperties (terms : List Str) : Option Map := propertyMap (getTermsWithPrefix (bs "XPROPERTY") terms).1 StringMap.create

end Notmuch.TermList
