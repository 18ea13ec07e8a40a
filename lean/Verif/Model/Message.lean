import Verif.Model.TermList
import Verif.Model.Maildir
import Verif.Model.Directory
import Verif.Spec.StringMap

/-!
# lib/message.cc, lib/message-property.cc: a message object and what it remembers

A message object has its own copy of the document (`terms`, `data`), and remembers what it read from it.  The document of the database is `stored`.
Xapian's exceptions are not modelled, except that of the document of a directory that is not there; neither are `DatabaseModifiedError` and running out of memory.
`none` is the end of the process (`INTERNAL_ERROR`, `COERCE_STATUS`, a NULL pointer, an exception that nothing catches).
-/

namespace Notmuch.Message

open Notmuch.TermList
open Notmuch.StringMap (Pair Map)
open Notmuch.StringMapSpec (walk)

/-- What a message object needs: `_notmuch_string_list_sort`, `qsort`, the mail root, the path of a directory by its id (`none`: an exception),
and the `folder:` and `path:` terms of a directory (lib/message.cc:796-887, Model/Directory.lean). -/
structure World where
  sortTags : List Str → List Str
  qs : List Pair → List Pair
  root : Str
  dir : Nat → Option Str
  folder : Str → Str
  paths : Str → List Str

/-- `struct _notmuch_message`, lib/message.cc:28-60, with the fields of the database that matter (`writable`, `view`, and the document that is stored).
`frozen` and `modified` as there; `mflags` is `maildir_flags`. -/
structure Handle where
  writable : Bool
  view : Nat
  stored : List Str
  terms : List Str
  data : Str
  frozen : Nat
  modified : Bool
  lastView : Nat
  md : Metadata
  files : Option (List Str)
  props : Option Map
  mflags : Option Str

/-- `_notmuch_message_create_for_document`, lib/message.cc:107-174. -/
def create (writable : Bool) (view : Nat) (terms : List Str) (data : Str) : Handle :=
  { writable := writable, view := view, stored := terms, terms := terms, data := data, frozen := 0, modified := false, lastView := 0,
    md := .empty, files := none, props := none, mflags := none }

/-- What `_notmuch_message_ensure_metadata` does not read again: the terms of the files if the list of the files is there, those of the properties if the map
of the properties is (lib/message.cc:410, 418). -/
def known (h : Handle) : Metadata :=
  { h.md with filenameTermList := if h.files.isSome then some [] else h.md.filenameTermList
              propertyTermList := if h.props.isSome then some [] else h.md.propertyTermList }

/-- `_notmuch_message_ensure_metadata`, lib/message.cc:344-452; `field` tells whether the pointer is not NULL. -/
def ensure (W : World) (field : Bool) (h : Handle) : Option Handle :=
  if field && decide (h.lastView ≥ h.view) then some h
  else
    match ensureMetadata W.sortTags h.terms (known h) with
    | none => none
    | some m =>
      some { h with
        md := { m with filenameTermList := if h.files.isSome then h.md.filenameTermList else m.filenameTermList
                       propertyTermList := if h.props.isSome then h.md.propertyTermList else m.propertyTermList }
        lastView := h.view }

/-- `_notmuch_message_invalidate_metadata`, lib/message.cc:454-498. -/
def invalidate (name : Str) (h : Handle) : Handle :=
  let h := if name = bs "thread" then { h with md := { h.md with threadId := none } } else h
  let h := if name = bs "tag" then { h with md := { h.md with tagList := none } } else h
  let h := if name = bs "type" then { h with md := { h.md with ghost := none } } else h
  let h := if name = bs "file-direntry" then { h with md := { h.md with filenameTermList := none }, files := none } else h
  let h := if name = bs "property" then { h with md := { h.md with propertyTermList := none }, props := none } else h
  if name = bs "replyto" then { h with md := { h.md with inReplyTo := none } } else h

/-- `_find_prefix`: a name that is not there ends the process. -/
def prefixOf (name : Str) : Str := ((findPrefix name).getD none).getD []

/-- `_notmuch_message_add_term`, lib/message.cc:1507-1540: `none` for `TERM_TOO_LONG`. -/
def addTermTo (name value : Str) (h : Handle) : Option Handle :=
  let term := prefixOf name ++ value
  if term.length > 245 then none
  else some (invalidate name { h with terms := addTerm term h.terms, modified := true })

/-- `_notmuch_message_remove_term`, lib/message.cc:1583-1616: `none` for `TERM_TOO_LONG`. -/
def removeTermFrom (name value : Str) (h : Handle) : Option Handle :=
  let term := prefixOf name ++ value
  if term.length > 245 then none
  else some (invalidate name { h with terms := removeTerm term h.terms, modified := h.modified || decide (term ∈ h.terms) })

/-- `_notmuch_message_remove_terms`, lib/message.cc:699-725; the loop ends (`removeTerms`). -/
def removeTermsFrom (pre : Str) (h : Handle) : Option Handle :=
  match removeTerms pre (h.terms.length + 1) h.terms with
  | none => none
  | some terms => some (invalidate (bs "property") { h with terms := terms, modified := h.modified || decide (terms ≠ h.terms) })

/-- `_notmuch_message_sync`, lib/message.cc:1349-1377. -/
def sync (h : Handle) : Handle :=
  if h.writable = false then h else if h.modified = false then h else { h with stored := h.terms, modified := false }

/-- `if (! message->frozen) _notmuch_message_sync (message)`, lib/message.cc:1673, lib/message-property.cc:115. -/
def syncUnlessFrozen (h : Handle) : Handle := if h.frozen = 0 then sync h else h

/-- How the expansion of the terms of the files ends. -/
inductive Expanded
  | all (files : List Str)
  | exception (files : List Str)
  | malformed

/-- The name of a file, lib/message.cc:1126-1134. -/
def filename (W : World) (directory base : Str) : Str :=
  if directory ≠ [] then W.root ++ [47] ++ directory ++ [47] ++ base else W.root ++ [47] ++ base

/-- The loop of `_notmuch_message_ensure_filename_list`, lib/message.cc:1106-1139; `acc` is the list so far. -/
def expand (W : World) : List Str → List Str → Expanded
  | [], acc => .all acc
  | e :: es, acc =>
    match Directory.parseDirentry e with
    | none => .malformed
    | some (id, base) =>
      match W.dir id with
      | none => .exception acc
      | some directory => expand W es (acc ++ [filename W directory base])

/-- `_notmuch_message_ensure_filename_list`, lib/message.cc:1078-1147, and whether there was no exception. -/
def ensureFiles (W : World) (h : Handle) : Option (Handle × Bool) :=
  if h.files.isSome then some (h, true)
  else
    match ensure W h.md.filenameTermList.isSome h with
    | none => none
    | some h =>
      match h.md.filenameTermList with
      | none => none
      | some [] => some ({ h with files := some [h.data] }, true)
      | some ds =>
        match expand W ds [] with
        | .malformed => none
        | .exception fs => some ({ h with files := some fs }, false)
        | .all fs => some ({ h with files := some fs, md := { h.md with filenameTermList := none } }, true)

/-- `_notmuch_message_ensure_property_map`, lib/message.cc:2188-2218. -/
def ensureProps (W : World) (h : Handle) : Option (Handle × Map) :=
  match h.props with
  | some m => some (h, m)
  | none =>
    match ensure W h.md.propertyTermList.isSome h with
    | none => none
    | some h =>
      match h.md.propertyTermList with
      | none => none
      | some ts =>
        match propertyMap ts StringMap.create with
        | none => none
        | some m => some ({ h with props := some m, md := { h.md with propertyTermList := none } }, m)

/-- `notmuch_status_t`, as far as it occurs here. -/
inductive Status
  | success | readOnly | tagTooLong | illegalArgument | unbalancedFreezeThaw | pathError | xapianException
  deriving DecidableEq

/-- What a call gives; `null` is NULL, or -1 for a number. -/
inductive Result
  | status (s : Status)
  | text (s : Str)
  | texts (l : List Str)
  | pairs (l : List Pair)
  | value (v : Option Str)
  | number (n : Nat)
  | bool (b : Bool)
  | null

/-- The calls. -/
inductive Call
  | messageId | threadId | tags | filename | filenames | countFiles | isGhost | maildirFlag (flag : UInt8)
  | property (key : Str) | countProperties (key : Str) | properties (key : Str) (exact : Bool)
  | addTag (t : Str) | removeTag (t : Str) | removeAllTags
  | addProperty (key value : Str) | removeProperty (key value : Str) | removeAllProperties (key : Option Str) (pre : Bool)
  | freeze | thaw | flagsToTags
  | moveFile (old new : Str)
  | reopen

/-- `notmuch_message_get_message_id`, lib/message.cc:506-521. -/
def getMessageId (W : World) (h : Handle) : Option (Handle × Result) :=
  match ensure W h.md.messageId.isSome h with
  | none => none
  | some h => match h.md.messageId with
    | none => none
    | some s => some (h, .text s)

/-- `notmuch_message_get_thread_id`, lib/message.cc:592-606. -/
def getThreadId (W : World) (h : Handle) : Option (Handle × Result) :=
  match ensure W h.md.threadId.isSome h with
  | none => none
  | some h => match h.md.threadId with
    | none => none
    | some s => some (h, .text s)

/-- `notmuch_message_get_tags`, lib/message.cc:1261-1285, and the list that the iterator shows. -/
def getTags (W : World) (h : Handle) : Option (Handle × List Str) :=
  match ensure W h.md.tagList.isSome h with
  | none => none
  | some h => match h.md.tagList with
    | none => none
    | some l => some (h, l)

/-- `notmuch_message_get_filename`, lib/message.cc:1149-1168: an empty list ends the process. -/
def getFilename (W : World) (h : Handle) : Option (Handle × Result) :=
  match ensureFiles W h with
  | none => none
  | some (h, false) => some (h, .null)
  | some (h, true) => match h.files with
    | some (f :: _) => some (h, .text f)
    | _ => none

/-- `notmuch_message_get_filenames`, lib/message.cc:1170-1181, and the list that the iterator shows. -/
def getFilenames (W : World) (h : Handle) : Option (Handle × Option (List Str)) :=
  match ensureFiles W h with
  | none => none
  | some (h, false) => some (h, none)
  | some (h, true) => some (h, h.files)

/-- `notmuch_message_count_files`, lib/message.cc:1183-1194. -/
def countFiles (W : World) (h : Handle) : Option (Handle × Result) :=
  match getFilenames W h with
  | none => none
  | some (h, some l) => some (h, .number l.length)
  | some (h, none) => some (h, .null)

/-- `notmuch_message_get_flag_st` of `NOTMUCH_MESSAGE_FLAG_GHOST`, lib/message.cc:1196-1216. -/
def isGhost (W : World) (h : Handle) : Option (Handle × Result) :=
  match (if h.md.ghost = none then ensure W false h else some h) with
  | none => none
  | some h => match h.md.ghost with
    | none => none
    | some b => some (h, .bool b)

/-- `_ensure_maildir_flags`, lib/message.cc:1761-1806, and whether there was no exception.  What was there stays if no file has maildir information. -/
def ensureMaildirFlags (W : World) (force : Bool) (h : Handle) : Option (Handle × Bool) :=
  let h := if force then { h with mflags := none } else h
  match getFilenames W h with
  | none => none
  | some (h, none) => some (h, false)
  | some (h, some l) =>
    match Maildir.combinedFlags l with
    | none => some (h, true)
    | some fl => some ({ h with mflags := some fl }, true)

/-- `notmuch_message_has_maildir_flag_st`, lib/message.cc:1821-1837; `strchr` finds the NUL. -/
def hasMaildirFlag (W : World) (flag : UInt8) (h : Handle) : Option (Handle × Result) :=
  match ensureMaildirFlags W false h with
  | none => none
  | some (h, false) => some (h, .status .xapianException)
  | some (h, true) => some (h, .bool (match h.mflags with
    | none => false
    | some fl => decide (flag ∈ fl ++ [0])))

/-- `notmuch_message_get_property`, lib/message-property.cc:41-50. -/
def getProperty (W : World) (key : Str) (h : Handle) : Option (Handle × Result) :=
  match ensureProps W h with
  | none => none
  | some (h, m) => match StringMap.get W.qs m key with
    | none => none
    | some (m, v) => some ({ h with props := some m }, .value v)

/-- `notmuch_message_get_properties`, lib/message-property.cc:183-190, and the pairs that the iterator shows. -/
def getProperties (W : World) (key : Str) (exact : Bool) (h : Handle) : Option (Handle × List Pair) :=
  match ensureProps W h with
  | none => none
  | some (h, m) => match StringMap.iterCreate W.qs m key exact with
    | none => none
    | some (m, it) => some ({ h with props := some m }, walk m (m.pairs.length + 1) it)

/-- `notmuch_message_add_tag`, lib/message.cc:1648-1680. -/
def addTag (t : Str) (h : Handle) : Option (Handle × Status) :=
  if h.writable = false then some (h, .readOnly)
  else if t.length > 200 then some (h, .tagTooLong)
  else match addTermTo (bs "tag") t h with
    | none => none
    | some h => some (syncUnlessFrozen h, .success)

/-- `notmuch_message_remove_tag`, lib/message.cc:1682-1713. -/
def removeTag (t : Str) (h : Handle) : Option (Handle × Status) :=
  if h.writable = false then some (h, .readOnly)
  else if t.length > 200 then some (h, .tagTooLong)
  else match removeTermFrom (bs "tag") t h with
    | none => none
    | some h => some (syncUnlessFrozen h, .success)

/-- The loop of `notmuch_message_remove_all_tags`, lib/message.cc:2122-2133. -/
def removeTags : List Str → Handle → Option Handle
  | [], h => some h
  | t :: ts, h => match removeTermFrom (bs "tag") t h with
    | none => none
    | some h => removeTags ts h

/-- `notmuch_message_remove_all_tags`, lib/message.cc:2108-2140. -/
def removeAllTags (W : World) (h : Handle) : Option (Handle × Status) :=
  if h.writable = false then some (h, .readOnly)
  else match getTags W h with
    | none => none
    | some (h, l) => match removeTags l h with
      | none => none
      | some h => some (syncUnlessFrozen h, .success)

/-- `_notmuch_message_modify_property`, lib/message-property.cc:78-121, with key and value. -/
def modifyProperty (key value : Str) (delete : Bool) (h : Handle) : Option (Handle × Status) :=
  if h.writable = false then some (h, .readOnly)
  else if 61 ∈ key then some (h, .illegalArgument)
  else match (if delete then removeTermFrom (bs "property") (key ++ bs "=" ++ value) h else addTermTo (bs "property") (key ++ bs "=" ++ value) h) with
    | none => none
    | some h => some (syncUnlessFrozen h, .success)

/-- `_notmuch_message_remove_all_properties`, lib/message-property.cc:135-167. -/
def removeAllProperties (key : Option Str) (pre : Bool) (h : Handle) : Option (Handle × Status) :=
  if h.writable = false then some (h, .readOnly)
  else
    let p := match key with
      | some k => prefixOf (bs "property") ++ k ++ (if pre then [] else bs "=")
      | none => prefixOf (bs "property")
    match removeTermsFrom p h with
    | none => none
    | some h => some (syncUnlessFrozen h, .success)

/-- `notmuch_message_freeze`, lib/message.cc:2142-2154. -/
def freeze (h : Handle) : Handle × Status :=
  if h.writable = false then (h, .readOnly) else ({ h with frozen := h.frozen + 1 }, .success)

/-- `notmuch_message_thaw`, lib/message.cc:2156-2173. -/
def thaw (h : Handle) : Handle × Status :=
  if h.writable = false then (h, .readOnly)
  else if h.frozen > 0 then
    ((if h.frozen - 1 = 0 then sync { h with frozen := h.frozen - 1 } else { h with frozen := h.frozen - 1 }), .success)
  else (h, .unbalancedFreezeThaw)

/-- The loop of `notmuch_message_maildir_flags_to_tags`, lib/message.cc:1857-1870; the flags are those from before. -/
def setTags (fl : Str) : List Maildir.FlagTag → Handle → Option (Handle × Status)
  | [], h => some (h, .success)
  | e :: es, h =>
    match (if xor (decide (e.flag ∈ fl)) e.inverse then addTag e.tag h else removeTag e.tag h) with
    | none => none
    | some (h, .success) => setTags fl es h
    | some (h, s) => some (h, s)

/-- `notmuch_message_maildir_flags_to_tags`, lib/message.cc:1839-1873. -/
def flagsToTags (W : World) (h : Handle) : Option (Handle × Status) :=
  match ensureMaildirFlags W true h with
  | none => none
  | some (h, false) => some (h, .xapianException)
  | some (h, true) =>
    match h.mflags with
    | none => some (h, .success)
    | some fl =>
      match freeze h with
      | (h, .success) => match setTags fl Maildir.flag2tag h with
        | none => none
        | some (h, .success) => some (thaw h)
        | some (h, s) => some (h, s)
      | (h, s) => some (h, s)

/-- Adding the `folder:` and `path:` terms of a directory, lib/message.cc:796-887; a term that is too long ends the process. -/
def addDirTerms (W : World) (directory : Str) (h : Handle) : Option Handle :=
  match addTermTo (bs "folder") (W.folder directory) h with
  | none => none
  | some h => (W.paths directory).foldl (fun (h : Option Handle) p => h.bind (addTermTo (bs "path") p)) (some h)

/-- The loop of `_notmuch_message_add_directory_terms`, lib/message.cc:898-932; nothing catches the exception. -/
def addAllDirTerms (W : World) : List Str → Handle → Option Handle
  | [], h => some h
  | e :: es, h =>
    match Directory.parseDirentry e with
    | none => none
    | some (id, _) => match W.dir id with
      | none => none
      | some directory => match addDirTerms W directory h with
        | none => none
        | some h => addAllDirTerms W es h

/-- `_notmuch_message_remove_filename`, lib/message.cc:1006-1047, of a file with an entry. -/
def removeFilename (W : World) (entry : Str) (h : Handle) : Option Handle :=
  match removeTermFrom (bs "file-direntry") entry h with
  | none => none
  | some h => match removeTermsFrom (prefixOf (bs "folder")) h with
    | none => none
    | some h => match removeTermsFrom (prefixOf (bs "path")) h with
      | none => none
      | some h => addAllDirTerms W (getTermsWithPrefix (prefixOf (bs "file-direntry")) h.terms).1 h

/-- `_notmuch_message_add_filename`, lib/message.cc:941-994, of a file with an entry and whether the entry was not too long. -/
def addFilename (W : World) (entry : Str) (h : Handle) : Option (Handle × Bool) :=
  match addTermTo (bs "file-direntry") entry h with
  | none => some (h, false)
  | some h =>
    match Directory.parseDirentry entry with
    | none => none
    | some (id, _) => match W.dir id with
      | none => none
      | some directory => match addDirTerms W directory h with
        | none => none
        | some h => some (h, true)

/-- `notmuch_message_tags_to_maildir_flags` after a file was renamed, lib/message.cc:2081-2101; `old` and `new` are the entries of the names. -/
def moveFile (W : World) (old new : Str) (h : Handle) : Option (Handle × Status) :=
  if h.writable = false then some (h, .readOnly)
  else match removeFilename W old h with
    | none => none
    | some h => match addFilename W new h with
      | none => none
      | some (h, false) => some (h, .pathError)
      | some (h, true) => some (sync h, .success)

/-- The result of a call that gives a status. -/
def withStatus (r : Option (Handle × Status)) : Option (Handle × Result) := r.map (fun r => (r.1, .status r.2))

/-- One call.  `reopen` is `notmuch_database_reopen` (lib/open.cc:841-887), as far as the message is concerned. -/
def call (W : World) (h : Handle) : Call → Option (Handle × Result)
  | .messageId => getMessageId W h
  | .threadId => getThreadId W h
  | .tags => (getTags W h).map (fun r => (r.1, .texts r.2))
  | .filename => getFilename W h
  | .filenames => (getFilenames W h).map (fun r => (r.1, (r.2.map Result.texts).getD .null))
  | .countFiles => countFiles W h
  | .isGhost => isGhost W h
  | .maildirFlag f => hasMaildirFlag W f h
  | .property k => getProperty W k h
  | .countProperties k => (getProperties W k true h).map (fun r => (r.1, .number r.2.length))
  | .properties k e => (getProperties W k e h).map (fun r => (r.1, .pairs r.2))
  | .addTag t => withStatus (addTag t h)
  | .removeTag t => withStatus (removeTag t h)
  | .removeAllTags => withStatus (removeAllTags W h)
  | .addProperty k v => withStatus (modifyProperty k v false h)
  | .removeProperty k v => withStatus (modifyProperty k v true h)
  | .removeAllProperties k p => withStatus (removeAllProperties k p h)
  | .freeze => some ((freeze h).1, .status (freeze h).2)
  | .thaw => some ((thaw h).1, .status (thaw h).2)
  | .flagsToTags => withStatus (flagsToTags W h)
  | .moveFile o n => withStatus (moveFile W o n h)
  | .reopen => some ({ h with view := h.view + 1 }, .status .success)

/-- A sequence of calls. -/
def run (W : World) : Handle → List Call → Option (Handle × List Result)
  | h, [] => some (h, [])
  | h, c :: cs =>
    match call W h c with
    | none => none
    | some (h, r) => match run W h cs with
      | none => none
      | some (h, rs) => some (h, r :: rs)

end Notmuch.Message
