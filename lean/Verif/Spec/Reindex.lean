import Verif.Model.Reindex
import Verif.Spec.Message

/-!
# Specification: reindexing a message (C63)

After reindexing, the document of a message is what its files say now, with the tags and properties of the user; nothing else is left of what it was.
-/

namespace Notmuch.Reindex

open Notmuch.TermList
open Notmuch.Message (World Msg nameOf FileNames)

/-- The tags that indexing sets. -/
def automatic : List Str := [bs "encrypted", bs "signed", bs "attachment"]

/-- The term that is added. -/
def Add.gives : Add → Str → Prop
  | .term n v, x => x = Message.prefixOf n ++ v ∧ x.length ≤ 245
  | .text w, x => x = w
  | .prop k v, x => x = bs "XPROPERTY" ++ k ++ bs "=" ++ v

/-- The terms that a file gives: its entry, those of its directory, of its links, of its thread (that of the message before if it has none), and of its text. -/
def Mail.gives (W : World) (orig : Str) (m : Mail) (x : Str) : Prop :=
  (∃ id base d, m.entry = dec id ++ bs ":" ++ base ∧ W.dir id = some d ∧ (x = bs "XFDIRENTRY" ++ m.entry ∨ x = bs "XFOLDER:" ++ W.folder d ∨ ∃ p ∈ W.paths d, x = bs "P" ++ p)) ∨
  (∃ l ∈ m.links, x = Message.prefixOf l.1 ++ l.2 ∧ x.length ≤ 245) ∨
  x = bs "G" ++ m.thread.getD orig ∨
  ∃ a ∈ m.index, a.gives x

/-- Nothing about the file ends the process, and the tags that indexing sets are not too long. -/
structure Mail.Ok (W : World) (m : Mail) : Prop where
  entry : m.entry.length ≤ 235
  dir : ∃ f, nameOf W m.entry f
  thread : ∀ t, m.thread = some t → t.length ≤ 244
  terms : ∀ n v, .term n v ∈ m.index → (Message.prefixOf n ++ v).length ≤ 245
  props : ∀ k v, .prop k v ∈ m.index → 61 ∉ k ∧ k.length + v.length ≤ 235

/-- A mail that can be read, or at least its headers. -/
structure Mail.Good (m : Mail) : Prop where
  headers : m.headers = .success
  link : m.linkStatus = .success
  index : m.indexStatus = .success ∨ m.indexStatus = .fileError

/-- The files that can be opened, in order. -/
def opened (files : Str → Option Mail) (names : List Str) : List (Str × Mail) := names.filterMap (fun f => (files f).map (f, ·))

/-- The properties that stay. -/
def kept (noDecrypt : Bool) (m : Msg) (k v : Str) : Prop := m.props k v ∧ ¬ bs "index." <+: k ∧ ¬ (noDecrypt = true ∧ k = bs "session-key")

/-- The document of the message after reindexing. -/
def Wanted (W : World) (noDecrypt : Bool) (m : Msg) (os : List (Str × Mail)) (x : Str) : Prop :=
  x = bs "Tmail" ∨ x = bs "Q" ++ m.id ∨
  (∃ t, m.tags t ∧ t ∉ automatic ∧ x = bs "K" ++ t) ∨
  (∃ k v, kept noDecrypt m k v ∧ x = bs "XPROPERTY" ++ k ++ bs "=" ++ v) ∨
  ∃ o ∈ os, o.2.gives W m.thread x

/-- The words of the file are followed by something that makes notmuch write the document, or there is no property that makes it write the document too early. -/
def Saved (m : Mail) : Prop := (∃ w, m.index.getLast? = some (.text w)) → ∀ k v, .prop k v ∉ m.index

/-- The prefixes of the terms for the id, the thread, the type, the tags, the properties and the files. -/
def reserved : List Str := [bs "Q", bs "G", bs "T", bs "K", bs "XPROPERTY", bs "XFDIRENTRY"]

/-- What is added is a tag, a property, or a term for searching. -/
def Add.Plain : Add → Prop
  | .term n v => n = bs "tag" ∨ ∀ p ∈ reserved, ¬ p <+: Message.prefixOf n ++ v
  | .text w => w.length ≤ 245 ∧ ∀ p ∈ reserved, ¬ p <+: w
  | .prop _ _ => True

/-- A mail of which the index has nothing but tags, properties and terms for searching. -/
structure Mail.Plain (m : Mail) : Prop where
  links : ∀ l ∈ m.links, ∀ p ∈ reserved, ¬ p <+: Message.prefixOf l.1 ++ l.2
  index : ∀ a ∈ m.index, a.Plain

/-- The message after reindexing: its own tags and properties stay, except the automatic ones, and it has the tags and properties that indexing its files gives, and the files
that can be opened. -/
def after (noDecrypt : Bool) (m : Msg) (os : List (Str × Mail)) (thread : Str) : Msg :=
  { m with
    ghost := false
    thread := thread
    tags := fun t => (m.tags t ∧ t ∉ automatic) ∨ ∃ o ∈ os, .term (bs "tag") t ∈ o.2.index
    props := fun k v => kept noDecrypt m k v ∨ ∃ o ∈ os, .prop k v ∈ o.2.index
    files := fun e => ∃ o ∈ os, o.2.entry = e }

end Notmuch.Reindex
