import Verif.Model.Git

/-!
# What notmuch-git is for
-/

namespace Notmuch.GitSpec
open Notmuch.Git

/-- The message `id` is in the database. -/
def Known (db : Db) (id : Str) : Prop := ∃ m ∈ db.msgs, m.id = id

/-- The message `id` is in the database and has the tag. -/
def Has (db : Db) (id tag : Str) : Prop := ∃ m ∈ db.msgs, m.id = id ∧ tag ∈ m.tags

/-- The tree has the file of this message and this tag (the prefix is not part of the file's name). -/
def InTree (E : Env) (tree : List Str) (id tag : Str) : Prop := tagPath E id tag ∈ tree

/-- The database `d'` is what became of `d`: no message was removed, and what was changed or added got a revision that `d` did not have. -/
structure Later (d d' : Db) : Prop where
  uuid : d'.uuid = d.uuid
  rev : d.rev ≤ d'.rev
  keeps : ∀ m ∈ d.msgs, Known d' m.id
  touched : ∀ m ∈ d'.msgs, m.lastmod ≤ d.rev → m ∈ d.msgs

/-- There is one message with an id. -/
def Unique (db : Db) : Prop := ∀ m ∈ db.msgs, ∀ m' ∈ db.msgs, m.id = m'.id → m = m'

/-- An id that survives the dump being read line by line: no ASCII character that Python takes for the end of a line, and not the separator. -/
def ReadableId (id : Str) : Prop :=
  (∀ c ∈ id, ¬ (10 ≤ c ∧ c ≤ 13) ∧ ¬ (28 ≤ c ∧ c ≤ 30)) ∧ ¬ bs " -- id:" <:+: id

/-- A database that can be kept in a repository: ids are unique and readable, git accepts the files'
names, and there is a UUID. -/
structure Regular (E : Env) (db : Db) : Prop where
  unique : Unique db
  readable : ∀ m ∈ db.msgs, ReadableId m.id
  paths : ∀ m ∈ db.msgs, ∀ t, E.pre ++ t ∈ m.tags → E.verify (tagPath E m.id t) = true
  revs : ∀ m ∈ db.msgs, m.lastmod ≤ db.rev
  uuid : db.uuid ≠ []

/-- What is assumed of git and of the hash: the tree of a commit is the one it was made of, different
indexes have different checksums, and the hash is written as two hexadecimal digits twice. -/
structure Sane (E : Env) : Prop where
  tree : ∀ t h, E.tree (E.commitTree t h) = t
  sum : ∀ x y, E.sum x = E.sum y → x = y
  hash : ∀ s, isHexDir (E.hash s).1 = true ∧ isHexDir (E.hash s).2 = true

/-- A tree that notmuch-git wrote: what is below `tags/` are files of messages and tags. -/
def Canonical (E : Env) (tree : List Str) : Prop :=
  ∀ p ∈ tree, (∃ id t, p = tagPath E id t) ∨ (∃ d, 47 ∉ d ∧ d ≠ bs "tags" ∧ (p = d ∨ ∃ r, p = d ++ 47 :: r))

/-- A tag that `notmuch tag --batch` can take away: not too long, not `-`, and neither its first nor its
last byte a slash (C12). -/
def Removable (t : Str) : Prop := 0 ∉ t ∧ t.length ≤ 200 ∧ t ≠ [45] ∧ t.head? ≠ some 47 ∧ t.getLast? ≠ some 47

/-- A tag that it can give: besides, not empty and not beginning with `-`. -/
def Addable (t : Str) : Prop := Removable t ∧ t ≠ [] ∧ t.head? ≠ some 45

/-- The index is the database's tags with the prefix `pre`: nothing more and nothing less. -/
def Represents (E : Env) (pre : Str) (idx : List Str) (db : Db) : Prop :=
  ∀ p, p ∈ idx ↔ ∃ id t, Has db id (pre ++ t) ∧ p = tagPath E id t

/-- A cache file that was written by a run of notmuch-git, with whatever prefix, at some time in the
history of the database. -/
def Honest (E : Env) (c : Option Cache) (db : Db) : Prop :=
  ∀ x, c = some x → ∃ idx d, x.checksum = some (E.sum idx) ∧ Represents E x.pre idx d ∧ Unique d ∧ d.uuid = x.uuid ∧ d.rev = x.lastmod ∧ Later d db

/-- What the status must be, given the tree of `HEAD`. -/
structure Right (E : Env) (tree : List Str) (db : Db) (st : Status) : Prop where
  added : ∀ id t, (id, t) ∈ st.added ↔ Has db id (E.pre ++ t) ∧ ¬ InTree E tree id t
  deleted : ∀ id t, (id, t) ∈ st.deleted ↔ InTree E tree id t ∧ Known db id ∧ ¬ Has db id (E.pre ++ t)
  missing : ∀ id t, (id, t) ∈ st.missing ↔ InTree E tree id t ∧ ¬ Known db id

/-- The cache of the main index is honest: the index with this checksum is the tree of this commit. -/
def HonestMain (E : Env) (c : Option (Str × Option Str)) : Prop :=
  ∀ h s, c = some (h, some s) → ∃ idx, s = E.sum idx ∧ ∀ p, p ∈ idx ↔ p ∈ E.tree h

/-- What may happen to a repository and a database, one after the other, from the time the repository was
made: anything may happen to the index files (a run may be interrupted, too) and to `HEAD`, cache files
may be lost, the database goes on, and notmuch-git is run, with this prefix or another one. -/
inductive History (E : Env) : Repo → Db → Prop
  | start {r db} : r.cache = none → r.mcache = none → History E r db
  | database {r d d'} : History E r d → Later d d' → History E r d'
  | files {r d} (idx main : Option (List Str)) : History E r d → History E { r with idx := idx, main := main } d
  | head {r d} (h : Str) : History E r d → History E { r with head := h } d
  | lost {r d} : History E r d → History E { r with cache := none } d
  | lostMain {r d} : History E r d → History E { r with mcache := none } d
  | status {r d r' st} (p : Str) : History E r d → 126 ∉ p → Regular { E with pre := p } d →
      getStatus { E with pre := p } r d d = some (r', st) → History E r' d
  | commit {r d r' e} (p : Str) (force : Bool) : History E r d → 126 ∉ p → Regular { E with pre := p } d →
      commit { E with pre := p } r d force = some (r', e) → History E r' d

end Notmuch.GitSpec
