import Verif.Model.TermList

/-!
# notmuch-new.c: scanning the mail store

Paths are lists of names below the mail root (`[]` is the root itself); that names and such paths are turned into
each other faithfully by the library is the subject of C28 and C35.  The file system does not change during a run.
The fields of the state for progress messages and counts are left out.
-/

namespace Notmuch.New
open Notmuch.StringMap (strcmp)

abbrev Path := List Str

/-- What `dirent_type` (notmuch-new.c:177-212) says: `error` is -1. -/
inductive Kind
  | file
  | dir
  | other
  | error
  deriving DecidableEq

/-- The file system: type, names in a directory (`scandir`), `st_mtime` and `st_nlink`. -/
structure Fs where
  kind : Path → Kind
  list : Path → List Str
  mtime : Path → Nat
  nlink : Path → Nat

/-- What `notmuch_database_index_file` does with a file: it is in the database afterwards (success, or a duplicate
message id), it is passed over (not a mail, bad path, vanished), or the error is fatal: notmuch-new.c:376-437. -/
inductive Outcome
  | added
  | skipped
  | fatal
  deriving DecidableEq

/-- What the database knows: the directory documents with their mtimes, and for a directory the names of its
files and of its subdirectories (`notmuch_directory_get_child_files`, `notmuch_directory_get_child_directories`,
lib/directory.cc:264-308: in the order of the terms). -/
structure Db where
  known : Path → Option Nat
  files : Path → List Str
  subdirs : Path → List Str

/-- One change of the database; each is a transaction of its own. -/
inductive Op
  | add (d : Path) (n : Str)
  | removeFile (d : Path) (n : Str)
  | deleteDir (d : Path)
  | setMtime (d : Path) (t : Nat)
  deriving DecidableEq

/-- The entry for a subdirectory in the list of its parent. -/
def addSub (d q : Path) (subs : List Str) : List Str :=
  if q.isPrefixOf d then
    match d.drop q.length with
    | [] => subs
    | c :: _ => TermList.addTerm c subs
  else subs

/-- Adding a file creates the documents of its directory and of the directories above it, with mtime 0:
lib/directory.cc:111-217 (`findOrCreate` of the model `Directory`). -/
def Db.addFile (db : Db) (d : Path) (n : Str) : Db where
  known q := if q.isPrefixOf d then some ((db.known q).getD 0) else db.known q
  files q := if q = d then TermList.addTerm n (db.files q) else db.files q
  subdirs q := addSub d q (db.subdirs q)

/-- `notmuch_database_remove_message` for one file. -/
def Db.removeFile (db : Db) (d : Path) (n : Str) : Db :=
  { db with files := fun q => if q = d then (db.files q).filter (· ≠ n) else db.files q }

/-- `notmuch_directory_delete`, lib/directory.cc:310-331: the entry in the parent is a term of the document itself. -/
def Db.deleteDir (db : Db) (d : Path) : Db where
  known q := if q = d then none else db.known q
  files := db.files
  subdirs q := (db.subdirs q).filter (fun c => q ++ [c] ≠ d)

/-- `notmuch_directory_set_mtime`. -/
def Db.setMtime (db : Db) (d : Path) (t : Nat) : Db :=
  { db with known := fun q => if q = d then some t else db.known q }

def Db.apply (db : Db) : Op → Db
  | .add d n => db.addFile d n
  | .removeFile d n => db.removeFile d n
  | .deleteDir d => db.deleteDir d
  | .setMtime d t => db.setMtime d t

/-- All that a run depends on: `sort` is `scandir` with `dirent_sort_strcmp_name`, `inode` with `dirent_sort_inode`;
`statTime` is the clock after `stat` of a directory; `ignored` is `_entry_in_ignore_list` (notmuch-new.c:335-363). -/
structure Env where
  fs : Fs
  sort : List Str → List Str
  inode : Path → List Str → List Str
  ignored : Path → Str → Bool
  outcome : Path → Str → Outcome
  statTime : Path → Nat
  fullScan : Bool

/-- `add_files_state_t`, the database, the changes made so far, and when SIGINT comes: after how many more tests of
`interrupted` (`none`: never). -/
structure St where
  db : Db
  log : List Op
  removedFiles : List (Path × Str)
  removedDirs : List Path
  mtimes : List (Path × Nat)
  intr : Option Nat

/-- One test of `interrupted`. -/
def check (st : St) : Bool × St :=
  match st.intr with
  | none => (false, st)
  | some 0 => (true, st)
  | some (k + 1) => (false, { st with intr := some k })

def St.op (st : St) (o : Op) : St := { st with db := st.db.apply o, log := st.log ++ [o] }

/-- `_special_directory`, notmuch-new.c:242-246. -/
def special (n : Str) : Bool := n = bs "." || n = bs ".."

/-- The loop of `_entries_resemble_maildir`, notmuch-new.c:221-241. -/
def resembleMaildir (fs : Fs) (path : Path) : List Str → Nat → Bool
  | [], _ => false
  | n :: ns, found =>
    if fs.kind (path ++ [n]) ≠ .dir then resembleMaildir fs path ns found
    else if n = bs "new" ∨ n = bs "cur" ∨ n = bs "tmp" then
      if found + 1 = 3 then true else resembleMaildir fs path ns (found + 1)
    else resembleMaildir fs path ns found

/-- Directories that are passed over: notmuch-new.c:608-614. -/
def skipDir (maildir : Bool) (path : Path) (n : Str) : Bool := (maildir && n = bs "tmp") || (n = bs ".notmuch" && path = [])

/-- Pass 1: notmuch-new.c:573-624.  The result: `none` if a call does not end, else whether there was no error. -/
def pass1 (rec : Path → St → Option (Bool × St)) (E : Env) (path : Path) (maildir : Bool) : List Str → St → Option (Bool × St)
  | [], st => some (true, st)
  | n :: ns, st =>
    if (check st).1 then some (true, (check st).2)
    else if special n then pass1 rec E path maildir ns (check st).2
    else if E.ignored path n then pass1 rec E path maildir ns (check st).2
    else if E.fs.kind (path ++ [n]) = .error then some (false, (check st).2)
    else if E.fs.kind (path ++ [n]) ≠ .dir then pass1 rec E path maildir ns (check st).2
    else if skipDir maildir path n then pass1 rec E path maildir ns (check st).2
    else
      match rec (path ++ [n]) (check st).2 with
      | none => none
      | some (false, st) => some (false, st)
      | some (true, st) => pass1 rec E path maildir ns st

/-- `add_file`, notmuch-new.c:368-444: whether there was no error. -/
def addFile (E : Env) (st : St) (d : Path) (n : Str) : Bool × St :=
  match E.outcome d n with
  | .added => (true, st.op (.add d n))
  | .skipped => (true, st)
  | .fatal => (false, st)

/-- Names of the database before `n`: notmuch-new.c:661-676. -/
def queueFiles (path : Path) (n : Str) (files : List Str) (st : St) : St :=
  { st with removedFiles := st.removedFiles ++ (files.takeWhile (fun f => strcmp f n = .lt)).map (fun f => (path, f)) }

/-- notmuch-new.c:678-694. -/
def queueDirs (path : Path) (n : Str) (subs : List Str) (st : St) : St :=
  { st with removedDirs := st.removedDirs ++ ((subs.takeWhile (fun s => strcmp s n ≠ .gt)).filter (fun s => strcmp s n = .lt)).map (fun s => path ++ [s]) }

/-- What a pass gives: no error, the rest of the files and of the subdirectories of the database, the state. -/
structure Pass2 where
  ok : Bool
  files : List Str
  subs : List Str
  st : St

/-- Pass 2: notmuch-new.c:645-745. -/
def pass2 (E : Env) (path : Path) : List Str → List Str → List Str → St → Pass2
  | [], files, subs, st => ⟨true, files, subs, st⟩
  | n :: ns, files, subs, st0 =>
    if (check st0).1 then ⟨true, files, subs, (check st0).2⟩
    else if special n then pass2 E path ns files subs (check st0).2
    else if E.ignored path n then pass2 E path ns files subs (check st0).2
    else
      let st := queueDirs path n subs (queueFiles path n files (check st0).2)
      let files := files.dropWhile (fun f => strcmp f n = .lt)
      let subs := subs.dropWhile (fun s => strcmp s n ≠ .gt)
      if E.fs.kind (path ++ [n]) = .error then ⟨false, files, subs, st⟩
      else if E.fs.kind (path ++ [n]) ≠ .file then pass2 E path ns files subs st
      else if files.head? = some n then pass2 E path ns files.tail subs st
      else if (addFile E st path n).1 then pass2 E path ns files subs (addFile E st path n).2
      else ⟨false, files, subs, (addFile E st path n).2⟩

/-- What is left is queued, and the mtime if it is not the time of the scan: notmuch-new.c:749-785. -/
def finish (E : Env) (path : Path) (files subs : List Str) (st : St) : St :=
  { st with
    removedFiles := st.removedFiles ++ files.map (fun f => (path, f))
    removedDirs := st.removedDirs ++ subs.map (fun s => path ++ [s])
    mtimes := if E.fs.mtime path ≠ E.statTime path then st.mtimes ++ [(path, E.fs.mtime path)] else st.mtimes }

/-- Pass 2 and what follows: notmuch-new.c:638-785. -/
def scan (E : Env) (path : Path) (isKnown : Bool) (entries : List Str) (st : St) : Bool × St :=
  let r := pass2 E path entries (if isKnown then st.db.files path else []) (if isKnown then st.db.subdirs path else []) st
  if !r.ok then (false, r.st)
  else if (check r.st).1 then (true, (check r.st).2)
  else (true, finish E path r.files r.subs (check r.st).2)

/-- The directory is unchanged and has no subdirectories: notmuch-new.c:526-552. -/
def unchangedLeaf (E : Env) (path : Path) (db : Db) : Bool :=
  !E.fullScan && db.known path = some (E.fs.mtime path) && E.fs.nlink path = 2 && db.subdirs path = []

/-- `scandir`: notmuch-new.c:554-560. -/
def entriesOf (E : Env) (path : Path) (isKnown : Bool) : List Str :=
  if isKnown then E.sort (E.fs.list path) else E.inode path (E.fs.list path)

/-- `add_files`, notmuch-new.c:487-804; `none` if it does not end (the first argument bounds the depth; a loop of
symbolic links). -/
def addFiles (E : Env) : Nat → Path → St → Option (Bool × St)
  | 0, _, _ => none
  | fuel + 1, path, st =>
    if E.fs.kind path ≠ .dir then some (false, st)
    else if unchangedLeaf E path st.db then some (true, st)
    else
      let isKnown := (st.db.known path).isSome
      let entries := entriesOf E path isKnown
      match pass1 (addFiles E fuel) E path (resembleMaildir E.fs path entries 0) entries st with
      | none => none
      | some (false, st1) => some (false, st1)
      | some (true, st1) =>
        if !E.fullScan && st.db.known path = some (E.fs.mtime path) then some (true, st1)
        else some (scan E path isKnown entries st1)

/-- `remove_filename`, notmuch-new.c:944-972. -/
def removeFilename (st : St) (d : Path) (n : Str) : St :=
  if n ∈ st.db.files d then st.op (.removeFile d n) else st

/-- The loop over the subdirectories in `_remove_directory`. -/
def removeSubdirs (rec : Path → St → Option St) (path : Path) : List Str → St → Option St
  | [], st => some st
  | s :: ss, st =>
    match rec (path ++ [s]) st with
    | none => none
    | some st => removeSubdirs rec path ss st

/-- `_remove_directory`, notmuch-new.c:977-1018. -/
def removeDirectory : Nat → Path → St → Option St
  | 0, _, _ => none
  | fuel + 1, path, st =>
    if st.db.known path = none then some st
    else
      let st1 := (st.db.files path).foldl (fun st n => removeFilename st path n) st
      match removeSubdirs (removeDirectory fuel) path (st1.db.subdirs path) st1 with
      | none => none
      | some st2 => some (st2.op (.deleteDir path))

/-- notmuch-new.c:1261-1272. -/
def removeFilesLoop : List (Path × Str) → St → St
  | [], st => st
  | f :: fs, st => if (check st).1 then (check st).2 else removeFilesLoop fs (removeFilename (check st).2 f.1 f.2)

/-- notmuch-new.c:1275-1285. -/
def removeDirsLoop (fuel : Nat) : List Path → St → Option St
  | [], st => some st
  | d :: ds, st =>
    if (check st).1 then some (check st).2
    else
      match removeDirectory fuel d (check st).2 with
      | none => none
      | some st => removeDirsLoop fuel ds st

/-- notmuch-new.c:1287-1294. -/
def mtimesLoop : List (Path × Nat) → St → St
  | [], st => st
  | m :: ms, st =>
    if (check st).1 then (check st).2
    else mtimesLoop ms (if ((check st).2.db.known m.1).isSome then (check st).2.op (.setMtime m.1 m.2) else (check st).2)

/-- `notmuch_new_command` from the scan on, notmuch-new.c:1256-1294; the hooks and the upgrade are not modelled.
The Boolean: no error. -/
def newCommand (E : Env) (fuel : Nat) (db : Db) (intr : Option Nat) : Option (Bool × St) :=
  match addFiles E fuel [] ⟨db, [], [], [], [], intr⟩ with
  | none => none
  | some (false, st) => some (false, st)
  | some (true, st) =>
    match removeDirsLoop fuel st.removedDirs (removeFilesLoop st.removedFiles st) with
    | none => none
    | some st => some (true, mtimesLoop st.mtimes st)

end Notmuch.New
