import Verif.Model.Maildir
import Verif.Model.Sprinter
import Verif.Model.StringUtil

/-!
# notmuch-insert.c: delivering a message into a maildir

The file system is the part of POSIX the command relies on: files (inodes) with contents, directory entries, and what `fsync` makes durable.
Other processes do not touch the maildir meanwhile.  A list of results stands for each kind of system call that is made in a loop; when it is used
up the process hangs or was killed there.  Bytes: 46 `.`, 47 `/`, 58 `:`, 95 `_`.
-/

namespace Notmuch.Insert

/-! ## The file system -/

/-- An atomic change of directory entries: creating, renaming or unlinking. -/
abbrev Op := List (Str × Option Nat)

/-- The contents of files and whether they are on disk; the directory entries as processes see them; those that are on disk, and the changes of them
that may not be. -/
structure Fs where
  ino : Nat → Str × Bool
  next : Nat
  ent : Str → Option Nat
  disk : Str → Option Nat
  pending : List Op

/-- The entries after a change. -/
def Op.apply (e : Str → Option Nat) (o : Op) : Str → Option Nat := fun p =>
  match o.find? (fun x => x.1 = p) with
  | some x => x.2
  | none => e p

def applyAll (e : Str → Option Nat) (l : List Op) : Str → Option Nat := l.foldl Op.apply e

/-- Changing directory entries: at once for processes, at some time on the disk. -/
def Fs.change (fs : Fs) (o : Op) : Fs := { fs with ent := o.apply fs.ent, pending := fs.pending ++ [o] }

/-- The files as processes see them. -/
def Fs.view (fs : Fs) (p : Str) : Option Str := (fs.ent p).map (fun i => (fs.ino i).1)

/-- What may be there after a crash: any of the changes may be lost, and what a file contains is only known when it was synced. -/
def Fs.Crash (fs : Fs) (v : Str → Option Str) : Prop := ∃ l : List Op, l.Sublist fs.pending ∧ ∀ p,
  match applyAll fs.disk l p with
  | none => v p = none
  | some i => ∃ d, v p = some d ∧ ((fs.ino i).2 = true → d = (fs.ino i).1)

/-- The directory of a path. -/
def dirOf (p : Str) : Str :=
  match Maildir.rsplitSlash p with
  | some (d, _) => d
  | none => []

/-- `open` with O_CREAT and O_EXCL of a name that is free. -/
def Fs.create (fs : Fs) (p : Str) : Fs :=
  { fs with ino := fun i => if i = fs.next then ([], false) else fs.ino i, next := fs.next + 1 }.change [(p, some fs.next)]

/-- `write` at the end of a file. -/
def Fs.append (fs : Fs) (i : Nat) (s : Str) : Fs := { fs with ino := fun j => if j = i then ((fs.ino i).1 ++ s, false) else fs.ino j }

/-- `fsync` of a file. -/
def Fs.sync (fs : Fs) (i : Nat) : Fs := { fs with ino := fun j => if j = i then ((fs.ino i).1, true) else fs.ino j }

/-- `rename` of a file that exists. -/
def Fs.rename (fs : Fs) (p q : Str) : Fs := if p = q then fs else fs.change [(p, none), (q, fs.ent p)]

def Fs.unlink (fs : Fs) (p : Str) : Fs := fs.change [(p, none)]

def touches (d : Str) (o : Op) : Bool := o.any (fun x => dirOf x.1 = d)

/-- `fsync` of a directory: the changes of its entries are on disk. -/
def Fs.syncDir (fs : Fs) (d : Str) : Fs :=
  { fs with disk := applyAll fs.disk (fs.pending.filter (touches d)), pending := fs.pending.filter (fun o => !touches d o) }

/-- The file system and all its states up to now. -/
structure W where
  fs : Fs
  trace : List Fs

def W.put (w : W) (fs : Fs) : W := ⟨fs, w.trace ++ [fs]⟩

/-! ## Names -/

/-- `safe_gethostname`, notmuch-insert.c:51-65, with 256 bytes of room; `none`: gethostname failed. -/
def safeHostname (h : Option Str) : Str :=
  let s := match h with
    | none => bs "unknown"
    | some s => (s.takeWhile (· ≠ 0)).take 255
  s.map (fun c => if c = 47 || c = 58 then 95 else c)

/-- The result of gettimeofday and getpid, of gethostname, and whether `open` fails for another reason than that the file exists. -/
structure Attempt where
  sec : Int
  usec : Int
  pid : Int
  host : Option Str
  fails : Bool

/-- `tempfilename`, notmuch-insert.c:187-206. -/
def tempfilename (a : Attempt) : Str :=
  Sprinter.printInt a.sec ++ bs ".M" ++ Sprinter.printInt a.usec ++ bs "P" ++ Sprinter.printInt a.pid ++ bs "." ++ safeHostname a.host

/-- `is_valid_folder_name`, notmuch-insert.c:93-106; the loop from one `/` to the next. -/
def isValidFolderName (p : Str) : Bool :=
  if p = [46, 46] ∨ p.take 3 = [46, 46, 47] then false
  else
    match h : p.dropWhile (· ≠ 47) with
    | [] => true
    | _ :: r => isValidFolderName r
termination_by p.length
decreasing_by
  have := (List.dropWhile_suffix (l := p) (· ≠ 47)).length_le
  rw [h] at this
  simp at this
  omega

/-- notmuch-insert.c:551-557. -/
def maildirOf (root folder : Str) : Str := StringUtil.stripTrailing (root ++ [47] ++ folder) 47

/-! ## Writing -/

/-- A result of `write`. -/
inductive WriteRes
  | wrote (n : Nat)
  | eintr
  | err

/-- A result of `read`; no bytes: the end of the input. -/
inductive ReadRes
  | got (s : Str)
  | eintr
  | err

/-- `write_buf`, notmuch-insert.c:244-262; `none` when the process is stuck. -/
def writeBuf (i : Nat) : List WriteRes → Str → W → W × List WriteRes × Option Bool
  | [], _, w => (w, [], none)
  | .err :: ws, _, w => (w, ws, some false)
  | .eintr :: ws, s, w => if s = [] then (w, ws, some true) else writeBuf i ws s w
  | .wrote n :: ws, s, w =>
    if min n s.length = 0 then (w, ws, some false)
    else if s.drop n = [] then (w.put (w.fs.append i (s.take n)), ws, some true)
    else writeBuf i ws (s.drop n) (w.put (w.fs.append i (s.take n)))

def envelope : Str := bs "X-Envelope-From: "

/-- The end of a round of the loop of `copy_fd`, notmuch-insert.c:298-302: what is left of the buffer is written. -/
def copyRest (loop : List WriteRes → W → W × Option Bool) (i : Nat) (s : Str) (ws : List WriteRes) (w : W) : W × Option Bool :=
  match writeBuf i ws s w with
  | (w, _, none) => (w, none)
  | (w, _, some false) => (w, some false)
  | (w, ws, some true) => loop ws w

/-- `copy_fd`, notmuch-insert.c:268-306.  With every result of `read` comes whether a signal was there when the loop began; `sigEnd`: one is there at
the end. -/
def copyFd (i : Nat) (sigEnd : Bool) : (first empty : Bool) → List (Bool × ReadRes) → List WriteRes → W → W × Option Bool
  | _, _, [], _, w => (w, none)
  | _, _, (true, _) :: _, _, w => (w, some false)
  | first, empty, (false, .eintr) :: rs, ws, w => copyFd i sigEnd first empty rs ws w
  | _, _, (false, .err) :: _, _, w => (w, some false)
  | first, empty, (false, .got s) :: rs, ws, w =>
    if s = [] then (w, some (!sigEnd && !empty))
    else if first && s.take 5 = bs "From " then
      match writeBuf i ws envelope w with
      | (w, _, none) => (w, none)
      | (w, _, some false) => (w, some false)
      | (w, ws, some true) => copyRest (copyFd i sigEnd false false rs) i (s.drop 5) ws w
    else copyRest (copyFd i sigEnd false false rs) i s ws w

/-- The results of the other system calls and of the library. -/
structure Env where
  root : Str
  folder : Str
  attempts : List Attempt
  reads : List (Bool × ReadRes)
  sigEnd : Bool
  writes : List WriteRes
  fsyncOk : Bool
  renameOk : Bool
  syncDirOk : Bool
  cleanOk : Bool

/-- `maildir_mktemp`, notmuch-insert.c:213-242. -/
def mktemp (maildir : Str) : List Attempt → W → W × Option (Option (Str × Nat))
  | [], w => (w, none)
  | a :: as, w =>
    if w.fs.ent (maildir ++ bs "/tmp/" ++ tempfilename a) ≠ none then mktemp maildir as w
    else if a.fails then (w, some none)
    else (w.put (w.fs.create (maildir ++ bs "/tmp/" ++ tempfilename a)), some (some (maildir ++ bs "/tmp/" ++ tempfilename a, w.fs.next)))

/-- `unlink (path)` for cleaning up; `ok` when it works. -/
def unlinkIf (ok : Bool) (p : Str) (w : W) : W := if ok then w.put (w.fs.unlink p) else w

/-- `maildir_write_tmp`, notmuch-insert.c:312-339. -/
def writeTmp (E : Env) (maildir : Str) (w : W) : W × Option (Option (Str × Nat)) :=
  match mktemp maildir E.attempts w with
  | (w, none) => (w, none)
  | (w, some none) => (w, some none)
  | (w, some (some (path, i))) =>
    match copyFd i E.sigEnd true true E.reads E.writes w with
    | (w, none) => (w, none)
    | (w, some false) => (unlinkIf E.cleanOk path w, some none)
    | (w, some true) =>
      if E.fsyncOk then (w.put (w.fs.sync i), some (some (path, i)))
      else (unlinkIf E.cleanOk path w, some none)

/-- `memcpy (newpath + strlen (maildir) + 1, "new", 3)`, notmuch-insert.c:363. -/
def overwrite (s : Str) (at' : Nat) (t : Str) : Str := s.take at' ++ t ++ s.drop (at' + t.length)

/-- `maildir_write_new`, notmuch-insert.c:346-387. -/
def writeNew (E : Env) (maildir : Str) (w : W) : W × Option (Option Str) :=
  match writeTmp E maildir w with
  | (w, none) => (w, none)
  | (w, some none) => (w, some none)
  | (w, some (some (tmppath, _))) =>
    let newpath := overwrite tmppath (maildir.length + 1) (bs "new")
    if !E.renameOk then (unlinkIf E.cleanOk tmppath w, some none)
    else
      let w := w.put (w.fs.rename tmppath newpath)
      if E.syncDirOk then (w.put (w.fs.syncDir (maildir ++ bs "/new")), some (some newpath))
      else (unlinkIf E.cleanOk newpath w, some none)

/-! ## Indexing -/

/-- Statuses, by what the command makes of them: status.c:60-74. -/
inductive Status
  | success
  | duplicate
  | fileNotEmail
  | temporary
  | other
  deriving DecidableEq

/-- What the library answers.  `renamed`: where `notmuch_message_tags_to_maildir_flags` moved the file, if it did. -/
structure Lib where
  options : Status
  index : Status
  tags : Status
  flags : Status
  renamed : Option Str
  remove : Status
  close : Status
  unlinkOk : Bool

structure Opts where
  synchronize : Bool
  keep : Bool

/-- The effects on the mail store and on the database: whether the database has the file, and whether its tags were changed. -/
structure D where
  w : W
  indexed : Bool
  tagged : Bool

/-- After `DONE:` in `add_file`, notmuch-insert.c:443-460. -/
def addDone (L : Lib) (o : Opts) (status : Status) (d : D) : Status × D :=
  if status = .success then (.success, d)
  else if o.keep then (.success, d)
  else (status, if L.remove = .success ∨ L.remove = .duplicate then { d with indexed := false } else d)

/-- The flag synchronization in `add_file`, notmuch-insert.c:429-443. -/
def addSync (L : Lib) (o : Opts) (newpath : Str) (d : D) : Status × D :=
  if o.synchronize then
    addDone L o L.flags { d with w := match L.renamed with
      | none => d.w
      | some q => d.w.put (d.w.fs.rename newpath q) }
  else addDone L o .success d

/-- `add_file`, notmuch-insert.c:401-464. -/
def addFile (L : Lib) (o : Opts) (newpath : Str) (d : D) : Status × D :=
  match L.index with
  | .success =>
    if L.tags ≠ .success then addDone L o L.tags { d with indexed := true }
    else addSync L o newpath { d with indexed := true, tagged := true }
  | .duplicate => addSync L o newpath { d with indexed := true }
  | .fileNotEmail => (.fileNotEmail, d)
  | .temporary => (.temporary, d)
  | .other => (.other, d)

/-- How the command ends. -/
inductive Exit
  | success
  | failure
  | tempfail
  deriving DecidableEq

/-- `status_to_exit`, status.c:60-74. -/
def statusToExit : Status → Exit
  | .success => .success
  | .duplicate => .tempfail
  | .temporary => .tempfail
  | .fileNotEmail => .failure
  | .other => .failure

/-- The part of `notmuch_insert_command` from `add_file` on, notmuch-insert.c:582-618. -/
def indexAndClose (L : Lib) (o : Opts) (newpath : Str) (d : D) : Exit × D :=
  match addFile L o newpath d with
  | (status, d) =>
    let status := if L.close ≠ .success ∧ status = .success then L.close else status
    if status = .success then (.success, d)
    else if o.keep then (.success, d)
    else (statusToExit status, if L.unlinkOk then { d with w := d.w.put (d.w.fs.unlink newpath) } else d)

/-- `notmuch_insert_command` after its arguments are read, notmuch-insert.c:546-619; not modelled: making the folder, the hook, running out of memory.
`none`: the process is stuck or was killed. -/
def insertCommand (E : Env) (L : Lib) (o : Opts) (fs : Fs) : D × Option Exit :=
  if !isValidFolderName E.folder then (⟨⟨fs, [fs]⟩, false, false⟩, some .failure)
  else
    match writeNew E (maildirOf E.root E.folder) ⟨fs, [fs]⟩ with
    | (w, none) => (⟨w, false, false⟩, none)
    | (w, some none) => (⟨w, false, false⟩, some .failure)
    | (w, some (some newpath)) =>
      if L.options ≠ .success then (⟨w, false, false⟩, some .failure)
      else
        match indexAndClose L o newpath ⟨w, false, false⟩ with
        | (e, d) => (d, some e)

/-! ## Making folders -/

/-- What is at a path. -/
inductive Kind
  | absent
  | dir
  | other
  deriving DecidableEq

/-- `mkdir_recursive`, notmuch-insert.c:113-154.  `none`: an error.  `stat` gives ENOENT exactly for what is absent; `mkdir` of a path whose parent is
a directory works; `fuel` bounds the length of the path. -/
def mkdirRec : Nat → (Str → Kind) → Str → Option (Str → Kind)
  | 0, _, _ => none
  | fuel + 1, k, path =>
    match k path with
    | .dir => some k
    | .other => none
    | .absent =>
      match Maildir.rsplitSlash path with
      | some (c :: parent, _) =>
        match mkdirRec fuel k (c :: parent) with
        | none => none
        | some k => some (fun p => if p = path then .dir else k p)
      | _ => some (fun p => if p = path then .dir else k p)

/-- `maildir_create_folder`, notmuch-insert.c:161-181. -/
def createFolder (k : Str → Kind) (maildir : Str) : Option (Str → Kind) :=
  match mkdirRec (maildir.length + 6) k (maildir ++ bs "/cur") with
  | none => none
  | some k =>
    match mkdirRec (maildir.length + 6) k (maildir ++ bs "/new") with
    | none => none
    | some k => mkdirRec (maildir.length + 6) k (maildir ++ bs "/tmp")

end Notmuch.Insert
