import Verif.Base.Bytes
import Verif.Base.Dec

/-!
# emacs/notmuch-maildir-fcc.el: saving a sent message in a maildir

The file system has directories and files with their contents; symbolic links, and changes by other programs during the write, are not modelled.  `trace` is the list of all the states the file
system goes through, that a crash of Emacs can leave.  (What a power failure leaves depends on `write-region-inhibit-fsync` and is not modelled.)
-/

namespace Notmuch.Fcc

structure Fs where
  dirs : List Str
  files : List (Str × Str)
deriving DecidableEq

/-- The content of a file. -/
def Fs.get (fs : Fs) (p : Str) : Option Str := (fs.files.find? (fun f => f.1 == p)).map Prod.snd

/-- `file-exists-p`. -/
def Fs.exists (fs : Fs) (p : Str) : Bool := fs.dirs.contains p || fs.files.any (fun f => f.1 == p)

/-- A file gets this content. -/
def Fs.put (fs : Fs) (p c : Str) : Fs := { fs with files := (p, c) :: fs.files.filter (fun f => f.1 != p) }

/-- `delete-file`. -/
def Fs.delete (fs : Fs) (p : Str) : Fs := { fs with files := fs.files.filter (fun f => f.1 != p) }

/-- `notmuch-maildir-fcc-host-fixer`, emacs/notmuch-maildir-fcc.el:257-265. -/
def hostFixer (h : Str) : Str := h.flatMap (fun c => if c = 47 then bs "\\057" else if c = 58 then bs "\\072" else [c])

/-- What the name is made of: the clock (seconds and microseconds) when the counter has this value, the process, the host. -/
structure Env where
  clock : Nat → Nat × Nat
  pid : Nat
  host : Str

/-- The name for this value of the counter, `notmuch-maildir-fcc-make-uniq-maildir-id`, emacs/notmuch-maildir-fcc.el:267-277. -/
def Env.name (E : Env) (count : Nat) : Str :=
  dec (E.clock count).1 ++ [46] ++ dec E.pid ++ [95] ++ dec (E.clock count).2 ++ [95] ++ dec count ++ [46] ++ hostFixer E.host

/-- The loop for a name that is not in tmp/, emacs/notmuch-maildir-fcc.el:297-299; the counter is incremented before each use.  `fuel` bounds it
(`C77_name` shows that the bound used does not matter). -/
def uniq (E : Env) (fs : Fs) (dest : Str) : Nat → Nat → Nat
  | 0, c => c + 1
  | fuel + 1, c => if fs.exists (dest ++ bs "/tmp/" ++ E.name (c + 1)) then uniq E fs dest fuel (c + 1) else c + 1

/-- `notmuch-maildir-fcc-dir-is-maildir-p`, emacs/notmuch-maildir-fcc.el:279-282. -/
def isMaildir (fs : Fs) (dir : Str) : Bool :=
  fs.dirs.contains (dir ++ bs "/cur") && fs.dirs.contains (dir ++ bs "/new") && fs.dirs.contains (dir ++ bs "/tmp")

/-- `notmuch-maildir-fcc-create-maildir`, emacs/notmuch-maildir-fcc.el:284-292 (the parents are created too); `none` if there is a file of that name. -/
def createMaildir (fs : Fs) (dir : Str) : Option Fs :=
  if fs.files.any (fun f => f.1 == dir) then none
  else some { fs with dirs := (dir ++ bs "/tmp") :: (dir ++ bs "/new") :: (dir ++ bs "/cur") :: dir :: fs.dirs }

/-- What goes wrong: the write after so many bytes, the link for another reason than that there is a file, the removal of the temporary file. -/
inductive Fault
  | none
  | write (k : Nat)
  | link
  | delete
deriving DecidableEq

/-- How it ends for the user: without an error, with an error, or with a question that was not answered. -/
inductive End
  | done
  | error
  | asking
deriving DecidableEq

structure Res where
  trace : List Fs
  count : Nat
  fin : End

/-- The states while a file is written. -/
def writing (fs : Fs) (p c : Str) (k : Nat) : List Fs := (List.range (k + 1)).map (fun i => fs.put p (c.take i))

/-- The name linked to, emacs/notmuch-maildir-fcc.el:306-314. -/
def target (dest name : Str) (seen : Bool) : Str :=
  if seen then dest ++ bs "/cur/" ++ name ++ bs ":2," ++ bs "S" else dest ++ bs "/new/" ++ name ++ bs ":2,"

/-- `notmuch-maildir-fcc-write-buffer-to-maildir`, emacs/notmuch-maildir-fcc.el:339-359, with `notmuch-maildir-fcc-save-buffer-to-tmp`, 294-304.  If the name linked to exists the
`catch` returns `nil`, but the function `t`. -/
def writeBuffer (E : Env) (fs : Fs) (count : Nat) (dest msg : Str) (seen : Bool) (fault : Fault) : Res :=
  let c := uniq E fs dest (fs.dirs.length + fs.files.length) count
  let tmp := dest ++ bs "/tmp/" ++ E.name c
  if !isMaildir fs dest then ⟨[], c, .error⟩
  else match fault with
    | .write k => ⟨writing fs tmp msg k, c, .error⟩
    | fault =>
      let w := writing fs tmp msg msg.length
      let fs1 := fs.put tmp msg
      let to := target dest (E.name c) seen
      if fault = .link then ⟨w, c, .error⟩
      else if fs1.exists to then ⟨w, c, .done⟩
      else
        let fs2 := { fs1 with files := (to, msg) :: fs1.files }
        if fault = .delete then ⟨w ++ [fs2], c, .error⟩
        else ⟨w ++ [fs2, fs2.delete tmp], c, .done⟩

/-- An answer of the user, who may have made directories before a retry. -/
inductive Answer
  | retry (made : List Str)
  | create (writable : Bool)
  | ignore
  | edit (header : Str)
deriving DecidableEq

/-- The state at the end of a trace. -/
def final (fs : Fs) (trace : List Fs) : Fs := trace.getLast?.getD fs

/-- `notmuch-maildir-fcc-file-fcc`, emacs/notmuch-maildir-fcc.el:316-337. -/
def fileFcc (E : Env) (msg : Str) (fault : Fault) : Fs → Nat → Str → List Answer → Res
  | fs, count, header, answers =>
    if isMaildir fs header then writeBuffer E fs count header msg true fault
    else match answers with
      | [] => ⟨[], count, .asking⟩
      | .retry made :: as =>
        let fs' := { fs with dirs := made ++ fs.dirs }
        let r := fileFcc E msg fault fs' count header as
        ⟨fs' :: r.trace, r.count, r.fin⟩
      | .create true :: as =>
        match createMaildir fs header with
        | none => ⟨[], count, .error⟩
        | some fs' =>
          let r := fileFcc E msg fault fs' count header as
          ⟨fs' :: r.trace, r.count, r.fin⟩
      | .create false :: as => fileFcc E msg fault fs count header as
      | .ignore :: _ => ⟨[], count, .done⟩
      | .edit h :: as => fileFcc E msg fault fs count h as

/-- The name of a header is `fcc`, in whatever case. -/
def isFcc (name : Str) : Bool := name.map (fun c => if 65 ≤ c ∧ c ≤ 90 then c + 32 else c) == bs "fcc"

/-- The loop over the headers, emacs/notmuch-maildir-fcc.el:189-191: the values pushed, and the headers that are left.  `fuel` is the number of headers. -/
def takeFcc : Nat → List (Str × Str) → List Str → List Str × List (Str × Str)
  | 0, hs, files => (files, hs)
  | n + 1, hs, files =>
    match hs.find? (fun h => isFcc h.1) with
    | none => (files, hs)
    | some h => takeFcc n (hs.eraseP (fun h => isFcc h.1)) (h.2 :: files)

/-- `(mapc #'notmuch-fcc-handler files)`, emacs/notmuch-maildir-fcc.el:193, for files: an error ends it.  There is one list of answers for each file. -/
def handleAll (E : Env) (msg : Str) : Fs → Nat → List (Str × List Answer × Fault) → Res
  | _, count, [] => ⟨[], count, .done⟩
  | fs, count, (f, as, fault) :: rest =>
    let r := fileFcc E msg fault fs count f as
    match r.fin with
    | .done =>
      let r' := handleAll E msg (final fs r.trace) r.count rest
      ⟨r.trace ++ r'.trace, r'.count, r'.fin⟩
    | _ => r

end Notmuch.Fcc
