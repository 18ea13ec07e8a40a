import Verif.Model.New
import Verif.Spec.TermList

/-! # Specification: what `notmuch new` has to find (C38, C39) -/

namespace Notmuch.New

/-- A maildir: it has subdirectories `new`, `cur` and `tmp`. -/
def IsMaildir (fs : Fs) (p : Path) : Prop :=
  ∀ n, n = bs "new" ∨ n = bs "cur" ∨ n = bs "tmp" → n ∈ fs.list p ∧ fs.kind (p ++ [n]) = .dir

/-- The directory entry `n` of `p` counts: it is not `.` or `..` and the user did not say to ignore it. -/
def Counts (E : Env) (p : Path) (n : Str) : Prop :=
  n ∈ E.fs.list p ∧ n ≠ bs "." ∧ n ≠ bs ".." ∧ E.ignored p n = false

/-- The directories of the mail store: all below the root, but ignored ones, the `tmp` of a maildir and the
`.notmuch` of the root. -/
inductive Scanned (E : Env) : Path → Prop
  | root : E.fs.kind [] = .dir → Scanned E []
  | sub {p : Path} {n : Str} : Scanned E p → Counts E p n → E.fs.kind (p ++ [n]) = .dir →
      ¬ (IsMaildir E.fs p ∧ n = bs "tmp") → ¬ (p = [] ∧ n = bs ".notmuch") → Scanned E (p ++ [n])

/-- The files of the mail store. -/
def Visible (E : Env) (p : Path) (n : Str) : Prop := Scanned E p ∧ Counts E p n ∧ E.fs.kind (p ++ [n]) = .file

/-- The files of the mail store that can be indexed. -/
def Mail (E : Env) (p : Path) (n : Str) : Prop := Visible E p n ∧ E.outcome p n = .added

/-- What is assumed of `scandir`, and that the names in a directory differ. -/
structure EnvOk (E : Env) : Prop where
  sortPerm : ∀ l, (E.sort l).Perm l
  sortSorted : ∀ l, (E.sort l).Pairwise (fun a b => StringMap.strcmp a b ≠ .gt)
  inodePerm : ∀ p l, (E.inode p l).Perm l
  names : ∀ p, (E.fs.list p).Nodup

/-- A database as the library keeps it. -/
structure DbOk (db : Db) : Prop where
  files : ∀ p, TermList.Sorted (db.files p)
  subdirs : ∀ p, TermList.Sorted (db.subdirs p)
  sub : ∀ p c, c ∈ db.subdirs p ↔ (db.known (p ++ [c])).isSome
  parent : ∀ p c, (db.known (p ++ [c])).isSome → (db.known p).isSome
  file : ∀ p n, n ∈ db.files p → (db.known p).isSome

/-- The database is right about a directory of the mail store: it has the files and no others, and no
subdirectory that is not there. -/
structure RightAt (E : Env) (db : Db) (p : Path) : Prop where
  has : ∀ n, Mail E p n → n ∈ db.files p
  only : ∀ n ∈ db.files p, Visible E p n
  subs : ∀ c ∈ db.subdirs p, Counts E p c

/-- The mtimes of the database can be trusted: a directory with the recorded mtime did not change since. -/
def Fresh (E : Env) (db : Db) : Prop := ∀ p, Scanned E p → db.known p = some (E.fs.mtime p) → RightAt E db p

/-- A directory has two links just when it has no subdirectories (no symbolic links to directories). -/
def LinksOk (E : Env) : Prop := ∀ p n, E.fs.nlink p = 2 → Counts E p n → E.fs.kind (p ++ [n]) ≠ .dir

/-- What the database knows as a directory and is still there under that name is a directory of the mail store. -/
def DirsOk (E : Env) (db : Db) : Prop := ∀ p c, Scanned E p → c ∈ db.subdirs p → Counts E p c → Scanned E (p ++ [c])

/-- The database after some of the changes of a run. -/
def after (db : Db) (ops : List Op) : Db := ops.foldl Db.apply db

/-- SIGINT came during the run. -/
def Fired (st : St) : Prop := st.intr = some 0

/-- A mail store and a database on which `notmuch new` can rely. -/
structure Sane (E : Env) : Prop where
  env : EnvOk E
  mtime : ∀ p, E.fs.mtime p ≠ 0
  links : LinksOk E

/-- The database before the first run. -/
def emptyDb : Db := ⟨fun _ => none, fun _ => [], fun _ => []⟩

/-- Nothing changed in a directory between two runs. -/
structure Same (E1 E2 : Env) (p : Path) : Prop where
  list : E2.fs.list p = E1.fs.list p
  kind : ∀ n, E2.fs.kind (p ++ [n]) = E1.fs.kind (p ++ [n])
  mtime : E2.fs.mtime p = E1.fs.mtime p

/-- The time between two runs: the clock goes on, directories are not dated in the future, the configuration is the same and so
is what comes of a file; a directory that changed after it was looked at, or was not there, has a new mtime. -/
structure Later (E1 E2 : Env) : Prop where
  ignored : E2.ignored = E1.ignored
  outcome : E2.outcome = E1.outcome
  clock : ∀ p, E1.statTime p < E2.statTime p
  past : ∀ p, E1.fs.mtime p ≤ E1.statTime p
  changed : ∀ p, (Scanned E1 p ∧ Same E1 E2 p) ∨ E1.statTime p ≤ E2.fs.mtime p

/-- The same, but directories that were not there may come back with any mtime (they were moved away and back). -/
structure LaterMoves (E1 E2 : Env) : Prop where
  ignored : E2.ignored = E1.ignored
  outcome : E2.outcome = E1.outcome
  clock : ∀ p, E1.statTime p < E2.statTime p
  past : ∀ p, E1.fs.mtime p ≤ E1.statTime p
  changed : ∀ p, Scanned E1 p → Same E1 E2 p ∨ E1.statTime p ≤ E2.fs.mtime p

/-- The databases a run may find after any number of runs, each of which may have been stopped at any point (by a signal, an
error or a crash). -/
inductive Reach : Env → Db → Prop
  | first (E : Env) : Reach E emptyDb
  | next {E E' : Env} {db : Db} {fuel : Nat} {intr : Option Nat} {ok : Bool} {st : St} {x : List Op} :
      Reach E db → Sane E → newCommand E fuel db intr = some (ok, st) → x <+: st.log → Later E E' → Reach E' (after db x)

end Notmuch.New
