import Verif.Base.Bytes

/-!
# Compaction: `notmuch_database_compact_db`, lib/database.cc:619-740

The file system is a map from paths to directories (inodes) and from these to their files; paths are flat (none is inside another) and there are no links.
A file is a number.  `rename` is atomic; what was written is on disk in the order of the steps.  What Xapian makes of a database is the parameter `Compacts`.
-/

namespace Notmuch.Compact

structure World where
  fs : Str → Option Nat
  dir : Nat → List Nat
  /-- what other programs did to a directory since it was made (not part of the file system) -/
  hist : Nat → List (List Nat → List Nat)

/-- The arguments: `xapian_path`, and `backup_path`, if there is one. -/
structure Args where
  path : Str
  backup : Option Str

/-- lib/database.cc:648. -/
def Args.compactPath (a : Args) : Str := a.path ++ bs ".compact"

/-- lib/database.cc:653-661. -/
def Args.backupPath (a : Args) : Str := a.backup.getD (a.path ++ bs ".old")

/-- Where the function is. -/
inductive Pc where
  | stat
  | clean
  | compact
  | moveOld
  | moveNew
  | remove
  | done (ok : Bool)
  deriving DecidableEq

/-- Change one value of a function. -/
def upd {α β : Type} [DecidableEq α] (f : α → β) (a : α) (b : β) : α → β := fun x => if x = a then b else f x

/-- A directory without files, which `rename` replaces. -/
def emptyAt (w : World) (p : Str) : Prop := ∀ i, w.fs p = some i → w.dir i = []

/-- `rename` of a directory, if it succeeds. -/
def renamed (w : World) (p q : Str) : World := { w with fs := upd (upd w.fs p none) q (w.fs p) }

/-- The steps of `notmuch_database_compact_db`; `db` is the directory that the handle has open. -/
inductive Step (Compacts : List Nat → List Nat → Prop) (a : Args) (db : Nat) : World × Pc → World × Pc → Prop
  /-- lib/database.cc:663-667 -/
  | exists' {w : World} {i : Nat} : w.fs a.backupPath = some i → Step Compacts a db (w, .stat) (w, .done false)
  /-- lib/database.cc:668-673, or no memory before it -/
  | statError {w : World} : Step Compacts a db (w, .stat) (w, .done false)
  | absent {w : World} : w.fs a.backupPath = none → Step Compacts a db (w, .stat) (w, .clean)
  /-- `rmtree`, lib/database.cc:679: one file -/
  | cleanFile {w : World} {i : Nat} (f : Nat) : w.fs a.compactPath = some i →
      Step Compacts a db (w, .clean) ({ w with dir := upd w.dir i ((w.dir i).filter (· ≠ f)) }, .clean)
  /-- `rmtree`: the directory itself -/
  | cleanDir {w : World} : emptyAt w a.compactPath → Step Compacts a db (w, .clean) ({ w with fs := upd w.fs a.compactPath none }, .clean)
  /-- `rmtree` ends; whether it succeeded is not asked -/
  | cleaned {w : World} : Step Compacts a db (w, .clean) (w, .compact)
  /-- `compact`, lib/database.cc:683: a directory is made, if there is none -/
  | compactMkdir {w : World} (i : Nat) : w.fs a.compactPath = none → (∀ p, w.fs p ≠ some i) → i ≠ db → w.hist i = [] →
      Step Compacts a db (w, .compact) ({ w with fs := upd w.fs a.compactPath (some i), dir := upd w.dir i [] }, .compact)
  /-- files are written -/
  | compactWrite {w : World} {i : Nat} (l : List Nat) : w.fs a.compactPath = some i → Step Compacts a db (w, .compact) ({ w with dir := upd w.dir i l }, .compact)
  | compactError {w : World} : Step Compacts a db (w, .compact) (w, .done false)
  | compacted {w : World} {i : Nat} : w.fs a.compactPath = some i → Compacts (w.dir db) (w.dir i) → Step Compacts a db (w, .compact) (w, .moveOld)
  /-- lib/database.cc:691-696 -/
  | moveOldError {w : World} : Step Compacts a db (w, .moveOld) (w, .done false)
  | movedOld {w : World} {i : Nat} : w.fs a.path = some i → emptyAt w a.backupPath → Step Compacts a db (w, .moveOld) (renamed w a.path a.backupPath, .moveNew)
  /-- lib/database.cc:698-703 -/
  | moveNewError {w : World} : Step Compacts a db (w, .moveNew) (w, .done false)
  | movedNew {w : World} {i : Nat} : w.fs a.compactPath = some i → emptyAt w a.path → Step Compacts a db (w, .moveNew) (renamed w a.compactPath a.path, .remove)
  /-- lib/database.cc:705 -/
  | keep {w : World} : a.backup ≠ none → Step Compacts a db (w, .remove) (w, .done true)
  /-- `rmtree`, lib/database.cc:706 -/
  | removeFile {w : World} {i : Nat} (f : Nat) : a.backup = none → w.fs a.backupPath = some i →
      Step Compacts a db (w, .remove) ({ w with dir := upd w.dir i ((w.dir i).filter (· ≠ f)) }, .remove)
  | removeDir {w : World} : a.backup = none → emptyAt w a.backupPath → Step Compacts a db (w, .remove) ({ w with fs := upd w.fs a.backupPath none }, .done true)
  | removeError {w : World} : a.backup = none → Step Compacts a db (w, .remove) (w, .done false)

/-- What other programs do meanwhile (`notmuch new` and others that open or create the database, but none that compacts): make a database if there is none, and
write the one at the path if the handle does not have it open, since it has its lock. -/
inductive Other (a : Args) (db : Nat) : World → World → Prop
  | mkdir {w : World} (i : Nat) : w.fs a.path = none → (∀ p, w.fs p ≠ some i) → i ≠ db → w.hist i = [] →
      Other a db w { w with fs := upd w.fs a.path (some i), dir := upd w.dir i [] }
  | write {w : World} {i : Nat} (f : List Nat → List Nat) : w.fs a.path = some i → i ≠ db →
      Other a db w { w with dir := upd w.dir i (f (w.dir i)), hist := upd w.hist i (w.hist i ++ [f]) }

/-- Everything that can happen, in any order. -/
inductive Run (Compacts : List Nat → List Nat → Prop) (a : Args) (db : Nat) : World × Pc → World × Pc → Prop
  | refl (s : World × Pc) : Run Compacts a db s s
  | step {s t u : World × Pc} : Run Compacts a db s t → Step Compacts a db t u → Run Compacts a db s u
  | other {s t : World × Pc} {w : World} : Run Compacts a db s t → Other a db t.1 w → Run Compacts a db s (w, t.2)

/-- Two compactions and other programs (each compaction has the database open that was at the path when it started). -/
structure Two where
  w : World
  a : Pc
  b : Option (Nat × Pc)

inductive TwoStep (Compacts : List Nat → List Nat → Prop) (a b : Args) (db : Nat) : Two → Two → Prop
  | first {w w' : World} {p p' : Pc} {q : Option (Nat × Pc)} : Step Compacts a db (w, p) (w', p') → TwoStep Compacts a b db ⟨w, p, q⟩ ⟨w', p', q⟩
  /-- the second opens the database at the path, which the first has not locked -/
  | start {w : World} {p : Pc} {i : Nat} : w.fs b.path = some i → i ≠ db → TwoStep Compacts a b db ⟨w, p, none⟩ ⟨w, p, some (i, .stat)⟩
  | second {w w' : World} {p q q' : Pc} {i : Nat} : Step Compacts b i (w, q) (w', q') → TwoStep Compacts a b db ⟨w, p, some (i, q)⟩ ⟨w', p, some (i, q')⟩
  | other {w w' : World} {p : Pc} : Other a db w w' → TwoStep Compacts a b db ⟨w, p, none⟩ ⟨w', p, none⟩

/-- Everything that can happen with a second compaction. -/
inductive TwoRun (Compacts : List Nat → List Nat → Prop) (a b : Args) (db : Nat) : Two → Two → Prop
  | refl (s : Two) : TwoRun Compacts a b db s s
  | step {s t u : Two} : TwoRun Compacts a b db s t → TwoStep Compacts a b db t u → TwoRun Compacts a b db s u

end Notmuch.Compact
