import Verif.Model.NewFront
import Verif.Spec.New

/-! # Specification: what `notmuch new` ignores, counts and reports (C67) -/

namespace Notmuch.NewFront
open Notmuch.New (Path Kind Env Db Op)

/-- The path of an entry below the mail root, with slashes between the names. -/
def joined (p : Path) (n : Str) : Str := List.intercalate (bs "/") (p ++ [n])

/-- A name as the file system has it. -/
def NameOk (n : Str) : Prop := n ≠ [] ∧ 47 ∉ n

/-- A value of `new.ignore` that is allowed: a name, or a regular expression between slashes. -/
def Allowed (comp : Str → Option (Str → Bool)) (v : Str) : Prop :=
  (v ≠ [] ∧ v.head? ≠ some 47) ∨ ∃ r, r ≠ [] ∧ v = bs "/" ++ r ++ bs "/" ∧ (comp r).isSome

/-- A value of `new.ignore` is about the entry `n` of `p`: it is its name, or a regular expression that matches its path below the mail root. -/
def Hits (comp : Str → Option (Str → Bool)) (v : Str) (p : Path) (n : Str) : Prop :=
  v = n ∨ ∃ r m, v = bs "/" ++ r ++ bs "/" ∧ comp r = some m ∧ m (joined p n) = true

/-- The entry is one that is counted. -/
def Entry (E : Env) (p : Path) (n : Str) : Prop := New.Counts E p n ∧ n ≠ bs ".notmuch"

/-- The directories whose files are counted. -/
inductive CountedDir (E : Env) : Path → Prop
  | root : CountedDir E []
  | sub {p : Path} {n : Str} : CountedDir E p → Entry E p n → E.fs.kind (p ++ [n]) = .dir → CountedDir E (p ++ [n])

/-- The files that are counted. -/
def Counted (E : Env) (p : Path) (n : Str) : Prop := CountedDir E p ∧ Entry E p n ∧ E.fs.kind (p ++ [n]) = .file

/-- The list has the files of a database, each once. -/
def FilesOf (db : Db) (l : List (Path × Str)) : Prop := l.Nodup ∧ ∀ p n, (p, n) ∈ l ↔ n ∈ db.files p

/-- The list has the messages of a database, each once. -/
def MessagesOf {M : Type} (mid : Path → Str → M) (db : Db) (l : List M) : Prop := l.Nodup ∧ ∀ m, m ∈ l ↔ ∃ p n, n ∈ db.files p ∧ mid p n = m

/-- How many of the changes take a file out of the database. -/
def filesLost : Db → List Op → Nat
  | _, [] => 0
  | db, .removeFile d n :: ops => (if n ∈ db.files d then 1 else 0) + filesLost (db.apply (.removeFile d n)) ops
  | db, op :: ops => filesLost (db.apply op) ops

end Notmuch.NewFront
