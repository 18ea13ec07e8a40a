import Verif.Model.Directory

/-! # Specification: files in directories (C27, C28, C35) -/

namespace Notmuch.Directory

/-- The name of a file or of a directory in its parent. -/
def Name (b : Str) : Prop := b ≠ [] ∧ 47 ∉ b ∧ 0 ∉ b

/-- `d/b`; the mail root is the empty path. -/
def join (d b : Str) : Str := if d = [] then b else d ++ [47] ++ b

/-- A path below the mail root, written without superfluous slashes. -/
inductive Dir : Str → Prop
  | root : Dir []
  | child {d b : Str} : Dir d → Name b → Dir (join d b)

/-- `d` is `a` or below `a`. -/
def Within (a d : Str) : Prop := d = a ∨ ∃ r, d = a ++ [47] ++ r

/-- What can be asked with `path:` and matches a message with a file in `d` (notmuch-search-terms(7)): the
directory itself, `**`, and `a/**` for the directory and those above it. -/
def PathTerm (d w : Str) : Prop := w = d ∨ w = bs "**" ∨ ∃ a, a ≠ [] ∧ Within a d ∧ w = a ++ bs "/**"

/-- The maildir folder of a directory: without a final `cur` or `new`. -/
def FolderTerm (d w : Str) : Prop :=
  (∃ b, (b = bs "cur" ∨ b = bs "new") ∧ d = join w b) ∨
    (w = d ∧ ¬ ∃ p b, (b = bs "cur" ∨ b = bs "new") ∧ d = join p b)

/-- The ways to name the file `b` in the directory `d`: from the mail root, or the absolute name. -/
def FileName (root d b f : Str) : Prop := f = join d b ∨ f = root ++ [47] ++ join d b

/-- A mail root: an absolute path that does not end with a slash and does not begin with two. -/
def Root (root : Str) : Prop := ∃ s, root = 47 :: s ∧ s.head? ≠ some 47 ∧ s ≠ [] ∧ root.getLast? ≠ some 47

/-- The database without documents. -/
def emptyDb (root : Str) (sha1 : Str → Str) : Db := ⟨[], 0, root, sha1⟩

/-- All that can have happened to a database, with the files (message, directory, name) it must know about.
`S` are the directories that occur. -/
inductive History (root : Str) (sha1 : Str → Str) (S : Str → Prop) : Db → List Nat → (Nat → Str → Str → Prop) → Prop
  | empty : History root sha1 S (emptyDb root sha1) [] (fun _ _ _ => False)
  /-- a message document is made -/
  | create {db msgs F} (others : List Str) : History root sha1 S db msgs F →
      History root sha1 S (newMessage db others).1 ((newMessage db others).2 :: msgs) F
  /-- a file is added to a message -/
  | add {db msgs F db' m d b f} : History root sha1 S db msgs F → m ∈ msgs → Dir d → S d → Name b → FileName root d b f →
      addFilename db m f = (db', .ok ()) →
      History root sha1 S db' msgs (fun m' d' b' => F m' d' b' ∨ (m' = m ∧ d' = d ∧ b' = b))
  /-- adding a file fails (and the process does not end) -/
  | addFails {db msgs F db' m d b f e} : History root sha1 S db msgs F → m ∈ msgs → Dir d → S d → Name b → FileName root d b f →
      addFilename db m f = (db', .error e) → e ≠ .abort → History root sha1 S db' msgs F
  /-- a file is removed from a message -/
  | remove {db msgs F db' m d b f r} : History root sha1 S db msgs F → m ∈ msgs → Dir d → S d → Name b → FileName root d b f →
      removeFilename db m f = (db', .ok r) →
      History root sha1 S db' msgs (fun m' d' b' => F m' d' b' ∧ ¬ (m' = m ∧ d' = d ∧ b' = b))
  /-- a message is deleted -/
  | delete {db msgs F} (m : Nat) : History root sha1 S db msgs F → m ∈ msgs →
      History root sha1 S (deleteDoc db m) (msgs.filter (· ≠ m)) (fun m' d' b' => F m' d' b' ∧ m' ≠ m)
  /-- a directory without files and directories is deleted -/
  | deleteDirectory {db msgs F id d} : History root sha1 S db msgs F → Dir d → S d →
      findDirectoryId db (some d) false = (db, .ok (some id)) → childFiles db id = [] → childDirectories db id = [] →
      History root sha1 S (deleteDoc db id) msgs F

/-- The SHA-1 sums used for long paths do not collide, for the directories in `S`; with a directory those
above it are in `S`. -/
structure NoCollision (sha1 : Str → Str) (S : Str → Prop) : Prop where
  inj : ∀ p q, S p → S q → (if 10 + p.length > 245 then sha1 p else p) = (if 10 + q.length > 245 then sha1 q else q) → p = q
  up : ∀ d b, Name b → S (join d b) → S d

/-- The absolute name of the file `b` in the directory `d`. -/
def absName (root d b : Str) : Str := root ++ [47] ++ join d b

/-- The documents a boolean term finds. -/
def matching (db : Db) (f : Field) (w : Str) : List Nat := (db.docs.filter (fun x => (f, w) ∈ x.terms)).map (·.id)

/-- The database knows the directory. -/
def Known (db : Db) (d : Str) : Prop := ∃ id, findDirectoryId db (some d) false = (db, .ok (some id))

end Notmuch.Directory
