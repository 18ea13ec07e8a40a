import Verif.Model.Insert

/-! # Specification: delivering a message (C41) -/

namespace Notmuch.Insert

/-- What came in on standard input up to its end. -/
def received : List (Bool × ReadRes) → Str
  | [] => []
  | (_, .got []) :: _ => []
  | (_, .got s) :: rs => s ++ received rs
  | (_, .eintr) :: rs => received rs
  | (_, .err) :: _ => []

/-- What is to be in the file: the message, with the `From ` line of an mbox made a header. -/
def toDeliver (m : Str) : Str := if m.take 5 = bs "From " then bs "X-Envelope-From: " ++ m.drop 5 else m

/-- The first bytes that were read. -/
def firstRead : List (Bool × ReadRes) → Str
  | [] => []
  | (_, .got s) :: _ => s
  | (_, .eintr) :: rs => firstRead rs
  | (_, .err) :: _ => []

/-- A `From ` at the beginning is not cut in two by `read`. -/
def FromWhole (rs : List (Bool × ReadRes)) : Prop := (received rs).take 5 = bs "From " → 5 ≤ (firstRead rs).length

/-- A signal came while the message was read. -/
def signalled : List (Bool × ReadRes) → Bool
  | [] => false
  | (true, _) :: _ => true
  | (false, .got []) :: _ => false
  | (false, .got _) :: rs => signalled rs
  | (false, .eintr) :: rs => signalled rs
  | (false, .err) :: _ => false

/-- No entry refers to a file that does not exist. -/
def Fs.Ok (fs : Fs) : Prop := ∀ p i, fs.disk p = some i → i < fs.next

/-- Nothing is waiting to be written. -/
def Fs.Quiet (fs : Fs) : Prop := fs.pending = [] ∧ fs.ent = fs.disk

/-- The names the command may use. -/
def Env.tmpName (E : Env) (p : Str) : Prop := ∃ a ∈ E.attempts, p = maildirOf E.root E.folder ++ bs "/tmp/" ++ tempfilename a

def Env.newName (E : Env) (p : Str) : Prop := ∃ a ∈ E.attempts, p = maildirOf E.root E.folder ++ bs "/new/" ++ tempfilename a

/-- They are free in `new`, and so is the name that flags are synchronized to. -/
def Free (E : Env) (L : Lib) (fs : Fs) : Prop := (∀ p, E.newName p → fs.ent p = none) ∧ ∀ q, L.renamed = some q → fs.ent q = none

/-! ## Paths -/

/-- The parts of a path between slashes. -/
def components : Str → List Str
  | [] => [[]]
  | c :: s =>
    if c = 47 then [] :: components s
    else
      match components s with
      | [] => [[c]]
      | a :: l => (c :: a) :: l

/-- Walking along the parts of a path from a directory, without symbolic links. -/
def walk : List Str → List Str → List Str
  | cur, [] => cur
  | cur, c :: cs =>
    if c = [] ∨ c = [46] then walk cur cs
    else if c = [46, 46] then walk cur.dropLast cs
    else walk (cur ++ [c]) cs

/-- The directory an absolute path leads to. -/
def resolve (p : Str) : List Str := walk [] (components p)

end Notmuch.Insert
