import Verif.Model.Config

/-! # Specification: configuration (C51) -/

namespace Notmuch.Config

open Notmuch.StringUtil (stripTrailing)

/-- The first that there is. -/
def firstSome {α : Type} : List (Option α) → Option α
  | [] => none
  | some a :: _ => some a
  | none :: l => firstSome l

/-- Where the database is looked for, as the manual says (a path that was given comes first). -/
def candidates (e : Env) (profile file : Option Str) (isDir : Str → Bool) (arg : Option Str) : List (Option Str) :=
  let x := xdgDir e (bs "XDG_DATA_HOME") (bs ".local/share") profile
  let m := e.home ++ bs "/mail"
  [arg, e.get (bs "NOTMUCH_DATABASE"), file.map (fromHome e), if isDir x then some x else none, e.get (bs "MAILDIR"), if isDir m then some m else none]

/-- The value of a key in the file: of the last entry with this key. -/
def fileValue (file : List (Str × Str × Str)) (k : Str) : Option Str := ((file.filter (fun x => x.1 ++ bs "." ++ x.2.1 = k)).getLast?).map (·.2.2)

/-- The value of a key in the database. -/
def dbValue (mdata : List (Str × Str)) (k : Str) : Option Str := (mdata.find? (fun x => x.1 = k)).map (·.2)

/-- What a key has from the file or the database, or, for database.path, from the place of the database. -/
def configured (o : Opening) (k : Str) : Option Str :=
  firstSome
    [if k = bs "database.path" ∧ o.arg then some (stripTrailing o.path 47) else none,
     (fileValue o.file k).map (expandPath o.env k),
     (dbValue o.mdata k).map (expandPath o.env k),
     if k = bs "database.path" then some (stripTrailing o.path 47) else none]

/-- The value of a key: configured, or its default. -/
def value (o : Opening) (k : Str) : Option Str :=
  firstSome
    [configured o k,
     if k = bs "database.hook_dir" then some (dirDefault o.env o.profile o.isThere o.xapian (bs "XDG_CONFIG_HOME") (bs ".config") (bs "hooks")) else none,
     if k = bs "database.backup_dir" then some (dirDefault o.env o.profile o.isThere o.xapian (bs "XDG_DATA_HOME") (bs ".local/share") (bs "backups")) else none,
     if k = bs "database.mail_root" then configured o (bs "database.path") else none,
     default o.env o.pwName o.pwUser k]

/-- The text between the `;` that do not follow a backslash; `esc`: the byte before is a backslash. -/
def segments : Bool → Str → List Str
  | _, [] => [[]]
  | esc, c :: s =>
    if c = 59 ∧ esc = false then [] :: segments false s
    else match segments (c == 92) s with
      | [] => [[c]]
      | f :: l => (c :: f) :: l

/-- Without white space at its ends. -/
def trim (s : Str) : Str := ((s.dropWhile isSpace).reverse.dropWhile isSpace).reverse

/-- The items of a list. -/
def items (s : Str) : List Str := ((segments false s).map trim).filter (· ≠ [])

end Notmuch.Config
