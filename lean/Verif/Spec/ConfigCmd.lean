import Verif.Model.ConfigCmd
import Verif.Spec.Config

/-! # Specification: `notmuch config` (C61) -/

namespace Notmuch.ConfigCmd

open Notmuch.Config Notmuch.Cli
open Notmuch.StringUtil (stripTrailing)

/-- What a key has if it is not in the file: what the database says, if there is one, the place of the database, and what depends on where it is. -/
def base (W : World) (s : State) (pl : Status × Option Str × Bool) (k : Str) : Option Str :=
  match xapianAt W pl, pl with
  | some x, (_, some p, _) =>
    firstSome [(dbValue (s.dbs x) k).map (expandPath W.env k), if k = bs "database.path" then some (stripTrailing p 47) else none,
      if k = bs "database.hook_dir" then some (dirDefault W.env none W.isThere x (bs "XDG_CONFIG_HOME") (bs ".config") (bs "hooks")) else none,
      if k = bs "database.backup_dir" then some (dirDefault W.env none W.isThere x (bs "XDG_DATA_HOME") (bs ".local/share") (bs "backups")) else none]
  | none, (.success, some p, _) => if k = bs "database.path" then some (stripTrailing p 47) else none
  | _, _ => none

/-- The path of the database if nothing is said about it: `$MAILDIR`, or `mail` in the home directory. -/
def defaultPath (e : Env) : Str :=
  match e.get (bs "MAILDIR") with
  | some d => d
  | none => e.home ++ bs "/mail"

/-- The value of a key: that in the file, else the one that it has without the file; and there are defaults. -/
def found (e : Env) (file : List (Str × Str × Str)) (b : Str → Option Str) (k : Str) : Option Str :=
  firstSome [(fileValue file k).map (expandPath e k), b k, if k = bs "database.path" then some (defaultPath e) else none]

/-- The value of a key: what was found, or its default. -/
def valueOf (e : Env) (pwName pwUser : Str) (file : List (Str × Str × Str)) (b : Str → Option Str) (k : Str) : Option Str :=
  firstSome [found e file b k, if k = bs "database.mail_root" then found e file b (bs "database.path") else none, default e pwName pwUser k]

/-- The file as it is read; that it is not there is the same as that it is empty. -/
def theFile (W : World) (s : State) (arg : Option Str) : KeyFile := ((configPath W s arg).bind s.files).getD []

/-- Nothing is wrong with the configuration: its texts are valid, the path of the database is absolute, and if the database is not with the mail but does not
exist yet it is known where the mail is. -/
def Loads (W : World) (s : State) (arg : Option Str) (file : List (Str × Str × Str)) : Prop :=
  decode (entriesOf (theFile W s arg)) = some file ∧ (place W (theFile W s arg)).1 ≠ .pathError ∧
  ((place W (theFile W s arg)).2.2 = true → xapianAt W (place W (theFile W s arg)) = none → (fileValue file (bs "database.mail_root")).isSome)

/-- The configuration that a command has. -/
def conf (W : World) (s : State) (arg : Option Str) (file : List (Str × Str × Str)) : Str → Option Str :=
  valueOf W.env W.pwName W.pwUser file (base W s (place W (theFile W s arg)))

/-- What Xapian guarantees of the metadata, and the path of a database is not in it. -/
def GoodDbs (s : State) : Prop := ∀ x, ((s.dbs x).map (·.1)).Nodup ∧ bs "database.path" ∉ (s.dbs x).map (·.1)

/-- What GLib guarantees of a file: groups, and the keys of a group, are there once. -/
def GoodFile (f : KeyFile) : Prop := (f.map (·.1)).Nodup ∧ ∀ x ∈ f, (x.2.map (·.1)).Nodup

/-- Several values are a list: each ends with `;`, and one in it has a backslash before it. -/
def stored : List Str → Str
  | [v] => v
  | vs => vs.flatMap (fun v => v.flatMap (fun c => if c = 59 then bs "\\;" else [c]) ++ bs ";")

/-- A text that can be the name of a group or a key. -/
def Name (s : Str) : Prop := s ≠ [] ∧ ∀ c ∈ s, 32 < c ∧ c ≠ 127 ∧ c ≠ 35 ∧ c ≠ 61 ∧ c ≠ 91 ∧ c ≠ 93

/-- A value of a list that is read as it was written. -/
def Plain (v : Str) : Prop := v ≠ [] ∧ 59 ∉ v ∧ v.getLast? ≠ some 92 ∧ (∀ c, v.head? = some c → isSpace c = false) ∧ (∀ c, v.getLast? = some c → isSpace c = false)

/-- Each on a line. -/
def eachLine (l : List Str) : Str := l.flatMap (· ++ bs "\n")

end Notmuch.ConfigCmd
