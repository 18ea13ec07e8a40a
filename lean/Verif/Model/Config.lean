import Verif.Model.StringUtil
import Verif.Model.StringMap

/-!
# Configuration and where the database is: lib/config.cc, lib/open.cc

GLib's key files are given as lists of (group, key, value); $HOME is set; `qs` stands for `qsort` as in `Verif.Model.StringMap`.  A value NULL in the map
(a key without a default) is the same as no entry.  Running out of memory and exceptions of Xapian are not modelled.
-/

namespace Notmuch.Config

open Notmuch.StringMap (Pair Map)
open Notmuch.StringUtil (strsplitLen stripTrailing strcaseEqual)

/-! ## Lists of values -/

/-- The loop with `notmuch_config_values_valid`, `_get` and `_move_to_next`, lib/config.cc:277-333: `iterator` and `tok_len` are those that `strsplit_len` gives. -/
def valuesLoop : Nat → Str → List Str
  | 0, _ => []
  | fuel + 1, s =>
    match strsplitLen s 59 with
    | none => []
    | some (it, len) => it.take len :: valuesLoop fuel (it.drop len)

/-- `notmuch_config_get_values_string`, lib/config.cc:277-301, read to its end. -/
def values (s : Str) : List Str := valuesLoop (s.length + 1) s

/-- `notmuch_config_get_bool`, lib/config.cc:461-487: `none` is ILLEGAL_ARGUMENT. -/
def getBool : Option Str → Option Bool
  | none => some false
  | some s =>
    if strcaseEqual s (bs "false") || strcaseEqual s (bs "no") then some false
    else if strcaseEqual s (bs "true") || strcaseEqual s (bs "yes") then some true
    else none

/-! ## Where things are -/

/-- The environment: `getenv`, with $HOME apart. -/
structure Env where
  home : Str
  get : Str → Option Str

/-- `_xdg_dir`, lib/open.cc:43-72. -/
def xdgDir (e : Env) (var pre : Str) (profile : Option Str) : Str :=
  (e.get var).getD (e.home ++ bs "/" ++ pre) ++ bs "/notmuch/" ++ (profile.or (e.get (bs "NOTMUCH_PROFILE"))).getD (bs "default")

/-- The file that `_load_key_file` reads, lib/open.cc:116-163; `readable` is `access (path, R_OK) == 0`. -/
def configFile (e : Env) (path profile : Option Str) (readable : Str → Bool) : Option Str :=
  if path = some [] then none
  else
    match path.or (e.get (bs "NOTMUCH_CONFIG")) with
    | some p => some p
    | none =>
      let x := xdgDir e (bs "XDG_CONFIG_HOME") (bs ".config") profile ++ bs "/config"
      if readable x then some x
      else
        match profile.or (e.get (bs "NOTMUCH_PROFILE")) with
        | some p => some (e.home ++ bs "/.notmuch-config" ++ bs "." ++ p)
        | none => some (e.home ++ bs "/.notmuch-config")

inductive Status where
  | success
  | noDatabase
  | pathError
  | noMailRoot
  | fileError
  deriving DecidableEq

/-- `path[0] == '/'`. -/
def absolute (p : Str) : Bool := p.head? = some 47

/-- A path in the configuration file: relative to $HOME, lib/open.cc:205-210. -/
def fromHome (e : Env) (p : Str) : Str := if absolute p then p else e.home ++ bs "/" ++ p

/-- `_choose_database_path`, lib/open.cc:189-262: status, path, and whether NOTMUCH_PARAM_SPLIT is set; `file` is database.path in the configuration file. -/
def choosePath (e : Env) (profile file : Option Str) (isDir : Str → Bool) (arg : Option Str) : Status × Option Str × Bool :=
  let p := arg.or (e.get (bs "NOTMUCH_DATABASE"))
  let p := if p.isNone then file.map (fromHome e) else p
  let x := xdgDir e (bs "XDG_DATA_HOME") (bs ".local/share") profile
  let split := p.isNone && isDir x
  let p := if split then some x else p
  let p := p.or (e.get (bs "MAILDIR"))
  let m := e.home ++ bs "/mail"
  let p := if p.isNone && isDir m then some m else p
  match p with
  | none => (.noDatabase, none, split)
  | some p =>
    if !absolute p then (.pathError, some p, split)
    else if !isDir p then (.noDatabase, some p, split)
    else (.success, some p, split)

/-- `_create_database_path`, lib/open.cc:275-310; `mkdir` tells whether `g_mkdir_with_parents` succeeds. -/
def createPath (e : Env) (profile file : Option Str) (mkdir : Str → Bool) (arg : Option Str) : Status × Str × Bool :=
  let p := arg.or (e.get (bs "NOTMUCH_DATABASE"))
  let p := if p.isNone then file.map (fromHome e) else p
  let split := p.isNone
  let p := p.getD (xdgDir e (bs "XDG_DATA_HOME") (bs ".local/share") profile)
  if !absolute p then (.pathError, p, split)
  else if !mkdir p then (.fileError, p, split)
  else (.success, p, split)

/-- What a trial to open a Xapian database gives, lib/open.cc:342-360. -/
inductive Trial where
  | ok
  | notThere
  | exception
  deriving DecidableEq

/-- `_notmuch_choose_xapian_path`, lib/open.cc:362-393. -/
def choosePathX (isDir : Str → Bool) (trial : Str → Trial) (p : Str) : Option Str :=
  if !isDir p then none
  else
    match trial (p ++ bs "/xapian") with
    | .ok => some (p ++ bs "/xapian")
    | .exception => none
    | .notThere =>
      if !isDir (p ++ bs "/.notmuch") then none
      else if trial (p ++ bs "/.notmuch" ++ bs "/xapian") = .ok then some (p ++ bs "/.notmuch" ++ bs "/xapian")
      else none

/-! ## The configuration of a database -/

/-- `_expand_path`, lib/config.cc:385-401. -/
def expandPath (e : Env) (key val : Str) : Str :=
  if (key = bs "database.path" ∨ key = bs "database.mail_root" ∨ key = bs "database.hook_dir" ∨ key = bs "database.backup_path") ∧ absolute val = false then
    e.home ++ bs "/" ++ val
  else val

/-- `_notmuch_config_load_from_database`, lib/config.cc:238-270; `mdata` is the metadata with the prefix "C", in the order of its keys; `arg` tells whether the
database was opened from a given path. -/
def loadDb (e : Env) (arg : Bool) (m : Map) (mdata : List (Str × Str)) : Map :=
  mdata.foldl (fun m kv => if kv.1 = bs "database.path" ∧ arg then m else StringMap.append m kv.1 (expandPath e kv.1 kv.2)) m

/-- The key of an entry of the file, lib/config.cc:421. -/
def absoluteKey (x : Str × Str × Str) : Str := x.1 ++ bs "." ++ x.2.1

/-- `_notmuch_config_load_from_file`, lib/config.cc:403-459. -/
def loadFile (qs : List Pair → List Pair) (e : Env) (arg : Bool) : Map → List (Str × Str × Str) → Option Map
  | m, [] => some m
  | m, x :: l =>
    if absoluteKey x = bs "database.path" ∧ arg then loadFile qs e arg m l
    else (StringMap.set qs m (absoluteKey x) (expandPath e (absoluteKey x) x.2.2)).bind (fun m => loadFile qs e arg m l)

/-- A value that is set if there is none. -/
def setDefault (qs : List Pair → List Pair) (m : Map) (key : Str) (val : Map → Option (Map × Option Str)) : Option Map :=
  (StringMap.get qs m key).bind (fun r =>
    if r.2.isSome then some r.1
    else (val r.1).bind (fun v => if v.2.isNone then some v.1 else StringMap.set qs v.1 key (v.2.getD [])))

/-- `dirname`, of a path with a `/` that does not end in one. -/
def dirname (p : Str) : Str := (p.reverse.dropWhile (· ≠ 47)).tail.reverse

/-- `_choose_dir`, lib/open.cc:74-113, when `stat` gives no other error than ENOENT: `isThere` tells whether it succeeds. -/
def dirDefault (e : Env) (profile : Option Str) (isThere : Str → Bool) (xapian var pre sub : Str) : Str :=
  if isThere (xdgDir e var pre profile ++ bs "/" ++ sub) then xdgDir e var pre profile ++ bs "/" ++ sub else dirname xapian ++ bs "/" ++ sub

/-- `_notmuch_config_default`, lib/config.cc:613-664, without database.path and database.mail_root; `pwName` and `pwUser` are from the passwd file. -/
def default (e : Env) (pwName pwUser : Str) (key : Str) : Option Str :=
  if key = bs "search.exclude_tags" then some []
  else if key = bs "new.tags" then some (bs "unread;inbox")
  else if key = bs "new.ignore" then some []
  else if key = bs "maildir.synchronize_flags" then some (bs "true")
  else if key = bs "user.primary_email" then some ((e.get (bs "EMAIL")).getD (pwUser ++ bs "@localhost"))
  else if key = bs "user.name" then some ((e.get (bs "NAME")).getD pwName)
  else if key = bs "database.autocommit" then some (bs "8000")
  else if key = bs "index.as_text" then some []
  else none

/-- The keys that have defaults after database.path and database.mail_root, in the order of `notmuch_config_key_t` (those without one are left out). -/
def defaultKeys : List Str :=
  [bs "search.exclude_tags", bs "new.tags", bs "new.ignore", bs "maildir.synchronize_flags", bs "user.primary_email", bs "user.name", bs "database.autocommit",
   bs "index.as_text"]

/-- The loop of `_notmuch_config_load_defaults` from there on. -/
def loadRest (qs : List Pair → List Pair) (e : Env) (pwName pwUser : Str) : Map → List Str → Option Map
  | m, [] => some m
  | m, k :: l => (setDefault qs m k (fun m => some (m, default e pwName pwUser k))).bind (fun m => loadRest qs e pwName pwUser m l)

/-- `_notmuch_config_load_defaults`, lib/config.cc:666-692: database.path has a value already; that of mail_root is it. -/
def loadDefaults (qs : List Pair → List Pair) (e : Env) (pwName pwUser : Str) (m : Map) : Option Map :=
  (setDefault qs m (bs "database.mail_root") (fun m => StringMap.get qs m (bs "database.path"))).bind (fun m => loadRest qs e pwName pwUser m defaultKeys)

/-- What a database is opened with. -/
structure Opening where
  env : Env
  profile : Option Str
  /-- whether a path was given -/
  arg : Bool
  /-- the path that was chosen, and the path of the Xapian database -/
  path : Str
  xapian : Str
  file : List (Str × Str × Str)
  mdata : List (Str × Str)
  isThere : Str → Bool
  pwName : Str
  pwUser : Str

/-- The configuration after `notmuch_database_open_with_config`: `_set_database_path`, lib/open.cc:395-404, and lib/open.cc:558-584. -/
def openConfig (qs : List Pair → List Pair) (o : Opening) : Option Map :=
  (StringMap.set qs StringMap.create (bs "database.path") (stripTrailing o.path 47)).bind (fun m =>
  (loadFile qs o.env o.arg (loadDb o.env o.arg m o.mdata) o.file).bind (fun m =>
  (setDefault qs m (bs "database.hook_dir") (fun m => some (m, some (dirDefault o.env o.profile o.isThere o.xapian (bs "XDG_CONFIG_HOME") (bs ".config") (bs "hooks"))))).bind (fun m =>
  (setDefault qs m (bs "database.backup_dir") (fun m => some (m, some (dirDefault o.env o.profile o.isThere o.xapian (bs "XDG_DATA_HOME") (bs ".local/share") (bs "backups"))))).bind (fun m =>
  loadDefaults qs o.env o.pwName o.pwUser m))))

/-- `set_metadata`: an empty value removes the key. -/
def setMeta (mdata : List (Str × Str)) (k v : Str) : List (Str × Str) := mdata.filter (fun x => x.1 ≠ k) ++ (if v = [] then [] else [(k, v)])

/-- `notmuch_database_set_config`, lib/config.cc:57-91, of a writable database with its configuration loaded. -/
def setConfig (qs : List Pair → List Pair) (m : Map) (mdata : List (Str × Str)) (k v : Str) : Option (Map × List (Str × Str)) :=
  (StringMap.set qs m k v).map (fun m => (m, setMeta mdata k v))

/-- `notmuch_database_get_config`, lib/config.cc:110-138. -/
def getConfig (qs : List Pair → List Pair) (m : Map) (k : Str) : Option Str := (StringMap.get qs m k).map (fun r => r.2.getD [])

end Notmuch.Config
