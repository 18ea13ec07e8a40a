import Verif.Model.Config
import Verif.Model.Main

/-!
# `notmuch config`

GLib's key files are lists of groups with their keys and their values as they are in the file (GLib's `gkeyfile.c`).  That a file is written as it is in
memory and read back as it was written is taken from GLib (it is not so for names with control characters, or keys that begin with `#`), as is that
`g_file_set_contents` replaces a file as a whole or not at all.  Comments are left out.
-/

namespace Notmuch.ConfigCmd

open Notmuch.Args Notmuch.Cli Notmuch.Config
open Notmuch.StringMap (Pair Map)

/-! ## Key files -/

/-- Where `g_utf8_validate` is: at the beginning of a character, or before so many bytes of it (after `E0`, `ED`, `F0` and `F4` not all are allowed). -/
inductive Utf8 where
  | start
  | c1
  | c2
  | c3
  | e0
  | ed
  | f0
  | f4
  deriving DecidableEq

/-- One byte of `g_utf8_validate`. -/
def utf8Step : Utf8 → UInt8 → Option Utf8
  | .start, c =>
    if c = 0 then none else if c < 0x80 then some .start else if c < 0xC2 then none else if c < 0xE0 then some .c1 else if c = 0xE0 then some .e0
    else if c = 0xED then some .ed else if c < 0xF0 then some .c2 else if c = 0xF0 then some .f0 else if c < 0xF4 then some .c3 else if c = 0xF4 then some .f4 else none
  | .c1, c => if 0x80 ≤ c ∧ c < 0xC0 then some .start else none
  | .c2, c => if 0x80 ≤ c ∧ c < 0xC0 then some .c1 else none
  | .c3, c => if 0x80 ≤ c ∧ c < 0xC0 then some .c2 else none
  | .e0, c => if 0xA0 ≤ c ∧ c < 0xC0 then some .c1 else none
  | .ed, c => if 0x80 ≤ c ∧ c < 0xA0 then some .c1 else none
  | .f0, c => if 0x90 ≤ c ∧ c < 0xC0 then some .c2 else none
  | .f4, c => if 0x80 ≤ c ∧ c < 0x90 then some .c2 else none

/-- `g_utf8_validate`. -/
def utf8From : Utf8 → Str → Bool
  | q, [] => q = .start
  | q, c :: s =>
    match utf8Step q c with
    | none => false
    | some q => utf8From q s

/-- `g_utf8_validate` of a whole text. -/
def utf8 (s : Str) : Bool := utf8From .start s

/-- `g_key_file_is_group_name`. -/
def groupName (s : Str) : Bool := s ≠ [] && s.all (fun c => c ≠ 91 && c ≠ 93 && 32 ≤ c && c ≠ 127)

/-- `g_key_file_is_key_name`, without keys for a language (`key[de]`). -/
def keyName (s : Str) : Bool := s ≠ [] && s.all (fun c => c ≠ 61 && c ≠ 91 && c ≠ 93) && s.head? ≠ some 32 && s.getLast? ≠ some 32

/-- A file: its groups, with their keys. -/
abbrev KeyFile := List (Str × List (Str × Str))

/-- One byte of `g_key_file_parse_string_as_value`, called by `g_key_file_set_string` (without separator) and `g_key_file_set_string_list` (with): what is
written, and whether the leading space goes on. -/
def escapeByte (sep leading : Bool) (c : UInt8) : Str × Bool :=
  if c = 32 then (if leading then bs "\\s" else [32], leading)
  else if c = 9 then (if leading then bs "\\t" else [9], leading)
  else if c = 10 then (bs "\\n", leading)
  else if c = 13 then (bs "\\r", leading)
  else if c = 92 then (bs "\\\\", false)
  else if sep && c = 59 then (bs "\\;", true)
  else ([c], false)

/-- `g_key_file_parse_string_as_value`. -/
def escape (sep : Bool) : Bool → Str → Str
  | _, [] => []
  | leading, c :: s => (escapeByte sep leading c).1 ++ escape sep (escapeByte sep leading c).2 s

/-- What a byte after a backslash stands for, in `g_key_file_parse_value_as_string` without a list: what is no escape sequence is an error of GLib, but the text
is given nevertheless (and used, lib/config.cc:443-455). -/
def unescapeByte (c : UInt8) : Str :=
  if c = 115 then [32] else if c = 110 then [10] else if c = 116 then [9] else if c = 114 then [13] else if c = 92 then [92] else [92, c]

/-- `g_key_file_parse_value_as_string` without a list, for `g_key_file_get_string`; `esc`: after a backslash (at the end of the value it is nothing). -/
def unescape : Bool → Str → Str
  | _, [] => []
  | false, c :: s => if c = 92 then unescape true s else c :: unescape false s
  | true, c :: s => unescapeByte c ++ unescape false s

/-- White space at the beginning of a value is not read (`g_key_file_parse_key_value_pair`, with `g_ascii_isspace`). -/
def chug (s : Str) : Str := s.dropWhile (fun c => c = 32 || c = 9 || c = 10 || c = 12 || c = 13)

/-- `g_key_file_set_value` in a group. -/
def putKey (k v : Str) : List (Str × Str) → List (Str × Str)
  | [] => [(k, v)]
  | x :: l => if x.1 = k then (k, v) :: l else x :: putKey k v l

/-- `g_key_file_set_value`: a group that is not there is made, at the end. -/
def putValue (g k v : Str) : KeyFile → KeyFile
  | [] => [(g, [(k, v)])]
  | x :: l => if x.1 = g then (g, putKey k v x.2) :: l else x :: putValue g k v l

/-- `g_key_file_set_value` with its checks: with a name that is none, it does nothing. -/
def setValue (g k v : Str) (f : KeyFile) : KeyFile := if groupName g && keyName k then putValue g k (chug v) f else f

/-- `g_key_file_remove_key`. -/
def removeKey (g k : Str) (f : KeyFile) : KeyFile := f.map (fun x => if x.1 = g then (x.1, x.2.filter (fun y => y.1 ≠ k)) else x)

/-- `g_key_file_get_value`. -/
def lookup (g k : Str) (f : KeyFile) : Option Str := ((f.find? (fun x => x.1 = g)).bind (fun x => x.2.find? (fun y => y.1 = k))).map (·.2)

/-- `g_key_file_get_string`: `none` if the value is not valid UTF-8. -/
def getString (v : Str) : Option Str := if utf8 v then some (unescape false v) else none

/-- The keys and values as `_notmuch_config_load_from_file` gets them, lib/config.cc:431-455: `none` is `NOTMUCH_STATUS_FILE_ERROR`. -/
def decode : List (Str × Str × Str) → Option (List (Str × Str × Str))
  | [] => some []
  | x :: l => (getString x.2.2).bind (fun v => (decode l).map (fun l => (x.1, x.2.1, v) :: l))

/-- All keys of a file, lib/config.cc:431-433. -/
def entriesOf (f : KeyFile) : List (Str × Str × Str) := f.flatMap (fun x => x.2.map (fun y => (x.1, y.1, y.2)))

/-! ## Reading the configuration -/

/-- What does not change. `save`: whether a file can be written (notmuch-config.c:330-380); `reopen`, `setMetadata`, `close`: whether these calls succeed. -/
structure World where
  env : Env
  pwName : Str
  pwUser : Str
  isDir : Str → Bool
  trial : Str → Trial
  isThere : Str → Bool
  sys : Sys
  word : Str → Bool
  builtWith : Str → Bool
  save : Str → Bool
  reopen : Bool
  setMetadata : Str → Str → Bool
  close : Bool

/-- What is stored: the configuration files that can be read, and the configuration in the databases. -/
structure State where
  files : Str → Option KeyFile
  dbs : Str → List (Str × Str)

/-- The configuration file that is read: `notmuch_config_path`, lib/open.cc:116-163. -/
def configPath (W : World) (s : State) (arg : Option Str) : Option Str := configFile W.env arg none (fun p => (s.files p).isSome)

/-- Where the database is, lib/open.cc:189-262. -/
def place (W : World) (kf : KeyFile) : Status × Option Str × Bool :=
  choosePath W.env none ((lookup (bs "database") (bs "path") kf).bind getString) W.isDir none

/-- The Xapian database at a place, lib/open.cc:889-905. -/
def xapianAt (W : World) : Status × Option Str × Bool → Option Str
  | (.success, some p, _) => choosePathX W.isDir W.trial p
  | _ => none

/-- The configuration before the file is read (again), lib/open.cc:947-958 and 889-905: that of the database, if it is there (and can be opened). -/
def loadBase (qs : List Pair → List Pair) (W : World) (s : State) (file : List (Str × Str × Str)) (pl : Status × Option Str × Bool) : Option Map :=
  match xapianAt W pl, pl with
  | some x, (_, some p, _) => openConfig qs ⟨W.env, none, false, p, x, file, s.dbs x, W.isThere, W.pwName, W.pwUser⟩
  | none, (.success, some p, _) => StringMap.set qs StringMap.create (bs "database.path") (StringUtil.stripTrailing p 47)
  | _, _ => some StringMap.create

/-- The default of `database.path`, lib/config.cc:623-630. -/
def pathDefault (e : Env) : Str := (e.get (bs "MAILDIR")).getD (e.home ++ bs "/mail")

/-- `_notmuch_config_load_defaults`, lib/config.cc:676-702: status `NO_MAIL_ROOT` (`false`) if there is none and the database is not with the mail. -/
def allDefaults (qs : List Pair → List Pair) (W : World) (split : Bool) (m : Map) : Option (Bool × Map) :=
  (setDefault qs m (bs "database.path") (fun m => some (m, some (pathDefault W.env)))).bind (fun m =>
  (StringMap.get qs m (bs "database.mail_root")).bind (fun r =>
  (loadDefaults qs W.env W.pwName W.pwUser r.1).map (fun m => (r.2.isSome || !split, m))))

/-- `notmuch_database_load_config`, lib/open.cc:911-993, as it is called by `main`: the status, the configuration, and the Xapian database if it is open. -/
def load (qs : List Pair → List Pair) (W : World) (s : State) (arg : Option Str) : Option (Main.Loaded × Map × Option Str) :=
  let kf := (configPath W s arg).bind s.files
  let pl := place W (kf.getD [])
  if pl.1 = .pathError then some (.failed, StringMap.create, none)
  else
    match decode (entriesOf (kf.getD [])) with
    | none => some (.failed, StringMap.create, none)
    | some file =>
      (loadBase qs W s file pl).bind (fun m =>
      (loadFile qs W.env false m file).bind (fun m =>
      (allDefaults qs W pl.2.2 m).map (fun r =>
        if !r.1 then (.failed, StringMap.create, none)
        else if (configPath W s arg).isSome && kf.isNone then (.noConfig, r.2, xapianAt W pl)
        else if (xapianAt W pl).isSome then (.success, r.2, xapianAt W pl)
        else (.noDatabase, r.2, none))))

/-! ## The command -/

/-- `puts` of each. -/
def putsAll (l : List Str) : Str := l.flatMap (fun v => v ++ bs "\n")

/-- `notmuch_config_command_get`, notmuch-config.c:549-569. -/
def getCommand (qs : List Pair → List Pair) (W : World) (m : Map) (item : Str) : End :=
  if (bs "built_with.").isPrefixOf item then .exit 0 (if W.builtWith (item.drop 11) then bs "true\n" else bs "false\n")
  else
    match StringMap.get qs m item with
    | none => .crash
    | some (_, none) => .exit 0 []
    | some (_, some v) => .exit 0 (putsAll (values v))

/-- After the last `.`: `g_utf8_strrchr`, notmuch-config.c:489. -/
def afterLastDot (s : Str) : Str := (s.reverse.takeWhile (· ≠ 46)).reverse

/-- `validate_field_name`, notmuch-config.c:480-512. -/
def validateFieldName (W : World) (item : Str) : Bool :=
  utf8 item && afterLastDot item ≠ [] && W.word (afterLastDot item) &&
    !(match (afterLastDot item).head? with | some c => 97 ≤ c && c ≤ 122 | none => false)

/-- `_config_key_info` and the check, notmuch-config.c:522-547 and 637-639. -/
def validItem (W : World) (item : Str) : Bool :=
  if (bs "index.header.").isPrefixOf item || (bs "squery.").isPrefixOf item then validateFieldName W item else true

/-- `_item_split`, notmuch-config.c:457-476. -/
def itemSplit (item : Str) : Option (Str × Str) :=
  let g := item.takeWhile (· ≠ 46)
  match item.dropWhile (· ≠ 46) with
  | _ :: c :: k => some (g, c :: k)
  | _ => none

/-- The file that `notmuch_conffile_open` opens, notmuch-config.c:257-264. -/
def conffilePath (W : World) (p : Option Str) : Str := (p.or (W.env.get (bs "NOTMUCH_CONFIG"))).getD (W.env.home ++ bs "/.notmuch-config")

/-- The values as they are written, notmuch-config.c:659-671. -/
def change (g k : Str) (f : KeyFile) : List Str → KeyFile
  | [] => removeKey g k f
  | [v] => setValue g k (escape false true v) f
  | vs => setValue g k (vs.flatMap (fun v => escape true true v ++ bs ";")) f

/-- `_set_db_config`, notmuch-config.c:571-603; `x` is the Xapian database that is open. -/
def setDbCommand (W : World) (s : State) (x : Option Str) (item : Str) (vs : List Str) : State × End :=
  if 1 < vs.length then (s, .exit 1 [])
  else
    match x with
    | none => (s, .exit 1 [])
    | some x =>
      if !W.reopen || !W.setMetadata item (vs.head?.getD []) || !W.close then (s, .exit 1 [])
      else ({ s with dbs := fun y => if y = x then setMeta (s.dbs x) item (vs.head?.getD []) else s.dbs y }, .exit 0 [])

/-- `notmuch_config_command_set`, notmuch-config.c:605-682, in the configuration file; `path` is the file that was read. -/
def setFileCommand (W : World) (s : State) (path : Option Str) (item : Str) (vs : List Str) : State × End :=
  match itemSplit item with
  | none => (s, .exit 1 [])
  | some (g, k) =>
    match s.files (conffilePath W path) with
    | none => (s, .exit 1 [])
    | some f =>
      if !W.save (conffilePath W path) then (s, .exit 1 [])
      else ({ s with files := fun p => if p = conffilePath W path then some (change g k f vs) else s.files p }, .exit 0 [])

/-- `notmuch_config_command_set`, notmuch-config.c:605-682; `args` are the arguments after `set`. -/
def setCommand (W : World) (s : State) (path x : Option Str) (args : List Str) : State × End :=
  match parse configOptions args with
  | (.failed, _) => (s, .exit 1 [])
  | (.overrun, _) => (s, .crash)
  | (.rest [], _) => (s, .exit 1 [])
  | (.rest (item :: vs), w) =>
    if (bs "built_with.").isPrefixOf item then (s, .exit 1 [])
    else if !validItem W item then (s, .exit 1 [])
    else if boolVar 10 false w then setDbCommand W s x item vs
    else setFileCommand W s path item vs

/-- One of `built_with`, notmuch-config.c:684-703. -/
def builtWithLine (W : World) (name : Str) : Str := bs "built_with." ++ name ++ bs "=" ++ (if W.builtWith name then bs "true" else bs "false") ++ bs "\n"

/-- The loop of `notmuch_config_command_list`, notmuch-config.c:711-717. -/
def listLoop (m : Map) : Nat → StringMap.Iter → Str
  | 0, _ => []
  | n + 1, it =>
    match StringMap.iterPair m it with
    | none => []
    | some p => p.1 ++ bs "=" ++ p.2 ++ bs "\n" ++ listLoop m n (StringMap.iterNext m it)

/-- `notmuch_config_command_list`, notmuch-config.c:705-720. -/
def listCommand (qs : List Pair → List Pair) (W : World) (m : Map) : End :=
  match StringMap.iterCreate qs m [] false with
  | none => .crash
  | some (m, it) => .exit 0 ([bs "compact", bs "field_processor", bs "retry_lock", bs "sexp_queries"].flatMap (builtWithLine W) ++ listLoop m (m.pairs.length + 1) it)

/-- `notmuch_config_command`, notmuch-config.c:722-760; `args` are the arguments after `config`. -/
def configCommand (qs : List Pair → List Pair) (W : World) (s : State) (sh : Shared) (path : Option Str) (m : Map) (x : Option Str) (args : List Str) : State × End :=
  match Main.minimalOptions W.sys sh (some (bs "config")) args with
  | .inl e => (s, e)
  | .inr [] => (s, .exit 1 [])
  | .inr (c :: rest) =>
    if c = bs "get" then
      match rest with
      | [item] => (s, getCommand qs W m item)
      | _ => (s, .exit 1 [])
    else if c = bs "set" then setCommand W s path x rest
    else if c = bs "list" then (s, listCommand qs W m)
    else (s, .exit 1 [])

/-- `notmuch config` from the reading of the configuration on: notmuch.c:556-604. -/
def notmuchConfig (qs : List Pair → List Pair) (W : World) (s : State) (arg : Option Str) (sh : Shared) (args : List Str) : State × End :=
  match load qs W s arg with
  | none => (s, .crash)
  | some (.noConfig, _, _) => (s, .exit 0 [])
  | some (.failed, _, _) => (s, .exit 1 [])
  | some (_, m, x) => configCommand qs W s sh (configPath W s arg) m x args

end Notmuch.ConfigCmd
