import Verif.Model.ConfigCmd

/-!
# `notmuch setup`

The configuration, key files and what is stored are those of `ConfigCmd`.  The texts that welcome a new user (notmuch-setup.c:46-88) are left out of the output.  After the
file is saved the code looks at `is_new` of an object that is already freed (notmuch-setup.c:236-240); this is not modelled.
-/

namespace Notmuch.Setup
open Notmuch.Args Notmuch.Cli Notmuch.Config Notmuch.ConfigCmd
open Notmuch.StringMap (Pair Map)

/-! ## Questions and answers -/

/-- What is left of standard input, as `getline` gives it, and what was written. -/
structure Dialog where
  lines : List Str
  out : Str

/-- The lines that `getline` gives, each with its newline. -/
def inputLines : Str → List Str
  | [] => []
  | c :: s =>
    if c = 10 then [c] :: inputLines s
    else
      match inputLines s with
      | [] => [[c]]
      | l :: ls => (c :: l) :: ls

/-- `chomp_newline`, notmuch-client.h:106-111, on what `getline` gave; `none` if it looks at the byte before the buffer (the line begins with a zero byte). -/
def chomp (l : Str) : Option Str :=
  match l.takeWhile (· ≠ 0) with
  | [] => none
  | s => some (if s.getLast? = some 10 then s.dropLast else s)

/-- `prompt`, notmuch-setup.c:137-146: the process ends when there is no more input. -/
def prompt (text : Str) (d : Dialog) : End ⊕ (Str × Dialog) :=
  match d.lines with
  | [] => .inl (.exit 1 (d.out ++ text ++ bs "Exiting.\n"))
  | l :: ls =>
    match chomp l with
    | none => .inl .crash
    | some a => .inr (a, ⟨ls, d.out ++ text⟩)

/-- The loop over the additional addresses that are known, notmuch-setup.c:171-181. -/
def askOld : List Str → Dialog → End ⊕ (List Str × Dialog)
  | [], d => .inr ([], d)
  | e :: es, d =>
    match prompt (bs "Additional email address [" ++ e ++ bs "]: ") d with
    | .inl x => .inl x
    | .inr (a, d) =>
      match askOld es d with
      | .inl x => .inl x
      | .inr (l, d) => .inr ((if a.length ≠ 0 then a else e) :: l, d)

/-- The loop for more additional addresses, notmuch-setup.c:183-187. -/
def askMore : List Str → Str → End ⊕ (List Str × Dialog)
  | [], out => .inl (.exit 1 (out ++ bs "Additional email address [Press 'Enter' if none]: " ++ bs "Exiting.\n"))
  | l :: ls, out =>
    match chomp l with
    | none => .inl .crash
    | some a =>
      if a.length ≠ 0 then
        match askMore ls (out ++ bs "Additional email address [Press 'Enter' if none]: ") with
        | .inl x => .inl x
        | .inr (l, d) => .inr (a :: l, d)
      else .inr ([], ⟨ls, out ++ bs "Additional email address [Press 'Enter' if none]: "⟩)

/-- `print_tag_list`, notmuch-setup.c:90-103. -/
def tagListText (tags : List Str) : Str := tags.flatMap (fun t => bs " " ++ t)

/-- What the configuration says at first: `printf` writes `(null)` for what is not there. -/
structure Current where
  name : Option Str
  email : Option Str
  other : List Str
  path : Option Str
  tags : List Str
  exclude : List Str

/-- What was answered. -/
structure Answers where
  name : Str
  email : Str
  other : List Str
  path : Str
  tags : Str
  exclude : Str

/-- The text for a value in a prompt. -/
def shown (v : Option Str) : Str := v.getD (bs "(null)")

/-- The questions of `notmuch_setup_command`, notmuch-setup.c:159-229. -/
def dialog (cur : Current) (d : Dialog) : End ⊕ (Answers × Dialog) :=
  match prompt (bs "Your full name [" ++ shown cur.name ++ bs "]: ") d with
  | .inl x => .inl x
  | .inr (name, d) =>
  match prompt (bs "Your primary email address [" ++ shown cur.email ++ bs "]: ") d with
  | .inl x => .inl x
  | .inr (email, d) =>
  match askOld cur.other d with
  | .inl x => .inl x
  | .inr (old, d) =>
  match askMore d.lines d.out with
  | .inl x => .inl x
  | .inr (more, d) =>
  match prompt (bs "Top-level directory of your email archive [" ++ shown cur.path ++ bs "]: ") d with
  | .inl x => .inl x
  | .inr (path, d) =>
  match prompt (bs "Tags to apply to all new messages (separated by spaces) [" ++ tagListText cur.tags ++ bs "]: ") d with
  | .inl x => .inl x
  | .inr (tags, d) =>
  match prompt (bs "Tags to exclude when searching messages (separated by spaces) [" ++ tagListText cur.exclude ++ bs "]: ") d with
  | .inl x => .inl x
  | .inr (exclude, d) => .inr (⟨name, email, old ++ more, path, tags, exclude⟩, d)

/-! ## The changes -/

/-- `make_path_absolute`, notmuch-setup.c:23-44; `cwd` is `getcwd`. -/
def makeAbsolute (cwd : Option Str) (path : Str) : Option Str :=
  if path.head? = some 47 then some path else cwd.map (fun d => d ++ bs "/" ++ path)

/-- The loop of `parse_tag_list`, notmuch-setup.c:112-121. -/
def parseTagLoop : Nat → Str → List Str
  | 0, _ => []
  | n + 1, s => if s = [] then [] else s.takeWhile (· ≠ 32) :: parseTagLoop n ((s.dropWhile (· ≠ 32)).dropWhile (· = 32))

/-- `parse_tag_list`, notmuch-setup.c:105-124. -/
def parseTagList (s : Str) : List Str := parseTagLoop s.length s

/-- `_config_set` of an answer that is not empty, notmuch-config.c:387-392. -/
def setOne (g k v : Str) (f : KeyFile) : KeyFile := if v.length ≠ 0 then change g k f [v] else f

/-- `_config_set_list`, notmuch-config.c:394-404; it looks at the first of a list, which is `NULL` if there is none (`none`). -/
def setList (g k : Str) (vs : List Str) (f : KeyFile) : Option KeyFile := if vs.length = 0 then none else some (change g k f vs)

/-- `notmuch_conffile_set_database_path` of an absolute path, notmuch-setup.c:199-201: GLib does not take a value that is `NULL`. -/
def setPath (cwd : Option Str) (path : Str) (f : KeyFile) : KeyFile :=
  match makeAbsolute cwd path with
  | none => f
  | some p => change (bs "database") (bs "path") f [p]

/-- The answers in the file, notmuch-setup.c:162, 167, 188-192, 197-202, 210-217, 225-233. -/
def edit (cwd : Option Str) (a : Answers) (f : KeyFile) : Option KeyFile :=
  let f := setOne (bs "user") (bs "name") a.name f
  let f := setOne (bs "user") (bs "primary_email") a.email f
  (if a.other.length ≠ 0 then setList (bs "user") (bs "other_email") a.other f else some f).bind (fun f =>
  let f := if a.path.length ≠ 0 then setPath cwd a.path f else f
  (if a.tags.length ≠ 0 then setList (bs "new") (bs "tags") (parseTagList a.tags) f else some f).bind (fun f =>
  if a.exclude.length ≠ 0 then setList (bs "search") (bs "exclude_tags") (parseTagList a.exclude) f else some f))

/-- A group that is made to exist, notmuch-config.c:283-286. -/
def addGroup (f : KeyFile) (g : Str) : KeyFile := if f.any (fun x => x.1 = g) then f else f ++ [(g, [])]

/-- The groups of `group_comment_table`, notmuch-config.c:281-300. -/
def addGroups (f : KeyFile) : KeyFile := [bs "database", bs "user", bs "new", bs "search", bs "maildir"].foldl addGroup f

/-! ## The command -/

/-- Values of the configuration, got one after another. -/
def getKeys (qs : List Pair → List Pair) : Map → List Str → Option (List (Option Str))
  | _, [] => some []
  | m, k :: ks => (StringMap.get qs m k).bind (fun r => (getKeys qs r.1 ks).map (fun l => r.2 :: l))

/-- The values of a key, `notmuch_config_get_values`. -/
def valuesOf (v : Option Str) : List Str :=
  match v with
  | none => []
  | some v => values v

/-- The values that the questions show, notmuch-setup.c:159, 164, 171, 194, 204, 219. -/
def current (qs : List Pair → List Pair) (m : Map) : Option Current :=
  (getKeys qs m [bs "user.name", bs "user.primary_email", bs "user.other_email", bs "database.path", bs "new.tags", bs "search.exclude_tags"]).bind (fun l =>
    match l with
    | [a, b, c, d, e, f] => some ⟨a, b, valuesOf c, d, valuesOf e, valuesOf f⟩
    | _ => none)

/-- From the questions on, notmuch-setup.c:159-243; `f` is the file as it was read. -/
def setupFile (W : World) (s : State) (cwd : Option Str) (input : Str) (p : Str) (f : KeyFile) (cur : Current) : State × End :=
  match dialog cur ⟨inputLines input, []⟩ with
  | .inl e => (s, e)
  | .inr (a, d) =>
    match edit cwd a (addGroups f) with
    | none => (s, .crash)
    | some f' => if !W.save p then (s, .exit 1 d.out) else ({ s with files := fun q => if q = p then some f' else s.files q }, .exit 0 d.out)

/-- `notmuch_setup_command`, notmuch-setup.c:126-243; `path` is the configuration file of this run.  A file that is not there is new, one that cannot be read an error,
notmuch-config.c:144-162. -/
def setupCommand (qs : List Pair → List Pair) (W : World) (s : State) (sh : Shared) (path : Option Str) (m : Map) (cwd : Option Str) (input : Str) (args : List Str) : State × End :=
  match Main.minimalOptions W.sys sh (some (bs "setup")) args with
  | .inl e => (s, e)
  | .inr _ =>
    if (s.files (conffilePath W path)).isNone && W.isThere (conffilePath W path) then (s, .exit 1 [])
    else
      match current qs m with
      | none => (s, .crash)
      | some cur => setupFile W s cwd input (conffilePath W path) ((s.files (conffilePath W path)).getD []) cur

/-- `notmuch setup` from the reading of the configuration on: notmuch.c:556-604; that there is no file is no error. -/
def notmuchSetup (qs : List Pair → List Pair) (W : World) (s : State) (arg : Option Str) (sh : Shared) (cwd : Option Str) (input : Str) (args : List Str) : State × End :=
  match load qs W s arg with
  | none => (s, .crash)
  | some (.failed, _, _) => (s, .exit 1 [])
  | some (_, m, _) => setupCommand qs W s sh (configPath W s arg) m cwd input args

end Notmuch.Setup
