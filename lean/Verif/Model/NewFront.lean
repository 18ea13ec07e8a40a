import Verif.Model.New
import Verif.Model.Maildir
import Verif.Model.TagUtil
import Verif.Base.Dec

/-!
# notmuch-new.c: what is ignored, what is counted, the tags of new messages and the report

`New` is the scan itself.  Regular expressions are a parameter: `comp` is `regcomp` with REG_EXTENDED, which gives what `regexec` says.  Bytes: 47 `/`.
-/

namespace Notmuch.NewFront
open Notmuch.New (Path Kind Env Db Op)

/-! ## `new.ignore` -/

/-- The fields `ignore_verbatim` and `ignore_regex` of the state. -/
structure Ignore where
  verbatim : List Str
  regex : List (Str → Bool)

/-- `_setup_ignore`, notmuch-new.c:248-309: the loop over the values of `new.ignore`; `none` if there is an error. -/
def setupIgnore (comp : Str → Option (Str → Bool)) : List Str → Ignore → Option Ignore
  | [], ig => some ig
  | s :: ss, ig =>
    if s.length = 0 then none
    else if s.head? = some 47 then
      if s.length < 3 ∨ s.getLast? ≠ some 47 then none
      else
        match comp ((s.drop 1).take (s.length - 2)) with
        | none => none
        | some r => setupIgnore comp ss { ig with regex := ig.regex ++ [r] }
    else setupIgnore comp ss { ig with verbatim := ig.verbatim ++ [s] }

/-- `_get_relative_path`, notmuch-new.c:311-331. -/
def relativePath (root dirpath entry : Str) : Option Str :=
  if dirpath.take root.length ≠ root then none
  else
    match (dirpath.drop root.length).dropWhile (· = 47) with
    | [] => some entry
    | d => some (d ++ bs "/" ++ entry)

/-- `_entry_in_ignore_list`, notmuch-new.c:333-364. -/
def inIgnoreList (ig : Ignore) (root dirpath entry : Str) : Bool :=
  if ig.verbatim.any (fun v => entry = v) then true
  else if ig.regex.length = 0 then false
  else
    match relativePath root dirpath entry with
    | none => false
    | some path => ig.regex.any (fun r => r path)

/-- The path of a directory as the scan makes it, notmuch-new.c:616 (`"%s/%s", path, entry->d_name`), from the mail root. -/
def dirString (root : Str) (p : Path) : Str := p.foldl (fun d n => d ++ bs "/" ++ n) root

/-- The test of the scan (`New.Env.ignored`). -/
def ignoredBy (ig : Ignore) (root : Str) (p : Path) (n : Str) : Bool := inIgnoreList ig root (dirString root p) n

/-! ## Counting files -/

/-- The count, and after how many more tests of `interrupted` SIGINT comes. -/
structure CSt where
  count : Nat
  intr : Option Nat

/-- One test of `interrupted`. -/
def tick (st : CSt) : Bool × CSt :=
  match st.intr with
  | none => (false, st)
  | some 0 => (true, st)
  | some (k + 1) => (false, { st with intr := some k })

/-- The loop of `count_files`, notmuch-new.c:868-905. -/
def countLoop (rec : Path → CSt → Option CSt) (E : Env) (path : Path) : List Str → CSt → Option CSt
  | [], st => some st
  | n :: ns, st =>
    if (tick st).1 then some (tick st).2
    else if New.special n || n = bs ".notmuch" then countLoop rec E path ns (tick st).2
    else if E.ignored path n then countLoop rec E path ns (tick st).2
    else
      match E.fs.kind (path ++ [n]) with
      | .file => countLoop rec E path ns { (tick st).2 with count := (tick st).2.count + 1 }
      | .dir =>
        match rec (path ++ [n]) (tick st).2 with
        | none => none
        | some st => countLoop rec E path ns st
      | _ => countLoop rec E path ns (tick st).2

/-- `count_files`, notmuch-new.c:852-915; `none` if it does not end.  A directory that cannot be read counts as empty. -/
def countFiles (E : Env) : Nat → Path → CSt → Option CSt
  | 0, _, _ => none
  | fuel + 1, path, st => countLoop (countFiles E fuel) E path (E.inode path (E.fs.list path)) st

/-! ## The tags of new messages -/

/-- `notmuch_message_has_maildir_flag_st`, lib/message.cc:1821-1837. -/
def hasFlag (files : List Str) (flag : UInt8) : Bool :=
  match Maildir.combinedFlags files with
  | none => false
  | some fl => decide (flag ∈ fl)

/-- `notmuch_message_add_tag`, lib/message.cc:1648-1677, whose status is not looked at: a tag that is too long is not added. -/
def addTagIf (tags : List Str) (t : Str) : List Str := if t.length ≤ 200 then Maildir.addTag tags t else tags

/-- The loop over `new.tags`, notmuch-new.c:389-401. -/
def addNewTags (files : List Str) : List Str → List Str → List Str
  | [], tags => tags
  | t :: ts, tags => addNewTags files ts (if t ≠ bs "unread" ∨ hasFlag files 83 = false then addTagIf tags t else tags)

/-- The tags after `add_file` of a new message, notmuch-new.c:382-404. -/
def tagsOfNew (sync : Bool) (newTags files tags : List Str) : List Str :=
  addNewTags files newTags (if sync then Maildir.flagsToTags files tags else tags)

/-- The tags after `add_file` of another file of a message, notmuch-new.c:406-412. -/
def tagsOfDuplicate (sync : Bool) (files tags : List Str) : List Str := if sync then Maildir.flagsToTags files tags else tags

/-- The check of `new.tags`, notmuch-new.c:1176-1188. -/
def newTagsOk (newTags : List Str) : Bool := newTags.all (fun t => !TagUtil.illegalTag t false)

/-! ## The report -/

/-- The fields `added_messages`, `removed_messages` and `renamed_messages`. -/
structure Counts where
  added : Nat
  removed : Nat
  renamed : Nat
  deriving DecidableEq

/-- A file of the message `m` is in the database.  `mid` gives the id of the message in a file. -/
def hasMessage {M : Type} [DecidableEq M] (mid : Path → Str → M) (files : List (Path × Str)) (m : M) : Bool := files.any (fun f => mid f.1 f.2 = m)

/-- One change of the database: the library says SUCCESS for the first file of a message that is added and the last that is removed, else DUPLICATE_MESSAGE_ID
(lib/add-message.cc:545-561, lib/message.cc:880-912, 1425-1460); `add_file`, notmuch-new.c:381, and `remove_filename`, notmuch-new.c:955-969. -/
def countOp {M : Type} [DecidableEq M] (mid : Path → Str → M) (st : List (Path × Str) × Counts) : Op → List (Path × Str) × Counts
  | .add d n => (if (d, n) ∈ st.1 then st.1 else (d, n) :: st.1, if hasMessage mid st.1 (mid d n) then st.2 else { st.2 with added := st.2.added + 1 })
  | .removeFile d n =>
    if (d, n) ∈ st.1 then
      let rest := st.1.filter (· ≠ (d, n))
      (rest, if hasMessage mid rest (mid d n) then { st.2 with renamed := st.2.renamed + 1 } else { st.2 with removed := st.2.removed + 1 })
    else st
  | .deleteDir _ => st
  | .setMtime _ _ => st

/-- The counts of a run that made these changes, from the files that the database had. -/
def countOps {M : Type} [DecidableEq M] (mid : Path → Str → M) (files : List (Path × Str)) (ops : List Op) : List (Path × Str) × Counts :=
  ops.foldl (countOp mid) (files, ⟨0, 0, 0⟩)

/-- The end of `print_results`, notmuch-new.c:1040-1054. -/
def resultsText (c : Counts) : Str :=
  (if c.added ≠ 0 then bs "Added " ++ dec c.added ++ bs " new " ++ (if c.added = 1 then bs "message" else bs "messages") ++ bs " to the database." else bs "No new mail.") ++
  (if c.removed ≠ 0 then bs " Removed " ++ dec c.removed ++ bs " " ++ (if c.removed = 1 then bs "message" else bs "messages") ++ bs "." else []) ++
  (if c.renamed ≠ 0 then bs " Detected " ++ dec c.renamed ++ bs " file " ++ (if c.renamed = 1 then bs "rename" else bs "renames") ++ bs "." else []) ++ bs "\n"

end Notmuch.NewFront
