import Verif.Base.Bytes

/-!
# lib/message.cc: maildir flags and tags
-/

namespace Notmuch.Maildir

/-- `struct maildir_flag_tag` and the table `flag2tag`, lib/message.cc:64-77. -/
structure FlagTag where
  flag : UInt8
  tag : Str
  inverse : Bool

def flag2tag : List FlagTag :=
  [⟨68, bs "draft", false⟩, ⟨70, bs "flagged", false⟩, ⟨80, bs "passed", false⟩,
   ⟨82, bs "replied", false⟩, ⟨83, bs "unread", true⟩]

/-- Split at the last `/` (`strrchr (filename, '/')`): what precedes and what follows it. -/
def rsplitSlash : Str → Option (Str × Str)
  | [] => none
  | c :: s =>
    match rsplitSlash s with
    | some (a, b) => some (c :: a, b)
    | none => if c = 47 then some ([], s) else none

/-- `_filename_is_in_maildir`, lib/message.cc:1721-1757.  Instead of a pointer the result is the
decomposition `pre ++ "/" ++ dir ++ "/" ++ base` (the pointer points to `dir`). -/
def inMaildir (f : Str) : Option (Str × Str × Str) :=
  match rsplitSlash f with
  | none => none
  | some (before, base) =>
    if before.length < 4 then none
    else
      let pre := before.take (before.length - 4)
      let tl := before.drop (before.length - 4)
      if tl = bs "/cur" then some (pre, bs "cur", base)
      else if tl = bs "/new" then some (pre, bs "new", base)
      else none

/-- `strstr (filename, ":2,")`: the text before the first occurrence and after it. -/
def splitInfo : Str → Option (Str × Str)
  | [] => none
  | c :: s =>
    if [58, 50, 44].isPrefixOf (c :: s) then some ([], (c :: s).drop 3)
    else match splitInfo s with
      | some (a, b) => some (c :: a, b)
      | none => none

/-- `_ensure_maildir_flags` with `force`, lib/message.cc:1761-1806: the combined flags of all
files in a maildir; `none` if no file carries maildir information. -/
def combinedFlags : List Str → Option Str
  | [] => none
  | f :: fs =>
    let rest := combinedFlags fs
    match inMaildir f with
    | none => rest
    | some (_, dir, _) =>
      match splitInfo f with
      | some (_, flags) => some (flags ++ rest.getD [])
      | none => if dir = bs "new" then some (rest.getD []) else rest

/-- Adding and removing a tag (a term of the document), lib/message.cc:1648-1719. -/
def addTag (tags : List Str) (t : Str) : List Str := if t ∈ tags then tags else tags ++ [t]
def removeTag (tags : List Str) (t : Str) : List Str := tags.filter (· ≠ t)

/-- `notmuch_message_maildir_flags_to_tags`, lib/message.cc:1839-1873: the new tags, from the files
and the present tags. -/
def flagsToTags (files : List Str) (tags : List Str) : List Str :=
  match combinedFlags files with
  | none => tags
  | some flags =>
    flag2tag.foldl (fun tags e =>
      if (decide (e.flag ∈ flags)) ^^ e.inverse then addTag tags e.tag else removeTag tags e.tag) tags

/-- The inner loop of the first pass of `_get_maildir_flag_actions`, lib/message.cc:1900-1911. -/
def actionsOfTag (tag : Str) (acc : Str × Str) : Str × Str :=
  flag2tag.foldl (fun (acc : Str × Str) e =>
    if tag = e.tag then
      if e.inverse then (acc.1, acc.2 ++ [e.flag]) else (acc.1 ++ [e.flag], acc.2)
    else acc) acc

/-- `_get_maildir_flag_actions`, lib/message.cc:1880-1926: `(to_set, to_clear)`. -/
def getActions (tags : List Str) : Str × Str :=
  let acc := tags.foldl (fun acc t => actionsOfTag t acc) ([], [])
  flag2tag.foldl (fun (acc : Str × Str) e =>
    if e.inverse then
      if e.flag ∈ acc.2 then acc else (acc.1 ++ [e.flag], acc.2)
    else
      if e.flag ∈ acc.1 then acc else (acc.1, acc.2 ++ [e.flag])) acc

/-- `flag_map`, `flags_in_map` and `flags_changed`, lib/message.cc:1955-1957.  The map is a
function on the 128 indices. -/
structure FlagMap where
  map : Nat → Bool
  count : Int
  changed : Bool

def FlagMap.empty : FlagMap := ⟨fun _ => false, 0, false⟩
def FlagMap.put (m : FlagMap) (i : Nat) (b : Bool) (d : Int) (ch : Bool) : FlagMap :=
  { map := fun j => if j = i then b else m.map j, count := m.count + d, changed := ch }

/-- The loop over the existing flags, lib/message.cc:1969-1989; `none` is the early return.  A byte
of 128 or more is a negative `char`, hence a huge `unsigned int`, and takes the non-ASCII exit. -/
def scanFlags : Str → (last : Nat) → FlagMap → Option FlagMap
  | [], _, m => some m
  | c :: cs, last, m =>
    if c.toNat < last then none
    else if c.toNat > 127 then none
    else if m.map c.toNat then none
    else scanFlags cs c.toNat (m.put c.toNat true 1 m.changed)

/-- The loop over `flags_to_set`, lib/message.cc:1992-2000. -/
def setFlags (m : FlagMap) (fl : Str) : FlagMap :=
  fl.foldl (fun m c => if m.map c.toNat = false then m.put c.toNat true 1 true else m) m

/-- The loop over `flags_to_clear`, lib/message.cc:2001-2008. -/
def clearFlags (m : FlagMap) (fl : Str) : FlagMap :=
  fl.foldl (fun m c => if m.map c.toNat then m.put c.toNat false (-1) true else m) m

/-- The loop that writes the flags, lib/message.cc:2026-2034. -/
def flagString (m : FlagMap) : Str :=
  ((List.range 128).filter m.map).map UInt8.ofNat

/-- The size allocated for the new name, lib/message.cc:2016-2018. -/
def allocSize (base : Str) (m : FlagMap) : Int := base.length + 3 + m.count + 1

/-- The flag map after the three loops, with the text before the maildir information,
lib/message.cc:1962-2008.  `info?` tells whether `*info` is not NUL. -/
def newFlagMap (f toSet toClear : Str) : Option (Str × Bool × FlagMap) :=
  match splitInfo f with
  | none => some (f, false, clearFlags (setFlags .empty toSet) toClear)
  | some (base, flags) =>
    match scanFlags flags 0 .empty with
    | none => none
    | some m => some (base, true, clearFlags (setFlags m toSet) toClear)

/-- `_new_maildir_filename`, lib/message.cc:1946-2042; `none` means that no safe name exists. -/
def newMaildirFilename (f toSet toClear : Str) : Option Str :=
  match newFlagMap f toSet toClear with
  | none => none
  | some (base, info, m) =>
    let keep := match inMaildir f with
      | some (_, dir, _) => dir = bs "new" && !info && !m.changed
      | none => false
    if keep then some f
    else
      let f' := base ++ bs ":2," ++ flagString m
      match inMaildir f' with
      | some (pre, dir, b) => if dir = bs "new" then some (pre ++ bs "/cur/" ++ b) else some f'
      | none => some f'

/-- One file of `notmuch_message_tags_to_maildir_flags`, lib/message.cc:2064-2105: the name of the
file after the call.  `renameOk` tells whether `rename (2)` succeeds. -/
def syncFile (renameOk : Str → Str → Bool) (tags : List Str) (f : Str) : Str :=
  match inMaildir f with
  | none => f
  | some _ =>
    let a := getActions tags
    match newMaildirFilename f a.1 a.2 with
    | none => f
    | some f' => if f ≠ f' ∧ renameOk f f' = true then f' else f

/-- `notmuch_message_tags_to_maildir_flags`, lib/message.cc:2044-2112, for a writable database whose
updates succeed: the files of the message afterwards. -/
def tagsToFlags (renameOk : Str → Str → Bool) (files : List Str) (tags : List Str) : List Str :=
  files.map (syncFile renameOk tags)

end Notmuch.Maildir
