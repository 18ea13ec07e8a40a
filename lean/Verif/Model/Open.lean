import Verif.Base.Dec
import Verif.Model.StringUtil
import Verif.Model.TagUtil

/-!
# Opening, versions, features and upgrading: lib/open.cc, lib/features.cc, lib/database.cc

Exceptions of Xapian are modelled only where a function reports an error (`Fault`).  The terms of messages other than their file names are not part of
this model.
-/

namespace Notmuch.Open

open Notmuch.StringUtil (strtokLen)
open Notmuch.TagUtil (strtokLen_rest_lt)

/-! ## Numbers in metadata -/

/-- An optional sign. -/
def sign : Str → Bool × Str
  | 45 :: r => (true, r)
  | 43 :: r => (false, r)
  | s => (false, s)

/-- The value of `strtoul` for a magnitude: clamped, and negated modulo 2^64. -/
def ulong (neg : Bool) (n : Nat) : Nat := if n ≥ 2 ^ 64 then 2 ^ 64 - 1 else if neg then (2 ^ 64 - n) % 2 ^ 64 else n

/-- `strtoul (s, &end, 10)` of the C library: the value, and what is left from `end` on. -/
def strtoul10 (s : Str) : Nat × Str :=
  let (neg, r) := sign (skipSpace s)
  if r.takeWhile isDigit = [] then (0, s) else (ulong neg (decVal (r.takeWhile isDigit)), r.dropWhile isDigit)

/-- `0x`, if a digit follows. -/
def skip0x : Str → Str
  | 48 :: x :: d :: r => if (x = 120 ∨ x = 88) ∧ isXDigit d then d :: r else 48 :: x :: d :: r
  | s => s

/-- The value of a string of hexadecimal digits. -/
def hexVal (s : Str) : Nat := s.foldl (fun a c => 16 * a + xval c) 0

/-- `strtoull (s, &end, 16)` of the C library. -/
def strtoull16 (s : Str) : Nat × Str :=
  let (neg, r) := sign (skipSpace s)
  if (skip0x r).takeWhile isXDigit = [] then (0, s) else (ulong neg (hexVal ((skip0x r).takeWhile isXDigit)), (skip0x r).dropWhile isXDigit)

/-- A digit of `%x`. -/
def hexDigit (n : Nat) : UInt8 := if n < 10 then UInt8.ofNat (48 + n) else UInt8.ofNat (87 + n)

/-- The last `k` hexadecimal digits. -/
def hexDigits : Nat → Nat → Str
  | 0, _ => []
  | k + 1, n => hexDigits k (n / 16) ++ [hexDigit (n % 16)]

/-- `%016" PRIx64`, of a 64 bit number. -/
def hex16 (n : Nat) : Str := hexDigits 16 (n % 2 ^ 64)

/-! ## lib/features.cc -/

/-- `enum _notmuch_features`, lib/database-private.h:65-123. -/
inductive Feature where
  | fileTerms
  | directoryDocs
  | fromSubjectIdValues
  | boolFolder
  | ghosts
  | indexedMimetypes
  | lastMod
  | unprefixBodyOnly
  deriving DecidableEq

open Feature

/-- A bit set of features (each has its own bit). -/
abbrev Features := Feature → Bool

/-- The order of `feature_names`, lib/features.cc:3-37. -/
def all : List Feature := [fileTerms, directoryDocs, fromSubjectIdValues, boolFolder, ghosts, indexedMimetypes, lastMod, unprefixBodyOnly]

/-- The names of `feature_names`, lib/features.cc:3-37. -/
def name : Feature → Str
  | fileTerms => bs "multiple paths per message"
  | directoryDocs => bs "relative directory paths"
  | fromSubjectIdValues => bs "from/subject/message-ID in database"
  | boolFolder => bs "exact folder:/path: search"
  | ghosts => bs "mail documents for missing messages"
  | indexedMimetypes => bs "indexed MIME types"
  | lastMod => bs "modification tracking"
  | unprefixBodyOnly => bs "index body and headers separately"

/-- The flags of `feature_names`, lib/features.cc:3-37. -/
def flags : Feature → Str
  | fileTerms => bs "rw"
  | directoryDocs => bs "rw"
  | fromSubjectIdValues => bs "w"
  | boolFolder => bs "rw"
  | ghosts => bs "w"
  | indexedMimetypes => bs "w"
  | lastMod => bs "w"
  | unprefixBodyOnly => bs "w"

/-- `_notmuch_database_print_features`, lib/features.cc:39-51. -/
def printFeatures (f : Features) : Str := all.flatMap (fun x => if f x then name x ++ bs "\t" ++ flags x ++ bs "\n" else [])

/-- NOTMUCH_FEATURES_V0, V1, V2, lib/database-private.h:302-305. -/
def featuresV0 : Features := fun _ => false
def featuresV1 : Features := fun x => featuresV0 x || x = fileTerms || x = directoryDocs
def featuresV2 : Features := fun x => featuresV1 x || x = boolFolder

/-- NOTMUCH_FEATURES_CURRENT, lib/database-private.h:313-316. -/
def featuresCurrent : Features := fun x => x = fileTerms || x = directoryDocs || x = boolFolder || x = ghosts || x = Feature.lastMod

/-- The loop over `feature_names`, lib/features.cc:92-99: the first with this name. -/
def findFeature (n : Str) : Option Feature := all.find? (fun x => name x = n)

/-- lib/features.cc:101-113: an unknown feature, and its flags from the tab on. -/
def addIncompat (mode : UInt8) (inc : Option Str) (n fl : Str) : Option Str :=
  if mode ∈ fl then some (inc.getD [] ++ (if inc.getD [] = [] then [] else bs ", ") ++ n) else inc

/-- One line of the features string, lib/features.cc:87-113. -/
def parseLine (mode : UInt8) (st : Features × Option Str) (l : Str) : Features × Option Str :=
  if 9 ∈ l then
    match findFeature (l.takeWhile (· ≠ 9)) with
    | some x => (fun y => st.1 y || y = x, st.2)
    | none => (st.1, addIncompat mode st.2 (l.takeWhile (· ≠ 9)) (l.dropWhile (· ≠ 9)))
  else st

/-- The loop of `_notmuch_database_parse_features`, lib/features.cc:86-114. -/
def parseLoop (mode : UInt8) (st : Features × Option Str) (s : Str) : Features × Option Str :=
  match _h : strtokLen (· == 10) s with
  | none => st
  | some (l, rest) => parseLoop mode (parseLine mode st l) rest
termination_by s.length
decreasing_by exact strtokLen_rest_lt _h

/-- `_notmuch_database_parse_features`, lib/features.cc:67-117: the features, and the unknown ones that the mode requires. -/
def parseFeatures (s : Str) (version : Nat) (mode : UInt8) : Features × Option Str :=
  if version = 0 then (featuresV0, none)
  else if version = 1 then (featuresV1, none)
  else if version = 2 then (featuresV2, none)
  else parseLoop mode (fun _ => false, none) s

/-! ## lib/open.cc, lib/database.cc -/

/-- What this model sees of a message document: `data` is where databases of version 0 have the file name. -/
structure Msg where
  mid : Str
  tid : Str
  ghost : Bool
  data : Str
  files : List Str
  lastMod : Nat
  deriving DecidableEq

/-- What this model sees of the database: metadata, message documents, the thread ids of missing messages (metadata `thread_id_…`, before ghosts), the
`XTIMESTAMP` documents (before directory documents) and the directory documents, with their modification times. -/
structure Db where
  version : Str
  features : Str
  lastThread : Str
  msgs : List Msg
  threadIds : List (Str × Str)
  stamps : List (Str × Int)
  dirs : List (Str × Int)
  deriving DecidableEq

/-- What this model sees of `notmuch_database_t`. -/
structure Handle where
  features : Features
  lastThread : Nat
  revision : Nat
  writable : Bool

/-- NOTMUCH_DATABASE_VERSION, lib/database-private.h:336. -/
def currentVersion : Nat := 3

/-- `notmuch_database_get_version`, lib/database.cc:777-804: `none` is INTERNAL_ERROR.  The result is an `unsigned int`. -/
def getVersion (s : Str) : Option Nat :=
  if s = [] then some 0
  else if (strtoul10 s).2 = [] then some ((strtoul10 s).1 % 2 ^ 32) else none

/-- `last_thread_id` in `_load_database_state`, lib/open.cc:413-424. -/
def loadThread (s : Str) : Option Nat :=
  if s = [] then some 0 else if (strtoull16 s).2 = [] then some (strtoull16 s).1 else none

/-- `revision` in `_load_database_state`, lib/open.cc:427-433: the bound on the values that Xapian keeps is taken to be exact. -/
def loadRevision (db : Db) : Nat := (db.msgs.map (·.lastMod)).foldl max 0

inductive Opened where
  | ok (h : Handle)
  | newerVersion
  | incompatible (features : Str)
  | internalError

/-- Version and features in `_finish_open`, lib/open.cc:509-538, and `_load_database_state`. -/
def openDb (db : Db) (writable : Bool) : Opened :=
  match getVersion db.version with
  | none => .internalError
  | some v =>
    if v > currentVersion then .newerVersion
    else
      match (parseFeatures db.features v (if writable then 119 else 114)).2 with
      | some inc => .incompatible inc
      | none =>
        match loadThread db.lastThread with
        | none => .internalError
        | some t => .ok ⟨(parseFeatures db.features v (if writable then 119 else 114)).1, t, loadRevision db, writable⟩

/-- Whether `a & ~b` is not zero. -/
def missing (a b : Features) : Bool := all.any (fun x => a x && !b x)

/-- `notmuch_database_needs_upgrade`, lib/database.cc:806-820. -/
def needsUpgrade (h : Handle) (db : Db) : Option Bool :=
  if !h.writable then some false
  else if missing featuresCurrent h.features then some true
  else (getVersion db.version).map (fun v => decide (v > 0 ∧ v < currentVersion))

/-- The directories above a file. -/
def dirsOf (path : Str) : List Str := [] :: ((List.range path.length).filter (fun i => path[i]? = some 47 && i ≠ 0)).map (fun i => path.take i)

/-- `_notmuch_directory_find_or_create`: a new directory document has no modification time (0). -/
def addDir (dirs : List (Str × Int)) (d : Str) : List (Str × Int) := if dirs.any (fun e => e.1 = d) then dirs else dirs ++ [(d, 0)]

/-- `notmuch_directory_set_mtime`. -/
def setMtime (dirs : List (Str × Int)) (d : Str) (t : Int) : List (Str × Int) := (addDir dirs d).map (fun e => if e.1 = d then (d, t) else e)

/-- Whether the messages are visited, lib/database.cc:891-893. -/
def perMessage (new : Features) : Bool := new fileTerms || new boolFolder || new Feature.lastMod

/-- One message of the upgrade, lib/database.cc:944-970 and `_notmuch_message_sync`, with `_notmuch_database_new_revision`; `folder` tells whether
`_notmuch_message_upgrade_folder` changed it.  `target` are the features of the handle.  `_notmuch_message_add_filename` also makes the directories. -/
def upgradeMsg (new target : Features) (folder : Msg → Bool) (st : Db × Nat) (m : Msg) : Db × Nat :=
  let move := new fileTerms && m.data ≠ []
  let m' := if move then { m with files := m.files ++ [m.data], data := [] } else m
  let modified := move || (new boolFolder && folder m) || new Feature.lastMod
  let m' := if modified && target Feature.lastMod then { m' with lastMod := st.2 + 1 } else m'
  ({ st.1 with
      msgs := if modified then st.1.msgs.map (fun x => if x.mid = m.mid then m' else x) else st.1.msgs
      dirs := if move then (dirsOf m.data).foldl addDir st.1.dirs else st.1.dirs },
   if modified && target Feature.lastMod then st.2 + 1 else st.2)

/-- One `XTIMESTAMP` document, lib/database.cc:993-1019. -/
def upgradeStamp (st : Db × Nat) (d : Str × Int) : Db × Nat :=
  ({ st.1 with dirs := setMtime st.1.dirs d.1 d.2, stamps := st.1.stamps.filter (fun x => x.1 ≠ d.1 ∨ x.2 ≠ d.2) }, st.2)

/-- One thread id in the metadata, lib/database.cc:1037-1073. -/
def upgradeThread (target : Features) (st : Db × Nat) (e : Str × Str) : Db × Nat :=
  let drop := st.1.threadIds.filter (fun x => x.1 ≠ e.1)
  if st.1.msgs.any (fun m => m.mid = e.1) then ({ st.1 with threadIds := drop }, st.2)
  else ({ st.1 with msgs := st.1.msgs ++ [⟨e.1, e.2, true, [], [], if target Feature.lastMod then st.2 + 1 else 0⟩], threadIds := drop }, if target Feature.lastMod then st.2 + 1 else st.2)

/-- `set_metadata` of features and version, lib/database.cc:1081-1082. -/
def upgradeMeta (target : Features) (st : Db × Nat) : Db × Nat :=
  ({ st.1 with features := printFeatures target, version := bs "3" }, st.2)

/-- What `notmuch_database_upgrade` writes, lib/database.cc:926-1082, one function for one write.  Simplified: the lists are those of the start. -/
def upgradeSteps (new target : Features) (folder : Msg → Bool) (db : Db) : List (Db × Nat → Db × Nat) :=
  (if perMessage new then (db.msgs.filter (fun m => !m.ghost)).map (fun m st => upgradeMsg new target folder st m) else []) ++
  (if new directoryDocs then db.stamps.map (fun d st => upgradeStamp st d) else []) ++
  (if new ghosts then db.threadIds.map (fun e st => upgradeThread target st e) else []) ++
  [upgradeMeta target]

/-- The state after each write. -/
def scan {α : Type} (a : α) : List (α → α) → List α
  | [] => [a]
  | f :: l => a :: scan (f a) l

/-- What can go wrong: counting fails; or reading the messages or making a ghost fails after `n` writes. -/
inductive Fault where
  | none
  | count
  | later (n : Nat)

inductive Status where
  | success
  | readOnly
  | failed
  /-- an exception that nothing catches: cancelling a transaction that was not begun -/
  | uncaught
  | internalError
  deriving DecidableEq

/-- `notmuch_database_upgrade`, lib/database.cc:843-1109: the status, the handle, and what was written, seen from the transaction (`scan`); it is on disk only if
the status is `success`. -/
def upgrade (folder : Msg → Bool) (h : Handle) (db : Db) (fault : Fault) : Status × Handle × List (Db × Nat) :=
  if !h.writable then (.readOnly, h, [])
  else
    match needsUpgrade h db with
    | Option.none => (.internalError, h, [])
    | some false => (.success, h, [])
    | some true =>
      let target : Features := fun x => h.features x || featuresCurrent x
      let new : Features := fun x => featuresCurrent x && !h.features x
      let steps := upgradeSteps new target folder db
      let run (l : List (Db × Nat → Db × Nat)) := l.foldl (fun st f => f st) (db, h.revision)
      match fault with
      | .count => if perMessage new then (.uncaught, h, []) else (.success, { h with features := target, revision := (run steps).2 }, scan (db, h.revision) steps)
      | .none => (.success, { h with features := target, revision := (run steps).2 }, scan (db, h.revision) steps)
      | .later n =>
        if n < steps.length then (.failed, { h with features := target, revision := (run (steps.take n)).2 }, scan (db, h.revision) (steps.take n))
        else (.success, { h with features := target, revision := (run steps).2 }, scan (db, h.revision) steps)

/-- What is on disk when the process dies, or has ended, after `k` writes: a transaction is there wholly or not at all. -/
def diskAfter (db : Db) (r : Status × Handle × List (Db × Nat)) (k : Option Nat) : Db :=
  match k with
  | some _ => db
  | Option.none => if r.1 = .success then ((r.2.2.getLast?).map (·.1)).getD db else db

/-- `notmuch_database_create_with_config` after the directory was made, lib/open.cc:797-815: an empty database, its handle, and the upgrade. -/
def create : Status × Handle × Db :=
  let db : Db := ⟨[], [], [], [], [], [], []⟩
  match openDb db true with
  | .ok h =>
    let h := { h with features := fun x => h.features x || x = fromSubjectIdValues || x = indexedMimetypes || x = unprefixBodyOnly }
    let r := upgrade (fun _ => false) h db .none
    (r.1, r.2.1, diskAfter db r Option.none)
  | _ => (.internalError, ⟨fun _ => false, 0, 0, true⟩, db)

/-! ## Thread ids -/

/-- `_notmuch_database_generate_thread_id`, lib/add-message.cc:40-51. -/
def generateThreadId (h : Handle) (db : Db) : Str × Handle × Db :=
  (hex16 (h.lastThread + 1), { h with lastThread := (h.lastThread + 1) % 2 ^ 64 }, { db with lastThread := hex16 (h.lastThread + 1) })

end Notmuch.Open
