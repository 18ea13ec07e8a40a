import Verif.Model.Open

/-! # Specification: opening and upgrading databases (C48) -/

namespace Notmuch.Open

/-- The lines of a string. -/
def lines : Str → List Str
  | [] => [[]]
  | c :: s =>
    if c = 10 then [] :: lines s
    else match lines s with
      | [] => [[c]]
      | l :: ls => (c :: l) :: ls

/-- The string has the line `name TAB flags`. -/
def Declares (s n fl : Str) : Prop := 9 ∉ n ∧ n ++ 9 :: fl ∈ lines s

/-- No feature that this version knows has this name. -/
def Unknown (n : Str) : Prop := ∀ x, n ≠ name x

/-- `r` or `w`. -/
def modeChar (writable : Bool) : UInt8 := if writable then 119 else 114

/-- The names that a message lists.  -/
def commas (l : List Str) : Str := (bs ", ").intercalate l

/-- The thread of a message id: of the message, or from the metadata for one that is missing. -/
def threadOf (db : Db) (mid : Str) : Option Str :=
  match db.msgs.find? (fun m => m.mid = mid) with
  | some m => some m.tid
  | none => (db.threadIds.find? (fun e => e.1 = mid)).map (·.2)

/-- The file names of a message, as `notmuch_message_get_filenames` gives them (lib/message.cc:1080-1110). -/
def fileNames (m : Msg) : List Str := if m.files = [] then [m.data] else m.files

/-- The modification time of a directory: of its document, or else the last of its `XTIMESTAMP` documents. -/
def mtimeOf (db : Db) (d : Str) : Option Int :=
  match db.dirs.find? (fun e => e.1 = d) with
  | some e => some e.2
  | none => (db.stamps.reverse.find? (fun e => e.1 = d)).map (·.2)

/-- What an older version of notmuch leaves: one document for a message id; ghosts only with that feature and else the metadata for missing messages; file names in
the documents, or in terms, as the feature says; directories likewise. -/
structure Legacy (f : Features) (db : Db) : Prop where
  mids : (db.msgs.map (·.mid)).Nodup
  tids : (db.threadIds.map (·.1)).Nodup
  ghosts : f .ghosts = true → db.threadIds = []
  noGhosts : f .ghosts = false → ∀ m ∈ db.msgs, m.ghost = false
  files : f .fileTerms = false → ∀ m ∈ db.msgs, m.files = []
  noFiles : f .fileTerms = true → ∀ m ∈ db.msgs, m.data = []
  dirs : f .directoryDocs = false → db.dirs = []
  noStamps : f .directoryDocs = true → db.stamps = []

/-! ## Thread ids -/

/-- The threads in use, in the database as the process sees it and on disk, and the handle. -/
structure World where
  handle : Handle
  now : Db
  used : List Str
  disk : Db
  diskUsed : List Str

/-- What happens: a message gets a new thread; everything is written to disk; the process dies or ends and the database is opened again. -/
inductive Ev where
  | newThread
  | commit
  | reopen

/-- One event; opening again must succeed. -/
def World.step (w : World) : Ev → Option World
  | .newThread =>
    let r := generateThreadId w.handle w.now
    some { w with handle := r.2.1, now := r.2.2, used := w.used ++ [r.1] }
  | .commit => some { w with disk := w.now, diskUsed := w.used }
  | .reopen =>
    match openDb w.disk true with
    | .ok h => some { w with handle := h, now := w.disk, used := w.diskUsed }
    | _ => none

def World.run (w : World) : List Ev → Option World
  | [] => some w
  | e :: l => (w.step e).bind (fun w => w.run l)

end Notmuch.Open
