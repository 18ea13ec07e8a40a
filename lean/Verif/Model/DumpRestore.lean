import Verif.Model.TagUtil

/-!
# notmuch-dump.c and notmuch-restore.c

The (uncompressed) dump file is a byte string; gzip is assumed lossless.  Message ids are at most
`NOTMUCH_MESSAGE_ID_MAX` bytes long (longer ones are replaced by a hash when a message is added,
lib/add-message.cc:56), so `notmuch_database_find_message` looks them up literally.
-/

namespace Notmuch.DumpRestore
open Notmuch.StringUtil Notmuch.TagUtil

/-- What dump and restore see of a message. -/
structure Msg where
  id : Str
  tags : List Str
  props : List (Str × Str)
deriving DecidableEq

/-- What they see of a database.  Configuration items are Xapian metadata: an item with an empty
value does not exist. -/
structure Db where
  msgs : List Msg
  config : List (Str × Str)
deriving DecidableEq

/-- `DUMP_INCLUDE_*`, notmuch-client.h. -/
structure Include where
  config : Bool
  properties : Bool
  tags : Bool

/-! ## Dump -/

/-- `print_dump_header` for batch-tag, notmuch-dump.c:70-91. -/
def dumpHeader (inc : Include) : Str :=
  bs "#notmuch-dump batch-tag:3 " ++
  (if inc.config then bs "config" else []) ++
  (if inc.properties then (if inc.config then bs "," else []) ++ bs "properties" else []) ++
  (if inc.tags then (if inc.config || inc.properties then bs "," else []) ++ bs "tags" else []) ++
  [10]

/-- One line of `database_dump_config`, notmuch-dump.c:38-58. -/
def dumpConfigLine (kv : Str × Str) : Str :=
  bs "#@ " ++ Hex.encode kv.1 ++ bs " " ++ Hex.encode kv.2 ++ [10]

/-- `dump_properties_message`, notmuch-dump.c:93-142. -/
def dumpProps (m : Msg) : Str :=
  if 10 ∈ m.id then []
  else if m.props.isEmpty then []
  else bs "#= " ++ Hex.encode m.id ++
    (m.props.flatMap (fun kv => bs " " ++ Hex.encode kv.1 ++ bs "=" ++ Hex.encode kv.2)) ++ [10]

/-- The tag loop of `dump_tags_message`, notmuch-dump.c:170-193 (batch-tag). -/
def dumpTagWords : List Str → (first : Bool) → Str
  | [], _ => []
  | t :: ts, first => (if first then [] else bs " ") ++ bs "+" ++ Hex.encode t ++ dumpTagWords ts false

/-- `dump_tags_message` for batch-tag, notmuch-dump.c:144-207. -/
def dumpTags (m : Msg) : Str :=
  if 10 ∈ m.id then []
  else dumpTagWords m.tags true ++ bs " -- " ++ makeBooleanTerm (some (bs "id")) m.id ++ [10]

/-- `dump_tags_message` for sup, notmuch-dump.c:144-207. -/
def dumpSupWords : List Str → (first : Bool) → Str
  | [], _ => []
  | t :: ts, first => (if first then [] else bs " ") ++ t ++ dumpSupWords ts false
def dumpTagsSup (m : Msg) : Str := m.id ++ bs " (" ++ dumpSupWords m.tags true ++ bs ")\n"

/-- `database_dump_file`, notmuch-dump.c:209-272, batch-tag format, all messages (in the order of
the search result). -/
def dump (inc : Include) (db : Db) : Str :=
  dumpHeader inc ++
  (if inc.config then db.config.flatMap dumpConfigLine else []) ++
  (if inc.tags || inc.properties then
    db.msgs.flatMap (fun m => (if inc.tags then dumpTags m else []) ++
      (if inc.properties then dumpProps m else []))
   else [])

/-- `database_dump_file` for the sup format with only tags included, notmuch-dump.c:70-91 and
209-272. -/
def dumpSup (db : Db) : Str :=
  bs "#notmuch-dump sup:3 tags\n" ++ db.msgs.flatMap dumpTagsSup

/-! ## Restore -/

/-- The lines `gz_getline` (util/zlib-extra.c:26-74) returns, each with its newline (the last one
may lack it).  Input with NUL bytes is not modelled. -/
def splitLines : Str → List Str
  | [] => []
  | c :: s =>
    if c = 10 then [10] :: splitLines s
    else match splitLines s with
      | [] => [[c]]
      | l :: ls => (c :: l) :: ls

/-- Outcome of processing (part of) the input. `ub` is undefined behaviour (NULL dereference or
read past the end of the line). -/
inductive Res
  | ok (db : Db)
  | fail (db : Db)
  | ub
deriving DecidableEq

/-- The delimiters `" \t\n"`, notmuch-restore.c:33 and 66. -/
def isDelim (c : UInt8) : Bool := c == 32 || c == 9 || c == 10

/-- `notmuch_database_set_config`, lib/config.cc:57-92, on the stored metadata (setting an empty
value deletes the item, as Xapian documents for `set_metadata`). -/
def setConfig (db : Db) (k v : Str) : Db :=
  { db with config := db.config.filter (fun kv => kv.1 ≠ k) ++ (if v = [] then [] else [(k, v)]) }

/-- `process_config_line`, notmuch-restore.c:27-58. -/
def processConfigLine (db : Db) (line : Str) : Res :=
  match strtokLen isDelim line with
  | none => .ub
  | some (k, r) =>
    match strtokLen isDelim r with
    | none => .ub
    | some (v, _) =>
      match Hex.decode k, Hex.decode v with
      | some k, some v => .ok (setConfig db (cstr k) (cstr v))
      | _, _ => .fail db

/-- `notmuch_database_find_message`, lib/database.cc:437-471. -/
def findMsg (db : Db) (id : Str) : Option Msg := db.msgs.find? (fun m => m.id == id)

/-- Replace the stored data of the message with id `id`. -/
def updMsg (db : Db) (id : Str) (f : Msg → Msg) : Db :=
  { db with msgs := db.msgs.map (fun m => if m.id == id then f m else m) }

/-- `notmuch_message_add_property`, lib/message-property.cc:76-117: `none` is
`ILLEGAL_ARGUMENT` (key with `=`).  Properties are terms, hence a set of pairs. -/
def addProp (props : List (Str × Str)) (k v : Str) : Option (List (Str × Str)) :=
  if 61 ∈ k then none
  else if (k, v) ∈ props then some props else some (props ++ [(k, v)])

/-- The token loop of `process_properties_line`, notmuch-restore.c:88-117. -/
def propsLoop (db : Db) (id : Str) (s : Str) : Res :=
  match _h : strtokLen isDelim s with
  | none => .ok db
  | some (tok, rest) =>
    if 61 ∈ tok then
      let key := tok.takeWhile (· != 61)
      let value := (tok.dropWhile (· != 61)).tail
      match Hex.decode key, Hex.decode value with
      | some k, some v =>
        match addProp ((findMsg db id).map (·.props) |>.getD []) (cstr k) (cstr v) with
        | none => .fail db
        | some p => propsLoop (updMsg db id (fun m => { m with props := p })) id rest
      | _, _ => .fail db
    else if rest = [] then .ub        -- `off == tok_len`: reads past the terminating NUL
    else .fail db                     -- "unparsable token"
termination_by s.length
decreasing_by exact strtokLen_rest_lt _h

/-- `process_properties_line`, notmuch-restore.c:60-122. -/
def processPropsLine (db : Db) (line : Str) : Res :=
  match strtokLen isDelim line with
  | none => .ub
  | some (idp, rest) =>
    match Hex.decode idp with
    | none => .fail db
    | some id =>
      match findMsg db (cstr id) with
      | none => .ub                   -- the NULL message is dereferenced
      | some _ => propsLoop (updMsg db (cstr id) (fun m => { m with props := [] })) (cstr id) rest

inductive Format | auto | batchTag | sup
deriving DecidableEq

structure Opts where
  inc : Include
  accumulate : Bool
  format : Format

/-- `tag_message`, notmuch-restore.c:131-166, without maildir synchronisation. -/
def tagMessage (db : Db) (id : Str) (ops : List TagOp) (removeAll : Bool) : Res :=
  match findMsg db id with
  | none => .ok db
  | some m =>
    if removeAll || !ops.isEmpty then
      match opListApply m.tags ops removeAll false with
      | none => .fail db
      | some t => .ok (updMsg db id (fun m => { m with tags := t }))
    else .ok db

/-- The tokens of a string, as the `strtok_len` loop of `parse_sup_line` returns them,
notmuch-restore.c:212-224. -/
def tokens (s : Str) : List Str :=
  match _h : strtokLen (· == 32) s with
  | none => []
  | some (tok, rest) => tok :: tokens rest
termination_by s.length
decreasing_by exact strtokLen_rest_lt _h

/-- `parse_sup_line`, notmuch-restore.c:173-228, with the regular expression
`^([^ ]+) \(([^)]*)\)$`: id and tags; `none` for ignored lines. -/
def parseSup (line : Str) : Option (Str × List Str) :=
  let line := chomp line
  let id := line.takeWhile (· != 32)
  match line.dropWhile (· != 32) with
  | 32 :: 40 :: r =>
    if id.isEmpty then none
    else if r.getLast? = some 41 ∧ 41 ∉ r.dropLast then some (id, tokens r.dropLast) else none
  | _ => none

/-- The optional `#=` step of both loops, notmuch-restore.c:352-358 and 393-399. -/
def propsStep (inc : Include) (db : Db) (line : Str) : Res :=
  match inc.properties, line with
  | true, 35 :: 61 :: r => processPropsLine db r
  | _, _ => .ok db

/-- The optional `#@` step, notmuch-restore.c:346-350. -/
def configStep (inc : Include) (db : Db) (line : Str) : Res :=
  match inc.config, line with
  | true, 35 :: 64 :: r => processConfigLine db r
  | _, _ => .ok db

/-- The tag part of one round of the second loop, notmuch-restore.c:401-438. -/
def tagStep (sup removeAll : Bool) (db : Db) (line : Str) : Res :=
  if sup then
    match parseSup line with
    | none => .ok db
    | some (id, tags) => tagMessage db id (tags.map (fun t => ⟨t, false⟩)) removeAll
  else
    match parseTagLine true line with
    | .ok ops q =>
      match parseBooleanTerm q with
      | some (p, t) => if p = bs "id" then tagMessage db t ops removeAll else .ok db
      | none => .ok db
    | _ => .ok db

/-- The second loop of `notmuch_restore_command`, notmuch-restore.c:383-443. -/
def loop2 (o : Opts) (sup : Bool) : List Str → Db → Res
  | [], db => .ok db
  | l :: ls, db =>
    match propsStep o.inc db l with
    | .ok db =>
      match tagStep sup (!o.accumulate) db l with
      | .ok db => loop2 o sup ls db
      | r => r
    | r => r

/-- The continuation test of the first loop, notmuch-restore.c:360-363. -/
def skipLine (l : Str) : Bool := l.isEmpty || l.head? == some 35 || l.all isDelim

/-- The first loop and what follows, notmuch-restore.c:330-443. -/
def loop1 (o : Opts) : List Str → Db → Res
  | [], db => .ok db
  | l :: ls, db =>
    match configStep o.inc db l with
    | .ok db =>
      match propsStep o.inc db l with
      | .ok db =>
        if skipLine l then loop1 o ls db
        else if !(o.inc.tags || o.inc.properties) then .ok db
        else
          let sup := match o.format with
            | .auto => l.contains 40
            | .batchTag => false
            | .sup => true
          loop2 o sup (l :: ls) db
      | r => r
    | r => r

/-- `notmuch_restore_command` on an input file, notmuch-restore.c:230-480. -/
def restore (o : Opts) (input : Str) (db : Db) : Res := loop1 o (splitLines input) db

end Notmuch.DumpRestore
