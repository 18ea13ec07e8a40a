import Verif.Base.Dec

/-!
# lib/database.cc, lib/directory.cc, lib/message.cc: files, directories and the terms about them

A term is a pair of its field (the entry of `prefix_table`) and its value; the term in Xapian is the
prefix of the field followed by the value (`Verif/Model/Prefix.lean`).  A document is a set of terms (as a
list) and its data.  A changed message is written back at once (`_notmuch_message_sync`).  Features are
those of a current database.  Xapian errors other than a missing document, and running out of memory, are
not modelled.
-/

namespace Notmuch.Directory

/-- The fields used here, lib/prefix.cc:30-77; `other` are all the others. -/
inductive Field
  | directory | fileDirentry | dirDirentry | path | folder | other
  deriving DecidableEq

structure Doc where
  id : Nat
  terms : List (Field × Str)
  data : Str

/-- The database: its documents, `last_doc_id`, the mail root, and the hash function used for long paths. -/
structure Db where
  docs : List Doc
  lastId : Nat
  root : Str
  sha1 : Str → Str

/-- How a call can go wrong: `INTERNAL_ERROR` ends the process; `NOTMUCH_STATUS_PATH_ERROR`;
`NOTMUCH_STATUS_XAPIAN_EXCEPTION` of a term that is too long or a document that does not exist. -/
inductive Err
  | abort | pathError | xapian
  deriving DecidableEq

/-- lib/database.cc:1250-1252: skip trailing slashes.  Positions are indices in `path`. -/
def skipTrailing (path : Str) : Nat → Nat
  | 0 => 0
  | slash + 1 => if path[slash + 1]? = some 47 then skipTrailing path slash else slash + 1

/-- lib/database.cc:1255-1260: find a slash; also `*basename`. -/
def findSlash (path : Str) : Nat → Option Nat → Nat × Option Nat
  | 0, base => (0, base)
  | slash + 1, base => if path[slash + 1]? ≠ some 47 then findSlash path slash (some (slash + 1)) else (slash + 1, base)

/-- lib/database.cc:1263-1264: skip multiple slashes. -/
def skipMultiple (path : Str) : Nat → Nat
  | 0 => 0
  | slash + 1 => if path[slash]? = some 47 then skipMultiple path slash else slash + 1

/-- `_notmuch_database_split_path`, lib/database.cc:1230-1277: directory and base name.  `none` for the
base name of a path with a directory would be an uninitialised pointer. -/
def splitPath (path : Option Str) : Option Str × Option Str :=
  match path with
  | none => (none, none)
  | some path =>
    if path = [] then (none, none)
    else
      let slash := skipTrailing path (path.length - 1)
      let (slash, base) := findSlash path slash none
      let slash := skipMultiple path slash
      if slash = 0 then (some [], some path)
      else (some (path.take slash), base.map path.drop)

/-- lib/database.cc:1387-1388. -/
def leadingSlashes : Str → Str
  | 47 :: 47 :: s => leadingSlashes (47 :: s)
  | s => s

/-- `_notmuch_database_relative_path`, lib/database.cc:1372-1399. -/
def relativePath (root path : Str) : Str :=
  if path.head? = some 47 then
    let relative := leadingSlashes path
    if root.isPrefixOf relative then (relative.drop root.length).dropWhile (· = 47) else relative
  else path

/-- `_notmuch_database_get_directory_db_path`, lib/database.cc:1198-1207: `XDIRECTORY` has 10 bytes,
`NOTMUCH_TERM_MAX` is 245. -/
def dbPath (db : Db) (path : Str) : Str := if 10 + path.length > 245 then db.sha1 path else path

/-- The first document with a term: `_notmuch_database_find_unique_doc_id`, lib/database.cc:383-409. -/
def findTerm (db : Db) (t : Field × Str) : Option Doc := db.docs.find? (fun d => t ∈ d.terms)

/-- `"%u:%s"`, lib/database.cc:1360, lib/directory.cc:187-189. -/
def direntry (id : Nat) (base : Str) : Str := dec id ++ [58] ++ base

/-- The document of a new directory, lib/directory.cc:165-200; `none` if Xapian refuses a term because it
is longer than 245 bytes.  The timestamp is not modelled. -/
def directoryDoc (db : Db) (path : Str) (base : Option Str) (parentId id : Nat) : Option Doc :=
  match base with
  | none => some ⟨id, [(Field.directory, dbPath db path)], path⟩
  | some b =>
    if 10 + (direntry parentId b).length > 245 then none
    else some ⟨id, [(Field.directory, dbPath db path), (Field.dirDirentry, direntry parentId b)], path⟩

/-- The end of `_notmuch_directory_find_or_create`, lib/directory.cc:179-203, given the result for the parent. -/
def createDirectory (path : Str) (base : Option Str) : Db × Except Err (Option Nat) → Db × Except Err (Option Nat)
  | (db, .error e) => (db, .error e)
  | (db, .ok none) => (db, .error .abort)
  | (db, .ok (some parentId)) =>
    match directoryDoc db path base parentId (db.lastId + 1) with
    | none => ({ db with lastId := db.lastId + 1 }, .error .xapian)
    | some d => ({ db with docs := db.docs ++ [d], lastId := db.lastId + 1 }, .ok (some d.id))

/-- `_notmuch_directory_find_or_create`, lib/directory.cc:111-217, and `_notmuch_database_find_directory_id`,
lib/database.cc:1286-1311, which call each other: the id of the directory (`none` if it does not exist and
is not to be created). -/
def findOrCreate : Nat → Db → Str → Bool → Db × Except Err (Option Nat)
  | 0, db, _, _ => (db, .error .abort)
  | fuel + 1, db, path, create =>
    match findTerm db (.directory, dbPath db (relativePath db.root path)) with
    | some d => (db, .ok (some d.id))
    | none =>
      if create then
        match splitPath (some (relativePath db.root path)) with
        | (none, base) => createDirectory (relativePath db.root path) base (db, .ok (some 0))
        | (some parent, base) => createDirectory (relativePath db.root path) base (findOrCreate fuel db parent true)
      else (db, .ok none)

/-- `_notmuch_database_find_directory_id`, lib/database.cc:1286-1311. -/
def findDirectoryId (db : Db) (path : Option Str) (create : Bool) : Db × Except Err (Option Nat) :=
  match path with
  | none => (db, .ok (some 0))
  | some p => findOrCreate (p.length + 1) db p create

/-- `_notmuch_database_filename_to_direntry`, lib/database.cc:1335-1363 (`%s` of NULL is "(null)"). -/
def filenameToDirentry (db : Db) (filename : Str) (create : Bool) : Db × Except Err (Option Str) :=
  match splitPath (some (relativePath db.root filename)) with
  | (directory, base) =>
    match findDirectoryId db directory create with
    | (db1, .error e) => (db1, .error e)
    | (db1, .ok none) => (db1, .ok none)
    | (db1, .ok (some id)) => (db1, .ok (some (direntry id (base.getD (bs "(null)")))))

/-- The length of the prefix of a field. -/
def prefixLength : Field → Nat
  | .directory => 10
  | .fileDirentry => 10
  | .dirDirentry => 10
  | .path => 1
  | .folder => 8
  | .other => 0

/-- `_notmuch_message_add_term`, lib/message.cc:1508-1539: `none` if the term is too long. -/
def addTerm (terms : List (Field × Str)) (f : Field) (v : Str) : Option (List (Field × Str)) :=
  if prefixLength f + v.length > 245 then none
  else some (if (f, v) ∈ terms then terms else terms ++ [(f, v)])

/-- `is_maildir`, lib/message.cc:790-794. -/
def isMaildir (p : Str) : Bool := p == bs "cur" || p == bs "new"

/-- The folder of a directory, lib/message.cc:823-829: `last` is what `strrchr (folder, '/')` finds. -/
def folderOf (directory : Str) : Str :=
  let lastComponent := (directory.reverse.takeWhile (· ≠ 47)).reverse
  if 47 ∈ directory then
    if isMaildir lastComponent then directory.take (directory.length - lastComponent.length - 1) else directory
  else if isMaildir directory then [] else directory

/-- `_notmuch_message_add_folder_terms`, lib/message.cc:796-840.  `COERCE_STATUS` of a term that is too
long ends the process. -/
def addFolderTerms (terms : List (Field × Str)) (directory : Str) : Except Err (List (Field × Str)) :=
  match addTerm terms .folder (folderOf directory) with
  | none => .error .abort
  | some t => .ok t

/-- `strcpy (&path[p], "/**")` in the buffer `path`, with the NUL. -/
def copySuffix (buf : Str) (p : Nat) : Option Str :=
  if p + 4 ≤ buf.length then some (buf.take p ++ bs "/**" ++ [0] ++ buf.drop (p + 4)) else none

/-- The loop of lib/message.cc:867-875, from `p` down to the second byte of the buffer. -/
def recursiveTerms (buf : Str) : Nat → List (Field × Str) → Except Err (List (Field × Str))
  | 0, terms => .ok terms
  | p + 1, terms =>
    if buf[p + 1]? = some 47 then
      match copySuffix buf (p + 1) with
      | none => .error .abort
      | some buf' =>
        match addTerm terms .path (buf'.takeWhile (· ≠ 0)) with
        | none => .error .abort
        | some terms' => recursiveTerms buf' p terms'
    else recursiveTerms buf p terms

/-- `_notmuch_message_add_path_terms`, lib/message.cc:846-887. -/
def addPathTerms (terms : List (Field × Str)) (directory : Str) : Except Err (List (Field × Str)) :=
  match addTerm terms .path directory with
  | none => .error .abort
  | some t1 =>
    match (if directory ≠ [] then recursiveTerms (directory ++ bs "/**" ++ [0]) (directory.length + 3 - 1) t1 else .ok t1) with
    | .error e => .error e
    | .ok t2 =>
      match addTerm t2 .path (bs "**") with
      | none => .error .abort
      | some t3 => .ok t3

/-- `strtol` and the check for a colon, lib/message.cc:911-914, 1113-1118: id and base name. -/
def parseDirentry (s : Str) : Option (Nat × Str) :=
  match s.dropWhile isDigit with
  | 58 :: base => some (decVal (s.takeWhile isDigit), base)
  | _ => none

/-- `_notmuch_database_get_directory_path`, lib/database.cc:1313-1323. -/
def directoryPath (db : Db) (id : Nat) : Option Str := (db.docs.find? (fun d => d.id = id)).map (·.data)

/-- The values of the terms of a field. -/
def values (terms : List (Field × Str)) (f : Field) : List Str := terms.filterMap (fun t => if t.1 = f then some t.2 else none)

/-- The loop of `_notmuch_message_add_directory_terms`, lib/message.cc:898-932. -/
def addDirectoryTerms (db : Db) : List Str → List (Field × Str) → Except Err (List (Field × Str))
  | [], terms => .ok terms
  | e :: es, terms =>
    match parseDirentry e with
    | none => .error .abort
    | some (id, _) =>
      match directoryPath db id with
      | none => .error .xapian
      | some directory =>
        match addFolderTerms terms directory with
        | .error e => .error e
        | .ok t1 =>
          match addPathTerms t1 directory with
          | .error e => .error e
          | .ok t2 => addDirectoryTerms db es t2

/-- Replacing the terms of a document. -/
def setTerms (db : Db) (id : Nat) (terms : List (Field × Str)) : Db :=
  { db with docs := db.docs.map (fun d => if d.id = id then { d with terms := terms } else d) }

/-- The terms of a document. -/
def termsOf (db : Db) (id : Nat) : Option (List (Field × Str)) := (db.docs.find? (fun d => d.id = id)).map (·.terms)

/-- The terms of a message with one more file, lib/message.cc:965-989. -/
def addFileTerms (terms : List (Field × Str)) (entry : Str) (directory : Str) : Except Err (List (Field × Str)) :=
  match addTerm terms .fileDirentry entry with
  | none => .error .pathError
  | some t1 =>
    match addFolderTerms t1 directory with
    | .error e => .error e
    | .ok t2 => addPathTerms t2 directory

/-- `_notmuch_message_add_filename`, lib/message.cc:941-994, of the message `id`.  The directories that were
made stay when there is an error.  Without a directory (the empty file name) `talloc_strdup` gives NULL. -/
def addFilename (db : Db) (id : Nat) (filename : Str) : Db × Except Err Unit :=
  match filenameToDirentry db filename true with
  | (db1, .error e) => (db1, .error e)
  | (db1, .ok none) => (db1, .error .abort)
  | (db1, .ok (some entry)) =>
    match termsOf db1 id, (splitPath (some (relativePath db.root filename))).1 with
    | some terms, some directory =>
      match addFileTerms terms entry directory with
      | .error e => (db1, .error e)
      | .ok t => (setTerms db1 id t, .ok ())
    | _, _ => (db1, .error .abort)

/-- `NOTMUCH_STATUS_SUCCESS` and `NOTMUCH_STATUS_DUPLICATE_MESSAGE_ID`. -/
inductive Removed
  | last | others
  deriving DecidableEq

/-- The terms of a message without a file and without terms about directories, lib/message.cc:1029-1041. -/
def removeFileTerms (terms : List (Field × Str)) (entry : Str) : List (Field × Str) :=
  ((terms.filter (fun t => t ≠ (Field.fileDirentry, entry))).filter (fun t => t.1 ≠ .folder)).filter (fun t => t.1 ≠ .path)

/-- `_notmuch_message_remove_filename`, lib/message.cc:1006-1047. -/
def removeFilename (db : Db) (id : Nat) (filename : Str) : Db × Except Err Removed :=
  match (filenameToDirentry db filename false).2 with
  | .error e => (db, .error e)
  | .ok none => (db, .ok .last)
  | .ok (some entry) =>
    match termsOf db id with
    | none => (db, .error .xapian)
    | some terms =>
      if 10 + entry.length > 245 then (db, .error .abort)   -- lib/message.cc:1026-1030, 1592-1593
      else
        match addDirectoryTerms db (values (removeFileTerms terms entry) .fileDirentry) (removeFileTerms terms entry) with
        | .error e => (db, .error e)
        | .ok t => (setTerms db id t, .ok (if values (removeFileTerms terms entry) .fileDirentry = [] then .last else .others))

/-- One entry of the list of `_notmuch_message_ensure_filename_list`, lib/message.cc:1107-1140. -/
def entryFilename (db : Db) (e : Str) : Except Err Str :=
  match parseDirentry e with
  | none => .error .abort
  | some (id, base) =>
    match directoryPath db id with
    | none => .error .xapian
    | some directory => .ok (if directory ≠ [] then db.root ++ [47] ++ directory ++ [47] ++ base else db.root ++ [47] ++ base)

/-- The loop of `_notmuch_message_ensure_filename_list`. -/
def entryFilenames (db : Db) : List Str → Except Err (List Str)
  | [] => .ok []
  | e :: es =>
    match entryFilename db e with
    | .error err => .error err
    | .ok f =>
      match entryFilenames db es with
      | .error err => .error err
      | .ok fs => .ok (f :: fs)

/-- `notmuch_message_get_filenames`, lib/message.cc:1078-1144, 1167-1178. -/
def getFilenames (db : Db) (id : Nat) : Except Err (List Str) :=
  match db.docs.find? (fun d => d.id = id) with
  | none => .error .xapian
  | some d => if values d.terms .fileDirentry = [] then .ok [d.data] else entryFilenames db (values d.terms .fileDirentry)

/-- `notmuch_database_find_message_by_filename`, lib/database.cc:1471-1527. -/
def findMessageByFilename (db : Db) (filename : Str) : Except Err (Option Nat) :=
  match (filenameToDirentry db filename false).2 with
  | .error e => .error e
  | .ok none => .ok none
  | .ok (some entry) => .ok ((findTerm db (.fileDirentry, entry)).map (·.id))

/-- `_create_filenames_for_terms_with_prefix`, lib/directory.cc:28-44: the terms of all documents. -/
def termsWithPrefix (db : Db) (f : Field) (pre : Str) : List Str :=
  (db.docs.flatMap (fun d => values d.terms f)).filterMap (fun v => if pre.isPrefixOf v then some (v.drop pre.length) else none)

/-- `notmuch_directory_get_child_files`, lib/directory.cc:264-285. -/
def childFiles (db : Db) (id : Nat) : List Str := termsWithPrefix db .fileDirentry (dec id ++ [58])

/-- `notmuch_directory_get_child_directories`, lib/directory.cc:287-308. -/
def childDirectories (db : Db) (id : Nat) : List Str := termsWithPrefix db .dirDirentry (dec id ++ [58])

/-- `notmuch_directory_delete`, lib/directory.cc:310-331, and `_notmuch_message_delete` (as far as the
document of the message is concerned): delete a document. -/
def deleteDoc (db : Db) (id : Nat) : Db := { db with docs := db.docs.filter (fun d => d.id ≠ id) }

/-- `notmuch_message_count_files`, lib/message.cc:1183-1194 (-1, here 0, if there was an exception; the only
use compares with 1). -/
def countFiles (db : Db) (id : Nat) : Nat :=
  match getFilenames db id with
  | .error _ => 0
  | .ok fs => fs.length

/-- `notmuch_database_remove_message`, lib/database.cc:1445-1469.  `_notmuch_message_delete` is the deletion of
the document; what it does to ghosts is in `Verif/Model/Threading.lean`. -/
def removeMessage (db : Db) (filename : Str) : Db × Except Err (Option Removed) :=
  match findMessageByFilename db filename with
  | .error e => (db, .error e)
  | .ok none => (db, .ok none)
  | .ok (some id) =>
    if countFiles db id > 1 then
      match removeFilename db id filename with
      | (db1, .error e) => (db1, .error e)
      | (db1, .ok .last) => (deleteDoc db1 id, .ok (some .last))
      | (db1, .ok .others) => (db1, .ok (some .others))
    else (deleteDoc db id, .ok (some .last))

/-- A new message: `_notmuch_message_create_for_message_id`; its terms of other fields come later or now. -/
def newMessage (db : Db) (others : List Str) : Db × Nat :=
  let id := db.lastId + 1
  ({ db with docs := db.docs ++ [⟨id, others.map (fun v => (.other, v)), []⟩], lastId := id }, id)

end Notmuch.Directory
