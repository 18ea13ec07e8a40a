import Verif.Model.DumpRestore
import Verif.Model.TagUtil

/-!
# notmuch-git.py: tags in a git repository

Strings are bytes; Python's strings are taken to be valid UTF-8, so that decoding and encoding them
changes nothing.  What git itself does (a content-addressed store, an index file per
`GIT_INDEX_FILE`, `verify_path`) and what the query parser does are described by `Env` and by the few
definitions that say so; git is not part of /repo.
-/

namespace Notmuch.Git
open Notmuch.StringUtil Notmuch.TagUtil

/-! ## Quoting -/

/-- `urllib.parse.quote`'s always-safe characters (Python's library; notmuch-git.py:38 and 58-69). -/
def alwaysSafe (c : UInt8) : Bool := isAlnum c || c == 95 || c == 46 || c == 45 || c == 126

/-- A hexadecimal digit as `urllib.parse.quote` writes it: upper case. -/
def upperDigit (n : Nat) : UInt8 := if n < 10 then UInt8.ofNat (48 + n) else UInt8.ofNat (55 + n)

/-- `urllib.parse.quote(string, safe)` (notmuch-git.py:66). -/
def pyQuote (safe : Str) : Str → Str
  | [] => []
  | c :: s => (if alwaysSafe c || safe.contains c then [c]
      else [37, upperDigit (c.toNat / 16), upperDigit (c.toNat % 16)]) ++ pyQuote safe s

/-- The class `[0-9A-F]` of `_HEX_ESCAPE_REGEX`, notmuch-git.py:50. -/
def isUpperHex (c : UInt8) : Bool := isDigit c || (65 ≤ c && c ≤ 70)

/-- `_HEX_ESCAPE_REGEX.sub(lambda match: match.group(0).lower(), …)`, notmuch-git.py:67-69. -/
def lowerEscapes : Str → Str
  | c :: a :: b :: r =>
    if c = 37 ∧ isUpperHex a = true ∧ isUpperHex b = true then 37 :: toLower a :: toLower b :: lowerEscapes r
    else c :: lowerEscapes (a :: b :: r)
  | s => s

/-- `_hex_quote`, notmuch-git.py:58-69. -/
def hexQuoteSafe (safe s : Str) : Str := lowerEscapes (pyQuote safe s)

/-- `_hex_quote` with its default `safe='+@=:,'`, notmuch-git.py:58. -/
def hexQuote (s : Str) : Str := hexQuoteSafe (bs "+@=:,") s

/-- `_ENCODED_TAG_PREFIX`, notmuch-git.py:1179: the colon is quoted, as `notmuch dump` does. -/
def encodedPrefix (p : Str) : Str := hexQuoteSafe (bs "+@=,") p

/-- `urllib.parse.unquote` (notmuch-git.py:39): a `%` that is not followed by two hexadecimal digits stands for itself. -/
def unquote : Str → Str
  | c :: a :: b :: r =>
    if c = 37 ∧ isXDigit a = true ∧ isXDigit b = true then UInt8.ofNat (16 * xval a + xval b) :: unquote r
    else c :: unquote (a :: b :: r)
  | s => s

/-- `_xapian_quote`, notmuch-git.py:71-82 (the replacement is `quoteBody`). -/
def xapianQuote (s : Str) : Str := 34 :: quoteBody s ++ [34]

/-- `string.replace('""', '"')` of `_xapian_unquote`, notmuch-git.py:90. -/
def unDouble : Str → Str
  | c :: d :: r => if c = 34 ∧ d = 34 then 34 :: unDouble r else c :: unDouble (d :: r)
  | s => s

/-- `_xapian_unquote`, notmuch-git.py:85-91. -/
def xapianUnquote (s : Str) : Str :=
  if s.head? = some 34 ∧ s.getLast? = some 34 then unDouble s.tail.dropLast else s

/-! ## Text -/

/-- The ASCII characters `str.strip` and `str.split` take for white space (Python's library).  The
others are not needed: they would have to be in an id, and an id with a character that is not ASCII
is within quotation marks. -/
def pySpace (c : UInt8) : Bool := (9 ≤ c && c ≤ 13) || (28 ≤ c && c ≤ 32)

/-- `str.strip()`. -/
def strip (s : Str) : Str := ((s.dropWhile pySpace).reverse.dropWhile pySpace).reverse

/-- Where `str.splitlines`, which a `codecs` stream reader uses (notmuch-git.py:197-199), breaks lines: the ASCII characters. -/
def isBreak (c : UInt8) : Bool := (10 ≤ c && c ≤ 13) || (28 ≤ c && c ≤ 30)

/-- `for line in stream` of a stream reader (`\r\n`, which ends one line, is not treated apart: an id
with a newline is not dumped, so that it does not occur). -/
def pyLines : Str → List Str
  | [] => []
  | c :: s => if isBreak c then [c] :: pyLines s
    else match pyLines s with
      | l :: ls => (c :: l) :: ls
      | [] => [[c]]

/-- The pieces between the characters for which `p` holds. -/
def pieces (p : UInt8 → Bool) : Str → List Str
  | [] => [[]]
  | c :: s => if p c then [] :: pieces p s
    else match pieces p s with
      | l :: ls => (c :: l) :: ls
      | [] => [[c]]

/-- `str.split()`. -/
def words (s : Str) : List Str := (pieces pySpace s).filter (fun w => !w.isEmpty)

/-- The separator of `_index_tags`, notmuch-git.py:853. -/
def idSep : Str := bs " -- id:"

theorem idSep_drop {s : Str} (h : idSep.isPrefixOf s = true) : (s.drop 7).length < s.length := by
  have := (List.isPrefixOf_iff_prefix.mp h).length_le
  have e : idSep.length = 7 := by decide +kernel
  simp only [List.length_drop]
  omega

/-- `line.split(' -- id:')`, notmuch-git.py:853. -/
def splitSep (s : Str) : List Str :=
  if h : idSep.isPrefixOf s = true then [] :: splitSep (s.drop 7)
  else match s with
    | [] => [[]]
    | c :: r => match splitSep r with
      | l :: ls => (c :: l) :: ls
      | [] => [[c]]
termination_by s.length
decreasing_by
  · exact idSep_drop h
  · simp

/-- What the loop of `_index_tags` makes of a line. -/
inductive Line where
  | comment
  | bad
  | message (tags : List Str) (id : Str)
deriving DecidableEq

/-- The tags of a line that begin with the prefix, without it, notmuch-git.py:854-857; `pre` is the plus sign and the encoded prefix (829). -/
def lineTags (pre : Str) (tagsString : Str) : List Str :=
  ((words tagsString).filter (fun w => pre.isPrefixOf w)).map (fun w => unquote (w.drop pre.length))

/-- One line of the dump, notmuch-git.py:850-858: `bad` is the `ValueError` of the unpacking. -/
def readLine (pre : Str) (line : Str) : Line :=
  if (strip line).head? = some 35 then .comment
  else match (splitSep line).map strip with
    | [t, i] => .message (lineTags pre t) (xapianUnquote i)
    | _ => .bad

/-! ## The environment -/

/-- A message as notmuch-git sees it. -/
structure Msg where
  id : Str
  tags : List Str
  props : List (Str × Str)
  lastmod : Nat
deriving DecidableEq

/-- The notmuch database. -/
structure Db where
  uuid : Str
  rev : Nat
  msgs : List Msg
  config : List (Str × Str)
deriving DecidableEq

/-- What does not change during a run: the tag prefix (`TAG_PREFIX`), the format of the repository
(`FORMAT_VERSION` 1 or 0; another one is an error), `blake2b(…, digest_size=2).hexdigest()` in two
halves, git's `verify_path`, its object store (the tree of a commit, and `commit-tree`), the checksum at
the end of an index file, whether the Python module `notmuch2` is there, `git.safe_fraction` as a
fraction (the floating point numbers are not modelled), what `search.exclude_tags` excludes, and
`regcomp` for tag queries. -/
structure Env where
  pre : Str
  v1 : Bool
  hash : Str → Str × Str
  verify : Str → Bool
  tree : Str → List Str
  commitTree : List Str → Str → Str
  sum : List Str → Str
  module2 : Bool
  safe : Nat × Nat
  excluded : List Str → Bool
  rx : Str → Option (Str → Bool)

/-- `_id_path`, notmuch-git.py:905-918. -/
def idPath (E : Env) (id : Str) : Str :=
  let h := hexQuote id
  if E.v1 then bs "tags/" ++ (E.hash h).1 ++ bs "/" ++ (E.hash h).2 ++ bs "/" ++ h else bs "tags/" ++ h

/-- The path of `_index_tags_for_message`, notmuch-git.py:934. -/
def tagPath (E : Env) (id tag : Str) : Str := idPath E id ++ bs "/" ++ hexQuote tag

/-- A line for `git update-index --index-info`, notmuch-git.py:926-935 and 822. -/
inductive Upd where
  | add (path : Str)
  | del (path : Str)
deriving DecidableEq

/-- `_index_tags_for_message`, notmuch-git.py:920-935. -/
def tagsForMessage (E : Env) (id : Str) (add : Bool) (tags : List Str) : List Upd :=
  tags.map (fun t => if add then .add (tagPath E id t) else .del (tagPath E id t))

/-- `git update-index --index-info` (git): an index is the list of its paths; a path that
`verify_path` refuses is fatal, and nothing is written then.  All entries are the empty blob. -/
def updateIndex (E : Env) : List Upd → List Str → Option (List Str)
  | [], idx => some idx
  | .add p :: us, idx => if E.verify p then updateIndex E us (if p ∈ idx then idx else idx ++ [p]) else none
  | .del p :: us, idx => updateIndex E us (idx.filter (· ≠ p))

/-! ## The private index -/

/-- The cache file of `PrivateIndex`, notmuch-git.py:769-783. -/
structure Cache where
  pre : Str
  uuid : Str
  lastmod : Nat
  checksum : Option Str
deriving DecidableEq

/-- `os.path.dirname` of a path (Python's library; notmuch-git.py:798). -/
def dirname (p : Str) : Str := (p.reverse.dropWhile (· != 47)).tail.reverse

/-- `_clear_tags_for_message` with `_read_file_tree`, notmuch-git.py:790-823: the entries below `tags` in the directory of the message. -/
def clearTags (E : Env) (idx : List Str) (id : Str) : List Upd :=
  (idx.filter (fun p => (bs "tags/").isPrefixOf p && dirname p == idPath E id)).map .del

/-- `_tag_query`, notmuch-git.py:238-241, as the messages it asks for: those with a tag that begins with the prefix. -/
def hasPrefix (p : Str) (m : Msg) : Bool := m.tags.any (fun t => p.isPrefixOf t)

/-- `notmuch dump --format=batch-tag`, notmuch-git.py:844-846, of the messages that match. -/
def dumpOf (db : Db) (ms : List Msg) : Str :=
  DumpRestore.dump ⟨true, true, true⟩ ⟨ms.map (fun m => ⟨m.id, m.tags, m.props⟩), db.config⟩

/-- The loop over the dump, notmuch-git.py:850-865: the lines for git, or an exception. -/
def indexLines (E : Env) (clear : Bool) (idx : List Str) : List Str → Option (List Upd)
  | [] => some []
  | l :: ls =>
    match readLine (43 :: encodedPrefix E.pre) l with
    | .comment => indexLines E clear idx ls
    | .bad => none
    | .message tags id => (indexLines E clear idx ls).map
        (fun us => (if clear then clearTags E idx id else []) ++ tagsForMessage E id true tags ++ us)

/-- Is the private index emptied first?  notmuch-git.py:830-835. -/
def startsEmpty (E : Env) (c : Option Cache) (cur : Option Str) : Bool :=
  match c with
  | none => true
  | some c => c.pre != E.pre || c.checksum == none || c.checksum != cur

/-- Are only the messages changed since asked for?  notmuch-git.py:840-843; the number is `self.lastmod+1`. -/
def incrementalFrom (E : Env) (c : Option Cache) (cur : Option Str) (uuid : Str) : Option Nat :=
  match c with
  | none => none
  | some c => if c.pre = E.pre ∧ c.uuid ≠ [] ∧ c.uuid = uuid ∧ c.checksum = cur then some (c.lastmod + 1) else none

/-- The messages the query finds, notmuch-git.py:837-843.  The text of the second query,
`(and (infix "lastmod:N..")) (tag …))`, has a parenthesis too many: the first expression is complete
before the condition on the tags, which is not read. -/
def queried (E : Env) (db : Db) : Option Nat → List Msg
  | none => db.msgs.filter (hasPrefix E.pre)
  | some n => db.msgs.filter (fun m => n ≤ m.lastmod)

/-- `_index_tags`, notmuch-git.py:826-865: the new private index.  `none` is an exception; the index
file may then be anything (git writes what it was given before the exception), and no cache file is
written. -/
def indexTags (E : Env) (c : Option Cache) (idx : Option (List Str)) (db : Db) : Option (List Str) :=
  let cur := idx.map E.sum
  let base := if startsEmpty E c cur then [] else idx.getD []
  let from' := incrementalFrom E c cur db.uuid
  (indexLines E from'.isSome base (pyLines (dumpOf db (queried E db from')))).bind (fun us => updateIndex E us base)

/-! ## Status -/

/-- Two lower case hexadecimal digits, `[0-9a-f]{2}`, notmuch-git.py:53. -/
def isHexDir (s : Str) : Bool := s.length == 2 && s.all (fun c => isDigit c || (97 ≤ c && c ≤ 102))

/-- What `_unpack_diff_lines` makes of a path, notmuch-git.py:947-960 and 52-53 (`match`, so that what
follows a further slash is ignored): `some none` is a path outside `tags/`, `none` the `ValueError`. -/
def unpackPath (E : Env) (path : Str) : Option (Option (Str × Str)) :=
  match pieces (· == 47) path with
  | d :: a :: b :: rest =>
    if d = bs "tags" then
      if E.v1 then
        match rest with
        | i :: t :: _ => if isHexDir a && isHexDir b then some (some (unquote i, unquote t)) else none
        | _ => none
      else some (some (unquote a, unquote b))
    else some none
  | [d, _] => if d = bs "tags" then none else some none
  | _ => some none

/-- `_unpack_diff_lines`, notmuch-git.py:947-960. -/
def unpack (E : Env) : List Str → Option (List (Str × Str))
  | [] => some []
  | p :: ps =>
    match unpackPath E p with
    | none => none
    | some none => unpack E ps
    | some (some x) => (unpack E ps).map (x :: ·)

/-- `PrivateIndex.diff`, notmuch-git.py:868-884: `git diff-index --cached --diff-filter A` or `D`.  The
filter `M` is not asked for. -/
def diffAdded (idx head : List Str) : List Str := idx.filter (fun p => !head.contains p)
/-- The same with the filter `D`, notmuch-git.py:735. -/
def diffDeleted (idx head : List Str) : List Str := head.filter (fun p => !idx.contains p)

/-- The status, as lists of (id, tag without the prefix); the dictionaries are sets of these. -/
structure Status where
  added : List (Str × Str)
  deleted : List (Str × Str)
  missing : List (Str × Str)
deriving DecidableEq

/-- `DatabaseCache.known`, notmuch-git.py:709-726: without the module, the output of a command is
compared with `None`, which it never is. -/
def known (E : Env) (db : Db) (id : Str) : Bool := if E.module2 then db.msgs.any (fun m => m.id == id) else true

/-- What is in the repository directory: the private index file and its cache, the main index file and
its cache (the hash of the commit and the checksum), and the commit `HEAD`. -/
structure Repo where
  idx : Option (List Str)
  cache : Option Cache
  main : Option (List Str)
  mcache : Option (Str × Option Str)
  head : Str
deriving DecidableEq

/-- `get_status`, notmuch-git.py:727-743, with `PrivateIndex.__exit__` (769-773), which reads the
revision of the database again: it may be another database state, `dbExit`. -/
def getStatus (E : Env) (r : Repo) (db dbExit : Db) : Option (Repo × Status) :=
  match indexTags E r.cache r.idx db with
  | none => none
  | some idx =>
    match unpack E (diffDeleted idx (E.tree r.head)), unpack E (diffAdded idx (E.tree r.head)) with
    | some d, some a => some
      ({ r with idx := some idx, cache := some ⟨E.pre, dbExit.uuid, dbExit.rev, some (E.sum idx)⟩ },
       ⟨a, d.filter (fun x => known E db x.1), d.filter (fun x => !known E db x.1)⟩)
    | _, _ => none

/-! ## Commit -/

/-- `_is_committed`, notmuch-git.py:310-311. -/
def isCommitted (st : Status) : Bool := st.added.isEmpty && st.deleted.isEmpty

/-- `len` of one of the dictionaries: the number of different ids. -/
def lenDict (l : List (Str × Str)) : Nat := (l.map Prod.fst).eraseDups.length

/-- `count_messages`, notmuch-git.py:243-251: `notmuch count` leaves the excluded messages out. -/
def countMessages (E : Env) (db : Db) : Nat := (db.msgs.filter (fun m => hasPrefix E.pre m && !E.excluded m.tags)).length

/-- `check_safe_fraction`, notmuch-git.py:371-388: does it stop the command? -/
def stops (E : Env) (db : Db) (st : Status) : Bool :=
  countMessages E db == 0 || decide (E.safe.1 * countMessages E db < (lenDict st.added + lenDict st.deleted) * E.safe.2)

/-- How a command ends. -/
inductive End where
  | done
  | nothing
  | exit1
  | exception
deriving DecidableEq

/-- `CachedIndex.read_tree`, notmuch-git.py:355-368: the main index before the update. -/
def readTree (E : Env) (r : Repo) : List Str :=
  match r.mcache, r.main with
  | some (h, some sum), some idx => if sum = E.sum idx ∧ h = r.head then idx else E.tree r.head
  | _, _ => E.tree r.head

/-- The lines of `_update_index`, notmuch-git.py:430-439: first the deletions. -/
def updateLines (E : Env) (st : Status) : List Upd :=
  st.deleted.map (fun x => Upd.del (tagPath E x.1 x.2)) ++ st.added.map (fun x => Upd.add (tagPath E x.1 x.2))

/-- The part of `commit` with the index, notmuch-git.py:404-427, and `CachedIndex.__exit__` (343-352). -/
def commitStatus (E : Env) (r : Repo) (st : Status) : Repo × End :=
  match updateIndex E (updateLines E st) (readTree E r) with
  | some idx =>
    let c := E.commitTree idx r.head
    ({ r with main := some idx, mcache := some (c, some (E.sum idx)), head := c }, .done)
  | none =>
    let t := E.tree r.head
    ({ r with main := some t, mcache := some (r.head, some (E.sum t)) }, .exception)

/-- `commit` for `HEAD`, notmuch-git.py:390-427. -/
def commit (E : Env) (r : Repo) (db : Db) (force : Bool) : Option (Repo × End) :=
  match getStatus E r db db with
  | none => none
  | some (r', st) => some (
    if isCommitted st then (r', .nothing)
    else if !force && stops E db st then (r', .exit1)
    else commitStatus E r' st)

/-! ## Checkout -/

/-- The tags of `_batch_line`, notmuch-git.py:528-531, joined by blanks. -/
def batchTags (E : Env) (sign : UInt8) : List Str → Str
  | [] => []
  | [t] => sign :: (encodedPrefix E.pre ++ hexQuote t)
  | t :: ts => (sign :: (encodedPrefix E.pre ++ hexQuote t)) ++ 32 :: batchTags E sign ts

/-- `_batch_line`, notmuch-git.py:521-534. -/
def batchLine (E : Env) (sign : UInt8) (id : Str) (tags : List Str) : Str :=
  batchTags E sign tags ++ bs " -- id:" ++ xapianQuote id ++ [10]

/-- The tags of one id in a status dictionary. -/
def tagsOf (l : List (Str × Str)) (id : Str) : List Str := (l.filter (fun x => x.1 == id)).map Prod.snd

/-- The lines for one status dictionary, notmuch-git.py:515-518. -/
def batchLines (E : Env) (sign : UInt8) (l : List (Str × Str)) : List Str :=
  (l.map Prod.fst).eraseDups.map (fun id => batchLine E sign id (tagsOf l id))

/-- One query of `notmuch tag --batch`, notmuch-tag.c:119-169 (the query `id:…` finds the message with
that id; another one is not needed).  A message whose tags change gets the next revision. -/
def tagOne (E : Env) (db : Db) (ops : List TagOp) (query : Str) : Db × Bool :=
  match parseBooleanTerm query with
  | some (p, i) =>
    if p = bs "id" then
      let r := tagQuery (infixLeaf E.rx) false false ops false (db.msgs.map (fun m => (m.id == i, m.tags)))
      ({ db with
          rev := db.rev + 1
          msgs := List.zipWith (fun m (x : Bool × List Str) => if x.2 = m.tags then m else { m with tags := x.2, lastmod := db.rev + 1 }) db.msgs r.1 },
        r.2)
    else (db, false)
  | none => (db, false)

/-- `tag_file`, notmuch-tag.c:171-216 (without an interrupt): a bad line is remembered and passed over, an error in a query
ends the command.  The result says whether it exits with 0. -/
def tagBatch (E : Env) : Db → List Str → Db × Bool
  | db, [] => (db, true)
  | db, l :: ls =>
    match parseTagLine false l with
    | .skipped => tagBatch E db ls
    | .invalid => ((tagBatch E db ls).1, false)
    | .ok ops q =>
      match tagOne E db ops q with
      | (db', false) => (db', false)
      | (db', true) => tagBatch E db' ls

/-- `checkout`, notmuch-git.py:501-518. -/
def checkout (E : Env) (r : Repo) (db : Db) (force : Bool) : Option (Repo × Db × End) :=
  match getStatus E r db db with
  | none => none
  | some (r', st) =>
    if !force && stops E db st then some (r', db, .exit1)
    else
      let t := tagBatch E db (batchLines E 45 st.added ++ batchLines E 43 st.deleted)
      some (r', t.1, if t.2 then .done else .exception)

/-! ## Clone, merge and pull -/

/-- `get_tags`, notmuch-git.py:253-258, and the end of `clone` (300-307): when a message has a tag with
the prefix nothing is checked out. -/
def cloneCheckout (E : Env) (r : Repo) (db : Db) : Option (Repo × Db × End) :=
  if (db.msgs.filter (hasPrefix E.pre)).any (fun m => !m.tags.isEmpty) then some (r, db, .nothing)
  else checkout E r db false

/-- `merge` and `pull`, notmuch-git.py:537-594: `theirs` is the commit that git leaves as `HEAD`, or
`none` if it fails.  Git's `reset` and `merge` use and write the main index. -/
def merge (E : Env) (r : Repo) (db : Db) (theirs : Option (Str × List Str)) : Option (Repo × Db × End) :=
  match getStatus E r db db with
  | none => none
  | some (r', st) =>
    if !isCommitted st then some (r', db, .exit1)
    else match theirs with
      | none => some (r', db, .exception)
      | some (c, main) => checkout E { r' with head := c, main := some main } db false

end Notmuch.Git
