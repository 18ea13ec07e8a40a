import Verif.Model.TagUtil
import Verif.Model.StringMap
import Verif.Model.DumpRestore

/-!
# emacs/notmuch-tag.el: tagging from Emacs, undo, and the tags shown afterwards

Strings are the UTF-8 bytes of the Emacs strings; every character that these functions look at is ASCII, and the order of characters is the
order of their UTF-8 bytes.  The hooks around tagging are not modelled (they are the user's).
-/

namespace Notmuch.ElTag
open Notmuch.TagUtil Notmuch.StringUtil
open Notmuch.StringMap (strcmp)

/-- The characters `\s-` matches: blank, tab, newline, form feed, carriage return (the standard syntax table).  Blanks outside ASCII are
not in it, so that the model lets more tags pass than Emacs does. -/
def isBlank (c : UInt8) : Bool := c == 32 || c == 9 || c == 10 || c == 12 || c == 13

/-- The lines of a string, without the newlines: where `^` and `$` match.  There is at least one. -/
def linesOf : Str → List Str
  | [] => [[]]
  | c :: s =>
    if c = 10 then [] :: linesOf s
    else match linesOf s with
      | [] => [[c]]
      | l :: ls => (c :: l) :: ls

/-- `[-+]\S-+`, all of a line. -/
def lineOk : Str → Bool
  | [] => false
  | c :: s => (c == 45 || c == 43) && !s.isEmpty && s.all (fun d => !isBlank d)

/-- `(string-match-p "^[-+]\\S-+$" tag-change)`, emacs/notmuch-tag.el:486-487. -/
def validChange (s : Str) : Bool := (linesOf s).any lineOk

/-- `notmuch-hex-encode`, emacs/notmuch-lib.el:534-540. -/
def hexEncode : Str → Str
  | [] => []
  | c :: s => if c = 32 ∨ c = 37 ∨ c = 34 then Hex.escapeByte c ++ hexEncode s else c :: hexEncode s

/-- `(mapconcat #'notmuch-hex-encode tag-changes " ")`, emacs/notmuch-tag.el:495. -/
def joinChanges : List Str → Str
  | [] => []
  | [c] => hexEncode c
  | c :: cs => hexEncode c ++ 32 :: joinChanges cs

/-- What `notmuch tag --batch` gets on its standard input, emacs/notmuch-tag.el:495. -/
def batchText (changes : List Str) (query : Str) : Str := joinChanges changes ++ [32, 45, 45, 32] ++ query

/-- `tag_file`, notmuch-tag.c:171-216 (without an interrupt), on a state changed by `run` (`tag_query`), which says whether it succeeded: a bad line
is remembered and passed over, an error ends the loop.  The result says whether the command exits with 0. -/
def tagFile {σ} (run : List TagOp → Str → σ → σ × Bool) : List Str → σ → σ × Bool
  | [], s => (s, true)
  | l :: ls, s =>
    match parseTagLine false l with
    | .skipped => tagFile run ls s
    | .invalid => ((tagFile run ls s).1, false)
    | .ok ops q =>
      match run ops q s with
      | (s', false) => (s', false)
      | (s', true) => tagFile run ls s'

/-- The command `notmuch tag --batch` on the text of its standard input, notmuch-tag.c:171-216. -/
def tagBatch {σ} (run : List TagOp → Str → σ → σ × Bool) (text : Str) (s : σ) : σ × Bool := tagFile run (DumpRestore.splitLines text) s

/-- The database, and `notmuch-tag-history` of the buffer (emacs/notmuch-tag.el:279-281). -/
structure St (σ : Type) where
  db : σ
  hist : List (Str × List Str)

/-- How a command of Emacs ends: normally, or with one of its errors. -/
inductive End
  | done
  | badChange
  | nothingToTag
  | tagFailed
  | noUndo
deriving DecidableEq, Repr

/-- `notmuch-tag`, emacs/notmuch-tag.el:472-504.  An error in the command leaves what it has done. -/
def notmuchTag {σ} (run : List TagOp → Str → σ → σ × Bool) (s : St σ) (query : Option Str) (changes : List Str) (omitHist : Bool) : St σ × End :=
  if changes.all validChange then
    match query with
    | none => (s, .nothingToTag)
    | some q =>
      if changes.isEmpty then (s, .done)
      else match tagBatch run (batchText changes q) s.db with
        | (db, false) => ({ s with db := db }, .tagFailed)
        | (db, true) => ({ db := db, hist := if omitHist then s.hist else (q, changes) :: s.hist }, .done)
  else (s, .badChange)

/-- `notmuch-tag-change-list`, emacs/notmuch-tag.el:519-531; `^[+-]` matches at the beginning of any line. -/
def changeList (reverse : Bool) (tags : List Str) : List Str :=
  tags.map fun str =>
    let s := if (linesOf str).any (fun l => l.head? == some 43 || l.head? == some 45) then str else 43 :: str
    if reverse then (if s.head? = some 45 then 43 else 45) :: s.tail else s

/-- `notmuch-tag-undo`, emacs/notmuch-tag.el:506-517: the entry is gone even if the command then fails. -/
def tagUndo {σ} (run : List TagOp → Str → σ → σ × Bool) (s : St σ) : St σ × End :=
  match s.hist with
  | [] => (s, .noUndo)
  | (q, changes) :: hist => notmuchTag run { s with hist := hist } (some q) (changeList true changes) true

/-- One step of the loop of `notmuch-update-tags`, emacs/notmuch-tag.el:451-459; `none` is an error. -/
def updateOne (tags : List Str) : Str → Option (List Str)
  | [] => none
  | c :: tag =>
    if c = 43 then some (if tag ∈ tags then tags else tag :: tags)
    else if c = 45 then some (tags.filter (· ≠ tag))
    else none

/-- The loop, emacs/notmuch-tag.el:451-459. -/
def updateLoop : List Str → List Str → Option (List Str)
  | tags, [] => some tags
  | tags, c :: cs =>
    match updateOne tags c with
    | none => none
    | some tags => updateLoop tags cs

/-- Insertion of a tag before the first one that is not less (`string<`). -/
def insertTag (x : Str) : List Str → List Str
  | [] => [x]
  | y :: l => if strcmp y x = .lt then y :: insertTag x l else x :: y :: l

/-- `(sort result-tags 'string<)`, emacs/notmuch-tag.el:460. -/
def sortTags (l : List Str) : List Str := l.foldr insertTag []

/-- `notmuch-update-tags`, emacs/notmuch-tag.el:443-460. -/
def updateTags (tags changes : List Str) : Option (List Str) := (updateLoop tags changes).map sortTags

/-- The characters that pass `[^!#-'*-~]`, emacs/notmuch-lib.el:525. -/
def isPlain (c : UInt8) : Bool := c == 33 || (decide (35 ≤ c) && decide (c ≤ 39)) || (decide (42 ≤ c) && decide (c ≤ 126))

/-- `notmuch-escape-boolean-term`, emacs/notmuch-lib.el:514-528. -/
def escapeTerm (t : Str) : Str :=
  if t.isEmpty || t.any (fun c => !isPlain c) then 34 :: (t.flatMap (fun c => if c = 34 then [34, 34] else [c])) ++ [34] else t

/-- `notmuch-id-to-query`, emacs/notmuch-lib.el:530-532. -/
def idToQuery (id : Str) : Str := bs "id:" ++ escapeTerm id

/-- `tag_query`, notmuch-tag.c:119-169, on a database of messages with something that never changes and tags.  `sel` is the meaning of a query
text, `none` for one that is an error. -/
def runQuery {α} (rx : Str → Option (Str → Bool)) (sel : Str → Option (α → List Str → Bool)) (ops : List TagOp) (q : Str)
    (db : List (α × List Str)) : List (α × List Str) × Bool :=
  match sel q with
  | none => (db, false)
  | some f =>
    let r := tagQuery (infixLeaf rx) false (q == bs "*") ops false (db.map (fun m => (f m.1 m.2, m.2)))
    (List.zipWith (fun m (x : Bool × List Str) => (m.1, x.2)) db r.1, r.2)

end Notmuch.ElTag
