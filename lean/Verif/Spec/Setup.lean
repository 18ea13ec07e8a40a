import Verif.Model.Setup
import Verif.Spec.ConfigCmd

/-! # Specification: `notmuch setup` (C68) -/

namespace Notmuch.Setup
open Notmuch.Config Notmuch.ConfigCmd

/-- Something that can be typed on a line. -/
def Typed (a : Str) : Prop := 10 ∉ a ∧ 0 ∉ a

/-- Each on a line. -/
def typed (l : List Str) : Str := l.flatMap (fun a => a ++ bs "\n")

/-- What is answered: nothing is an empty line.  `old` has an answer for each additional address that is known, `more` those after them. -/
structure Filled where
  name : Str
  email : Str
  old : List Str
  more : List Str
  path : Str
  tags : Str
  exclude : Str

/-- All answers in the order of the questions. -/
def Filled.all (a : Filled) : List Str := [a.name, a.email] ++ a.old ++ a.more ++ [[], a.path, a.tags, a.exclude]

/-- The pieces between the spaces. -/
def pieces : Str → List Str
  | [] => [[]]
  | c :: s =>
    if c = 32 then [] :: pieces s
    else
      match pieces s with
      | [] => [[c]]
      | w :: ws => (c :: w) :: ws

/-- The words of a text, with spaces between them. -/
def words (s : Str) : List Str := (pieces s).filter (· ≠ [])

/-- The list that is written for words: with an empty one first if the text begins with a space. -/
def wordList (s : Str) : List Str := if s.head? = some 32 then [] :: words s else words s

/-- An empty line keeps what there is. -/
def kept (old new : Str) : Str := if new = [] then old else new

/-- The additional addresses after the answers. -/
def others (c : Str → Option Str) (a : Filled) : List Str := List.zipWith kept (((c (bs "user.other_email")).map items).getD []) a.old ++ a.more

/-- A path as it is written: from the current directory if it is relative. -/
def absolute (cwd path : Str) : Str := if path.head? = some 47 then path else cwd ++ bs "/" ++ path

/-- What the answers put into the file for a key; `c` is the configuration before. -/
def said (cwd : Str) (c : Str → Option Str) (a : Filled) (k : Str) : Option Str :=
  if k = bs "user.name" ∧ a.name ≠ [] then some a.name
  else if k = bs "user.primary_email" ∧ a.email ≠ [] then some a.email
  else if k = bs "user.other_email" ∧ others c a ≠ [] then some (stored (others c a))
  else if k = bs "database.path" ∧ a.path ≠ [] then some (absolute cwd a.path)
  else if k = bs "new.tags" ∧ a.tags ≠ [] then some (stored (wordList a.tags))
  else if k = bs "search.exclude_tags" ∧ a.exclude ≠ [] then some (stored (wordList a.exclude))
  else none

/-- The text of a value in a question. -/
def value (v : Option Str) : Str := v.getD (bs "(null)")

/-- The items of a value. -/
def list (v : Option Str) : List Str := (v.map items).getD []

/-- The questions, with what the configuration has for an answer. -/
def questions (c : Str → Option Str) (a : Filled) : Str :=
  bs "Your full name [" ++ value (c (bs "user.name")) ++ bs "]: " ++ bs "Your primary email address [" ++ value (c (bs "user.primary_email")) ++ bs "]: " ++
  (list (c (bs "user.other_email"))).flatMap (fun e => bs "Additional email address [" ++ e ++ bs "]: ") ++
  (a.more ++ [[]]).flatMap (fun _ => bs "Additional email address [Press 'Enter' if none]: ") ++
  bs "Top-level directory of your email archive [" ++ value (c (bs "database.path")) ++ bs "]: " ++
  bs "Tags to apply to all new messages (separated by spaces) [" ++ (list (c (bs "new.tags"))).flatMap (bs " " ++ ·) ++ bs "]: " ++
  bs "Tags to exclude when searching messages (separated by spaces) [" ++ (list (c (bs "search.exclude_tags"))).flatMap (bs " " ++ ·) ++ bs "]: "

/-- Answers that can be given: text on lines, one for each known address, and those that are added are not empty. -/
structure Filled.Ok (a : Filled) (c : Str → Option Str) : Prop where
  typed : ∀ x ∈ a.all, Typed x
  old : a.old.length = (list (c (bs "user.other_email"))).length
  more : ∀ x ∈ a.more, x ≠ []

end Notmuch.Setup
