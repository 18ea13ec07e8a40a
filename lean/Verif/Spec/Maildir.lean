import Verif.Base.Bytes

/-!
# Maildir names and the meaning of their flags

See `notmuch_message_tags_to_maildir_flags` in notmuch.h: `D` draft, `F` flagged, `P` passed,
`R` replied, and `S` (seen) for the absence of unread.
-/

namespace Notmuch.MaildirSpec

/-- The separator before the flags. -/
def sep : Str := bs ":2,"

/-- A file of a maildir: `pre/dir/uniq` or `pre/dir/uniq:2,flags`, `dir` being `cur` or `new`. -/
structure Name where
  pre : Str
  dir : Str
  uniq : Str
  flags : Option Str

/-- The flags as they are written: nothing, or the separator and the flags. -/
def flagsText : Option Str → Str
  | none => []
  | some fl => sep ++ fl

def Name.path (n : Name) : Str :=
  n.pre ++ bs "/" ++ n.dir ++ bs "/" ++ n.uniq ++ flagsText n.flags

/-- It is a maildir file name, and `:2,` occurs before the flags nowhere in the last component. -/
structure Name.Ok (n : Name) : Prop where
  dir_ok : n.dir = bs "cur" ∨ n.dir = bs "new"
  uniq_slash : 47 ∉ n.uniq
  flags_slash : ∀ fl, n.flags = some fl → 47 ∉ fl
  uniq_sep : ¬ sep <:+: n.uniq

/-- Flags in ASCII order without repetition. -/
def GoodFlags (fl : Str) : Prop := fl.Pairwise (· < ·) ∧ ∀ c ∈ fl, c < 128

/-- The flags that stand for tags. -/
def tagFlags : Str := bs "DFPRS"

/-- The tags that stand for flags. -/
def flagTags : List Str := [bs "draft", bs "flagged", bs "passed", bs "replied", bs "unread"]

/-- `fl` says exactly what the tags say. -/
structure Agrees (tags : List Str) (fl : Str) : Prop where
  draft : 68 ∈ fl ↔ bs "draft" ∈ tags
  flagged : 70 ∈ fl ↔ bs "flagged" ∈ tags
  passed : 80 ∈ fl ↔ bs "passed" ∈ tags
  replied : 82 ∈ fl ↔ bs "replied" ∈ tags
  seen : 83 ∈ fl ↔ bs "unread" ∉ tags

end Notmuch.MaildirSpec
