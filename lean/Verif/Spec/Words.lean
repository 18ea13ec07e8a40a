import Verif.Model.Words
import Verif.Model.ConfigCmd

/-! # Specification: the words and phrases of a message (C73) -/

namespace Notmuch.Words

open Notmuch.TermList (findPrefix userPrefix)
open Notmuch.Mime (Eff)

/-- The mailbox is in the list, or in a group of the list, or in a group of that, and so on. -/
inductive Within (n a : Option Str) : List Addr → Prop
  | here {l} : Within n a (.mailbox n a :: l)
  | group {l l'} : Within n a l → Within n a (.group (some l) :: l')
  | there {b l} : Within n a l → Within n a (b :: l)

/-- What is said about an address: its name and the address itself. -/
inductive AddressText : Option Str → Option Str → Str → Prop
  | both (n a : Str) : AddressText (some n) (some a) (n ++ bs " " ++ a)
  | name (n : Str) : AddressText (some n) none n
  | addr (a : Str) : AddressText none (some a) a

/-- A text of a mail that belongs to a field; `user` are the headers that the user configured. -/
inductive FieldText (user : List (Str × Str)) (mail : Mail) : Str → Str → Prop
  | sender {l n a t} : mail.sender = some l → Within n a l → AddressText n a t → FieldText user mail (bs "from") t
  | recipient {l n a t} : mail.recipients = some l → Within n a l → AddressText n a t → FieldText user mail (bs "to") t
  | subject {t} : mail.subject = some t → FieldText user mail (bs "subject") t
  | hidden {t} : .subject t ∈ mail.parts → FieldText user mail (bs "subject") t
  | mimetype {t} : .mimetype t ∈ mail.parts → FieldText user mail (bs "mimetype") t
  | attachment {t} : .attachment t ∈ mail.parts → FieldText user mail (bs "attachment") t
  | body {t} : .body t ∈ mail.parts → FieldText user mail (bs "body") t
  | header {name header t} : (name, header) ∈ user → mail.header header = some t → FieldText user mail name t

/-- The fields that can be asked for words, with the prefixes that the query parser has for them. -/
inductive Asks (user : List (Str × Str)) : Str → Str → Prop
  | table {f p} : f ∈ [bs "from", bs "to", bs "subject", bs "mimetype", bs "attachment", bs "body"] → findPrefix f = some (some p) → Asks user f p
  | user {e} : e ∈ user → Asks user (queryField e).1 (queryField e).2

/-- A phrase with a prefix matches the document: its words are at consecutive positions. -/
def Matches (d : Doc) (p : Str) (ws : List Str) : Prop := ∃ q, ∀ i w, ws[i]? = some w → (p ++ w, q + i) ∈ d.posts

/-- A word with a prefix matches the document. -/
def Has (d : Doc) (p : Str) (w : Str) : Prop := ∃ q, (p ++ w, q) ∈ d.posts

/-- A stem with a prefix matches the document. -/
def HasStem (d : Doc) (p : Str) (s : Str) : Prop := bs "Z" ++ p ++ s ∈ d.terms

/-- Xapian's words begin with no capital letter that begins a prefix. -/
def GoodWord (w : Str) : Prop := ∃ c r, w = c :: r ∧ c ∉ bs "TXGKQPZ"

/-- Xapian makes such words and stems. -/
def Gen.Good (G : Gen) : Prop := (∀ t, ∀ w ∈ G.words t, GoodWord w) ∧ ∀ w s, G.stem w = some s → GoodWord s

/-- The user's names are not names of other fields and have no colon. -/
def GoodNames (user : List (Str × Str)) : Prop := ∀ e ∈ user, findPrefix e.1 = none ∧ 58 ∉ e.1

end Notmuch.Words
