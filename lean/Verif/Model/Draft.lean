import Verif.Base.Bytes

/-!
# emacs/notmuch-draft.el: saving and resuming drafts

A message is its headers and the text of its body as the user sees it in the buffer; that the text survives the MIME encoding by Emacs and notmuch is not modelled.  `fold` is what
`case-fold-search` makes of a character.
-/

namespace Notmuch.Draft

structure Msg where
  headers : List (Str × Str)
  body : Str
deriving DecidableEq

/-- The text begins with the pattern, up to case. -/
def pre (fold : UInt8 → UInt8) : Str → Str → Bool
  | [], _ => true
  | _ :: _, [] => false
  | p :: ps, c :: t => fold p == fold c && pre fold ps t

/-- `!*` (or, after one, `!+`), then `/?`, then one of the tags. -/
def bangs (fold : UInt8 → UInt8) (tags : List Str) (t : Str) : Bool :=
  tags.any (fun g => pre fold g t || pre fold (bs "/" ++ g) t) || (match t with | [] => false | c :: t => c == 33 && bangs fold tags t)

/-- `<#!*/?\(tags\)` at the beginning, emacs/notmuch-draft.el:123-126. -/
def isTag (fold : UInt8 → UInt8) (tags : List Str) (t : Str) : Bool := pre fold (bs "<#") t && bangs fold tags (t.drop 2)

/-- `<#!+/?\(tags\)` at the beginning, emacs/notmuch-draft.el:136-139. -/
def isQuoted (fold : UInt8 → UInt8) (tags : List Str) (t : Str) : Bool := pre fold (bs "<#!") t && bangs fold tags (t.drop 3)

/-- The loop that quotes, emacs/notmuch-draft.el:128-131: after `<#` is inserted `!`, and the search goes on after that. -/
def quote (fold : UInt8 → UInt8) (tags : List Str) : Nat → Str → Str
  | 0, t => t
  | _ + 1, [] => []
  | n + 1, c :: t => if isTag fold tags (c :: t) then bs "<#!" ++ quote fold tags n (t.drop 1) else c :: quote fold tags n t

/-- The loop that unquotes, emacs/notmuch-draft.el:141-144: the `!` after `<#` is deleted, and the search goes on there. -/
def unquote (fold : UInt8 → UInt8) (tags : List Str) : Nat → Str → Str
  | 0, t => t
  | _ + 1, [] => []
  | n + 1, c :: t => if isQuoted fold tags (c :: t) then bs "<#" ++ unquote fold tags n (t.drop 2) else c :: unquote fold tags n t

/-- The first line, if the text has a newline, and the rest. -/
def firstLine : Str → Option (Str × Str)
  | [] => none
  | c :: t => if c = 10 then some ([], t) else (firstLine t).map (fun p => (c :: p.1, p.2))

/-- `<#secure[^\n]*>\n` at the beginning, emacs/notmuch-draft.el:117-120: the tag, and what follows. -/
def secureTag (fold : UInt8 → UInt8) (t : Str) : Option (Str × Str) :=
  match firstLine t with
  | none => none
  | some (l, rest) => if pre fold (bs "<#secure") l && (l.drop 8).getLast? == some 62 then some (l, rest) else none

/-- The names of headers are compared without case. -/
def lower (s : Str) : Str := s.map (fun c => if 65 ≤ c ∧ c ≤ 90 then c + 32 else c)

def sameName (a b : Str) : Bool := lower a == lower b

def hasHeader (hs : List (Str × Str)) (n : Str) : Bool := hs.any (fun h => sameName h.1 n)

/-- `message-add-header`, of Emacs: nothing is done if there is such a header. -/
def addHeader (hs : List (Str × Str)) (n v : Str) : List (Str × Str) := if hasHeader hs n then hs else hs ++ [(n, v)]

/-- `message-remove-header`, of Emacs. -/
def removeHeader (hs : List (Str × Str)) (n : Str) : List (Str × Str) := hs.filter (fun h => !sameName h.1 n)

def secureName : Str := bs "X-Notmuch-Emacs-Secure"
def draftName : Str := bs "X-Notmuch-Emacs-Draft"
def idName : Str := bs "Message-ID"
def dateName : Str := bs "Date"

/-- `notmuch-draft-quote-some-mml`, emacs/notmuch-draft.el:112-131. -/
def quoteMml (fold : UInt8 → UInt8) (tags : List Str) (m : Msg) : Msg :=
  let m := match secureTag fold m.body with
    | none => m
    | some (tag, rest) => { headers := addHeader m.headers secureName tag, body := rest }
  if tags.isEmpty then m else { m with body := quote fold tags m.body.length m.body }

/-- `notmuch-draft-unquote-some-mml`, emacs/notmuch-draft.el:133-152. -/
def unquoteMml (fold : UInt8 → UInt8) (tags : List Str) (m : Msg) : Msg :=
  let body := if tags.isEmpty then m.body else unquote fold tags m.body.length m.body
  match m.headers.find? (fun h => sameName h.1 secureName) with
  | none => { m with body := body }
  | some h => { headers := removeHeader m.headers secureName, body := h.2 ++ [10] ++ body }

/-- What is saved, emacs/notmuch-draft.el:194-221, for the default of `message-deletable-headers`. -/
def saved (fold : UInt8 → UInt8) (tags : List Str) (id date : Str) (m : Msg) : Msg :=
  let hs := addHeader (removeHeader m.headers idName) idName (bs "<" ++ id ++ bs ">")
  let hs := addHeader (removeHeader hs dateName) dateName date
  quoteMml fold tags { m with headers := addHeader hs draftName (bs "True") }

/-- What is in the buffer when a message is resumed, and whether it was a draft, emacs/notmuch-draft.el:256-274 (the Fcc header that is added to what has not the tags of a draft is
not modelled). -/
def resumed (fold : UInt8 → UInt8) (tags : List Str) (m : Msg) : Msg × Bool :=
  let hs := removeHeader (removeHeader m.headers idName) dateName
  let draft := hasHeader hs draftName
  let m := { m with headers := removeHeader hs draftName }
  (if draft then unquoteMml fold tags m else m, draft)

/-- `f` holds at some place of the line, `.*` before it. -/
def within (f : Str → Bool) : Str → Bool
  | [] => f []
  | c :: t => f (c :: t) || (c != 10 && within f t)

/-- `f` holds at some place. -/
def anywhere (f : Str → Bool) : Str → Bool
  | [] => f []
  | c :: t => f (c :: t) || anywhere f t

/-- `notmuch-draft--has-encryption-tag`, emacs/notmuch-draft.el:98-100, 154-158. -/
def encTag (fold : UInt8 → UInt8) (body : Str) : Bool :=
  anywhere (fun u => pre fold (bs "<#part encrypt") u || (pre fold (bs "<#secure") u &&
    within (fun w => pre fold (bs "mode=") w && within (fun x => pre fold (bs "encrypt>") x) (w.drop 5)) (u.drop 8))) body

/-- `notmuch-draft-save-plaintext`; for `ask`, the answer. -/
inductive Policy
  | never
  | ask (yes : Bool)
  | always
deriving DecidableEq

/-- `notmuch-draft--query-encryption`, emacs/notmuch-draft.el:160-175. -/
def Policy.allows : Policy → Bool
  | .never => false
  | .ask yes => yes
  | .always => true

/-- A saved draft: its id, what was saved, and whether it has the tag deleted. -/
structure Entry where
  id : Str
  msg : Msg
  deleted : Bool
deriving DecidableEq

/-- The database, and `notmuch-draft-id`. -/
structure State where
  db : List Entry
  cur : Option Str
deriving DecidableEq

/-- `notmuch-draft--mark-deleted`, emacs/notmuch-draft.el:105-110. -/
def mark (s : State) : List Entry :=
  match s.cur with
  | none => s.db
  | some id => s.db.map (fun e => if e.id == id then { e with deleted := true } else e)

/-- What the user does with a message that is being written, and what fails: notmuch insert or notmuch tag. -/
inductive Event
  | save (id date : Str) (m : Msg) (policy : Policy) (insertOk markOk : Bool)
  | send (markOk sendOk : Bool)
deriving DecidableEq

/-- One step; `true` if there was no error.  `notmuch-draft-save`, emacs/notmuch-draft.el:184-231; `message-send-hook`, 283, runs before the message is sent. -/
def step (fold : UInt8 → UInt8) (tags : List Str) (s : State) : Event → State × Bool
  | .save id date m policy insertOk markOk =>
    if encTag fold m.body && !policy.allows then (s, false)
    else if !insertOk then (s, false)
    else
      let s1 : State := { s with db := s.db ++ [⟨id, saved fold tags id date m, false⟩] }
      if s.cur.isSome && !markOk then (s1, false)
      else ({ db := mark s1, cur := some id }, true)
  | .send markOk sendOk =>
    if s.cur.isSome && !markOk then (s, false)
    else ({ s with db := mark s }, sendOk)

/-- The states after each of the steps. -/
def run (fold : UInt8 → UInt8) (tags : List Str) : State → List Event → State
  | s, [] => s
  | s, e :: es => run fold tags (step fold tags s e).1 es

end Notmuch.Draft
