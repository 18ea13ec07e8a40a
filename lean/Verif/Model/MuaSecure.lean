/-
What is checked in Emacs before a message is sent, so that it does not leave unsigned and unencrypted unnoticed: emacs/notmuch-mua.el:571-625.

The buffer is a list of characters, positions count from 0, and `body` is where `message-goto-body` goes.  Letters are compared as `fold` makes them
(`case-fold-search` is on).  Left out are the hooks and the sending.
-/
namespace Notmuch.MuaSecure

/-- Text begins with a string, as `looking-at` and the searches of emacs/notmuch-mua.el:582-602 see it. -/
def startsWith (fold : Char → Char) : List Char → List Char → Bool
  | [], _ => true
  | _ :: _, [] => false
  | p :: ps, c :: cs => fold p == fold c && startsWith fold ps cs

/-- The string looked for, emacs/notmuch-mua.el:583, 587, 602. -/
def secure : List Char := "<#secure".toList

/-- The last place before the `n`th where the text has the string. -/
def lastBefore (fold : Char → Char) (pat text : List Char) : Nat → Option Nat
  | 0 => none
  | n + 1 => if startsWith fold pat (text.drop n) then some n else lastBefore fold pat text n

/-- `(search-backward STRING nil t)` from a position: the match ends there or before; emacs/notmuch-mua.el:583, 587. -/
def searchBackward (fold : Char → Char) (pat text : List Char) (from_ : Nat) : Option Nat :=
  if pat.length ≤ from_ then lastBefore fold pat text (from_ - pat.length + 1) else none

/-- `notmuch-mua-check-no-misplaced-secure-tag` without the question, emacs/notmuch-mua.el:571-587. -/
def placed (fold : Char → Char) (text : List Char) (body : Nat) : Bool :=
  match searchBackward fold secure text text.length with
  | none => true
  | some p => p == body && (searchBackward fold secure text p).isNone

/-- The end of the tag and of its line: the end of the regular expression of emacs/notmuch-mua.el:604. -/
def endsLine : List Char → Bool
  | a :: b :: _ => a == '>' && b == '\n'
  | _ => false

/-- `notmuch-mua-check-secure-tag-has-newline` without the question, emacs/notmuch-mua.el:593-605. -/
def hasNewline (fold : Char → Char) (text : List Char) (body : Nat) : Bool :=
  if startsWith fold secure (text.drop body) then
    endsLine ((text.drop (body + secure.length)).dropWhile (fun c => c != '\n' && c != '>'))
  else true

/-- What the user was asked, and whether the message is sent: `notmuch-mua-send-common`, emacs/notmuch-mua.el:615-625. -/
structure Outcome where
  asked : Nat
  sent : Bool
deriving DecidableEq, Repr

/-- `notmuch-mua-send-common`, emacs/notmuch-mua.el:615-625, with the answers to the two questions (588-591, 606-609). -/
def sendCommon (fold : Char → Char) (text : List Char) (body : Nat) (yes1 yes2 : Bool) : Outcome :=
  let a1 := if placed fold text body then 0 else 1
  if placed fold text body || yes1 then
    let a2 := if hasNewline fold text body then 0 else 1
    ⟨a1 + a2, hasNewline fold text body || yes2⟩
  else ⟨a1, false⟩

end Notmuch.MuaSecure
