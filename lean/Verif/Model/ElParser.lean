import Verif.Spec.Sprinter

/-!
# emacs/notmuch-parser.el: reading the results of a running notmuch

A process filter (emacs/notmuch.el:914-930, emacs/notmuch-tree.el, emacs/notmuch-address.el:264-272) inserts what the process wrote so far at the end
of a buffer and calls `notmuch-sexp-parse-partial-list`, which hands each result that is complete to a function and removes it from the buffer.

Emacs itself is not in the repository.  `read` and `parse-partial-sexp` are modelled here, as machines that look at one character at a time, for the
characters notmuch prints: outside strings these are white space, parentheses, `"`, letters, digits, `-`, `_` and `:`; anything else outside a string counts as an
error of `read` here, and so no theorem says anything about it.  In strings, `\n` is a newline, a backslash and up to three octal digits are a character, and
a backslash and another character are that character.  Characters are bytes: Emacs decodes the output of the process before the filter sees it.

Bytes: 34 `"`, 40 `(`, 41 `)`, 91 `[`, 92 `\`, 93 `]`, 110 `n`, 123 `{`, 125 `}`.
-/

namespace Notmuch.ElParser
open Notmuch.Sprinter (Lisp isWs skipWs isAtomChar isOctal atomOf)

/-! ## Emacs -/

/-- What `read` is in the middle of; what was read so far is kept backwards. -/
inductive Tok
  | none
  | atom (a : Str)
  | str (acc : Str)
  | esc (acc : Str)
  | oct (acc : Str) (digits : Nat) (n : Nat)
  deriving DecidableEq

/-- The state of `read` (lread.c of Emacs): the lists that are open, each backwards, the innermost first, and the token. -/
structure Reader where
  stack : List (List Lisp)
  tok : Tok

/-- `read` at a character: go on, a value is complete, a value is complete and the character does not belong to it, or an error. -/
inductive Step
  | more (r : Reader)
  | done (v : Lisp)
  | before (v : Lisp)
  | bad

/-- A value is complete: it is the result, or an element of the innermost list. -/
def emit (stack : List (List Lisp)) (v : Lisp) : Step :=
  match stack with
  | [] => .done v
  | l :: st => .more ⟨(v :: l) :: st, .none⟩

/-- `read` between tokens. -/
def openStep (stack : List (List Lisp)) (c : UInt8) : Step :=
  if isWs c then .more ⟨stack, .none⟩
  else if c = 40 then .more ⟨[] :: stack, .none⟩
  else if c = 41 then
    match stack with
    | [] => .bad
    | l :: st => emit st (.list l.reverse)
  else if c = 34 then .more ⟨stack, .str []⟩
  else if isAtomChar c then .more ⟨stack, .atom [c]⟩
  else .bad

/-- `read` inside a string. -/
def strStep (stack : List (List Lisp)) (acc : Str) (c : UInt8) : Step :=
  if c = 34 then emit stack (.str acc.reverse)
  else if c = 92 then .more ⟨stack, .esc acc⟩
  else .more ⟨stack, .str (c :: acc)⟩

/-- `read` at a character. -/
def readStep (r : Reader) (c : UInt8) : Step :=
  match r.tok with
  | .none => openStep r.stack c
  | .atom a =>
    if isAtomChar c then .more ⟨r.stack, .atom (c :: a)⟩
    else if isWs c || c = 40 || c = 41 || c = 34 then
      match r.stack with
      | [] => .before (atomOf a.reverse)
      | l :: st => openStep ((atomOf a.reverse :: l) :: st) c
    else .bad
  | .str acc => strStep r.stack acc c
  | .esc acc =>
    if isOctal c then .more ⟨r.stack, .oct acc 1 (c.toNat - 48)⟩
    else .more ⟨r.stack, .str ((if c = 110 then 10 else c) :: acc)⟩
  | .oct acc k n =>
    if k < 3 ∧ isOctal c then .more ⟨r.stack, .oct acc (k + 1) (n * 8 + (c.toNat - 48))⟩
    else strStep r.stack (UInt8.ofNat n :: acc) c

/-- What `read` does: a value, and what follows it; a symbol or number that the end of the buffer cut off or ended; `end-of-file`; or
`invalid-read-syntax`, and what follows the character. -/
inductive ReadRes
  | value (v : Lisp) (rest : Str)
  | last (v : Lisp)
  | eof
  | invalid (rest : Str)

def readFrom : Reader → Str → ReadRes
  | r, [] =>
    match r.stack, r.tok with
    | [], .atom a => .last (atomOf a.reverse)
    | _, _ => .eof
  | r, c :: s =>
    match readStep r c with
    | .more r => readFrom r s
    | .done v => .value v s
    | .before v => .value v (c :: s)
    | .bad => .invalid s

/-- `(read (current-buffer))`. -/
def read (s : Str) : ReadRes := readFrom ⟨[], .none⟩ s

/-- The state of `parse-partial-sexp` as far as it matters: elements 0, 3 and 5. -/
structure Scan where
  depth : Int
  inString : Bool
  quoted : Bool
  deriving DecidableEq

/-- `parse-partial-sexp` at a character, with the standard syntax table: the new state, and whether a parenthesis was opened or closed. -/
def scanStep (σ : Scan) (c : UInt8) : Scan × Bool :=
  if σ.quoted then ({ σ with quoted := false }, false)
  else if c = 92 then ({ σ with quoted := true }, false)
  else if σ.inString then ({ σ with inString := c ≠ 34 }, false)
  else if c = 34 then ({ σ with inString := true }, false)
  else if c = 40 ∨ c = 91 ∨ c = 123 then ({ σ with depth := σ.depth + 1 }, true)
  else if c = 41 ∨ c = 93 ∨ c = 125 then ({ σ with depth := σ.depth - 1 }, true)
  else (σ, false)

/-- `parse-partial-sexp` from a state over a text, with target depth 0: the new state, and what is behind the place where it stopped. -/
def scan : Scan → Str → Scan × Str
  | σ, [] => (σ, [])
  | σ, c :: s => if (scanStep σ c).2 ∧ (scanStep σ c).1.depth = 0 then ((scanStep σ c).1, s) else scan (scanStep σ c).1 s

/-- The state `nil`. -/
def Scan.nil : Scan := ⟨0, false, false⟩

/-! ## The parser -/

/-- The parser, notmuch-parser.el:28-51.  The marker is kept as its distance from point. -/
structure Parser where
  depth : Nat
  pos : Option Nat
  state : Option Scan
  deriving DecidableEq

/-- `notmuch-sexp-create-parser`, notmuch-parser.el:43-46. -/
def Parser.new : Parser := ⟨0, none, none⟩

/-- The errors. -/
inductive Err
  | invalid
  | eof
  | assertion
  | garbage
  deriving DecidableEq

/-- The symbols that say how a call went. -/
def retry : Lisp := .sym (bs "retry")
def endTok : Lisp := .sym (bs "end")

/-- `eq` to a symbol. -/
def isSym (name : Str) : Lisp → Bool
  | .sym s => s = name
  | _ => false

/-- `stringp`. -/
def stringp : Lisp → Bool
  | .str _ => true
  | _ => false

/-- `(read (current-buffer))` where an error is not handled: the result, the parser, and what is behind point. -/
def readHere (sp : Parser) (s : Str) : Except Err Lisp × Parser × Str :=
  match read s with
  | .value v r => (.ok v, sp, r)
  | .last v => (.ok v, sp, [])
  | .eof => (.error .eof, sp, [])
  | .invalid r => (.error .invalid, sp, r)

/-- Extending the partial parse, notmuch-parser.el:90-113. -/
def extend (sp : Parser) (s : Str) : Except Err Lisp × Parser × Str :=
  let (σ, rest) := scan (sp.state.getD .nil) (s.drop (sp.pos.getD 0))
  if σ.depth < 0 then (.error .assertion, sp, s)
  else if σ.depth = 0 then readHere { sp with state := none, pos := none } s
  else (.ok retry, { sp with state := some σ, pos := some (s.length - rest.length) }, s)

/-- `notmuch-sexp-read`, notmuch-parser.el:53-130: the result, the parser, and what is behind point. -/
def sexpRead (sp : Parser) (s0 : Str) : Except Err Lisp × Parser × Str :=
  match skipWs s0 with
  | [] => (.ok retry, sp, [])
  | c :: r =>
    if c = 41 then
      if sp.depth = 0 then readHere sp (c :: r)
      else (.ok endTok, { sp with depth := sp.depth - 1 }, r)
    else if c = 40 then
      if sp.state = none then
        match read (c :: r) with
        | .value v r' => (.ok v, sp, r')
        | .last v => (.ok v, sp, [])
        | .eof => extend sp (c :: r)
        | .invalid r' => (.error .invalid, sp, r')
      else extend sp (c :: r)
    else
      match read (c :: r) with
      | .value v r' => if stringp v || r' ≠ [] then (.ok v, sp, r') else (.ok retry, sp, c :: r)
      | .last v => if stringp v then (.ok v, sp, []) else (.ok retry, sp, c :: r)
      | .eof => (.ok retry, sp, c :: r)
      | .invalid r' => (.error .invalid, sp, r')

/-- `notmuch-sexp-begin-list`, notmuch-parser.el:132-151: whether the list was entered. -/
def beginList (sp : Parser) (s0 : Str) : Except Err Bool × Parser × Str :=
  match skipWs s0 with
  | [] => (.ok false, sp, [])
  | c :: r => if c = 40 then (.ok true, { sp with depth := sp.depth + 1 }, r) else (.error .invalid, sp, r)

/-- `notmuch-sexp--state`, notmuch-parser.el:158-159. -/
inductive Phase
  | begin
  | result
  | fin
  deriving DecidableEq

/-- The buffer behind point and its variables, the results that were handed over, and the errors that were signalled. -/
structure St where
  rest : Str
  sp : Parser
  phase : Phase
  out : List Lisp
  errs : List Err

/-- Before anything was read, notmuch-parser.el:171-173. -/
def St.start : St := ⟨[], .new, .begin, [], []⟩

/-- The loop, notmuch-parser.el:175-197.  Text before point does not matter, so `delete-region` is not represented.  The first argument bounds the number of
rounds; each but three reads a character, so it is not reached. -/
def loop : Nat → St → St
  | 0, st => st
  | fuel + 1, st =>
    match st.phase with
    | .begin =>
      match beginList st.sp st.rest with
      | (.ok false, sp, r) => { st with sp := sp, rest := r }
      | (.ok true, sp, r) => loop fuel { st with sp := sp, rest := r, phase := .result }
      | (.error e, sp, r) => { st with sp := sp, rest := r, errs := st.errs ++ [e] }
    | .result =>
      match sexpRead st.sp st.rest with
      | (.ok v, sp, r) =>
        if isSym (bs "retry") v then { st with sp := sp, rest := r }
        else if isSym (bs "end") v then loop fuel { st with sp := sp, rest := r, phase := .fin }
        else loop fuel { st with sp := sp, rest := r, out := st.out ++ [v] }
      | (.error e, sp, r) => { st with sp := sp, rest := r, errs := st.errs ++ [e] }
    | .fin =>
      if skipWs st.rest ≠ [] then { st with rest := skipWs st.rest, errs := st.errs ++ [.garbage] }
      else { st with rest := [] }

/-- The filter: insert the text at the end of the buffer, and `notmuch-sexp-parse-partial-list`, notmuch-parser.el:161-199, notmuch.el:921-926. -/
def feed (st : St) (chunk : Str) : St :=
  loop ((st.rest ++ chunk).length + 3) { st with rest := st.rest ++ chunk }

/-- The filter is called with each piece of the output in turn. -/
def run (chunks : List Str) : St := chunks.foldl feed .start

end Notmuch.ElParser
