import Verif.Model.Mua

/-!
# What the arguments of notmuch-emacs-mua mean (C80)

`lex` is the part of the Lisp reader of Emacs that is needed: parentheses, quotes, symbols and strings.
-/

namespace Notmuch.Mua

/-- A token of Lisp. -/
inductive Tok
  | lpar
  | rpar
  | quote
  | function
  | sym (s : Str)
  | str (s : Str)
deriving DecidableEq

/-- Where the reader is. -/
inductive Mode
  | normal
  | hash
  | sym (acc : Str)
  | str (acc : Str)
  | esc (acc : Str)
deriving DecidableEq

/-- A character between tokens. -/
def lexNormal (c : UInt8) : Option (List Tok × Mode) :=
  if c = 32 ∨ c = 9 ∨ c = 10 ∨ c = 12 ∨ c = 13 then some ([], .normal)
  else if c = 40 then some ([.lpar], .normal)
  else if c = 41 then some ([.rpar], .normal)
  else if c = 39 then some ([.quote], .normal)
  else if c = 34 then some ([], .str [])
  else if c = 35 then some ([], .hash)
  else if c = 59 ∨ c = 92 ∨ c = 96 ∨ c = 44 ∨ c = 63 ∨ c = 91 ∨ c = 93 then none
  else some ([], .sym [c])

/-- One character.  `none` for what is not known here: comments, vectors, characters, escapes in symbols, and escapes by number or name in strings. -/
def lexStep : Mode → UInt8 → Option (List Tok × Mode)
  | .normal, c => lexNormal c
  | .hash, c => if c = 39 then some ([.function], .normal) else none
  | .sym acc, c =>
    if c = 32 ∨ c = 9 ∨ c = 10 ∨ c = 12 ∨ c = 13 ∨ c = 40 ∨ c = 41 ∨ c = 39 ∨ c = 34 then (lexNormal c).map (fun p => (.sym acc :: p.1, p.2))
    else if c = 59 ∨ c = 92 ∨ c = 96 ∨ c = 44 ∨ c = 91 ∨ c = 93 then none
    else some ([], .sym (acc ++ [c]))
  | .str acc, c => if c = 34 then some ([.str acc], .normal) else if c = 92 then some ([], .esc acc) else some ([], .str (acc ++ [c]))
  | .esc acc, c =>
    if c = 34 ∨ c = 92 then some ([], .str (acc ++ [c]))
    else if c = 10 ∨ c = 32 then some ([], .str acc)
    else if c = 110 then some ([], .str (acc ++ [10]))
    else if c = 116 then some ([], .str (acc ++ [9]))
    else none

/-- The tokens, and where the reader is then. -/
def lexFrom : Mode → Str → Option (List Tok × Mode)
  | m, [] => some ([], m)
  | m, c :: t =>
    match lexStep m c with
    | none => none
    | some (ts, m') => (lexFrom m' t).map (fun p => (ts ++ p.1, p.2))

/-- The tokens of a whole text. -/
def lex (s : Str) : Option (List Tok) :=
  match lexFrom .normal s with
  | some (ts, .normal) => some ts
  | _ => none

/-- Lisp data. -/
inductive Sexp
  | sym (s : Str)
  | str (s : Str)
  | quote (x : Sexp)
  | function (x : Sexp)
  | list (l : List Sexp)

/-- How data is written. -/
def Sexp.toks : Sexp → List Tok
  | .sym s => [.sym s]
  | .str s => [.str s]
  | .quote x => .quote :: x.toks
  | .function x => .function :: x.toks
  | .list l => .lpar :: (l.map Sexp.toks).flatten ++ [.rpar]

/-- The text is read as that. -/
def ReadsAs (text : Str) (x : Sexp) : Prop := lex text = some x.toks

/-- `(f)`, `(f "s")`. -/
def call0 (f : String) : Sexp := .list [.sym (bs f)]
def call1 (f : String) (s : Str) : Sexp := .list [.sym (bs f), .str s]

/-- What the user asked for. -/
inductive Opt
  | subject (s : Str)
  | to (s : Str)
  | cc (s : Str)
  | bcc (s : Str)
  | body (file : Str)
  | print
  | noWindow
  | client
  | autoDaemon
  | createFrame
  | hello
deriving DecidableEq

/-- How options are written: the words, the options, and the words that are left. -/
inductive Args : List Str → List Opt → List Str → Prop
  | done (ws : List Str) (h : ws = [] ∨ ∃ w rest, ws = w :: rest ∧ (w = bs "--" ∨ w = bs "-" ∨ w.head? ≠ some 45)) : Args ws [] ws
  | short (p : String × (Str → Opt)) (v : Str) {ws os ps} : p ∈ [("-s", Opt.subject), ("-c", .cc), ("-b", .bcc), ("-i", .body)] → v ≠ [] → Args ws os ps → Args ((bs p.1 ++ v) :: ws) (p.2 v :: os) ps
  | next (p : String × (Str → Opt)) (v : Str) {ws os ps} : p ∈ [("-s", Opt.subject), ("-c", .cc), ("-b", .bcc), ("-i", .body)] → Args ws os ps → Args (bs p.1 :: v :: ws) (p.2 v :: os) ps
  | long (p : String × (Str → Opt)) (v : Str) {ws os ps} : p ∈ [("--subject=", Opt.subject), ("--to=", .to), ("--cc=", .cc), ("--bcc=", .bcc), ("--body=", .body)] → Args ws os ps →
      Args ((bs p.1 ++ v) :: ws) (p.2 v :: os) ps
  | flag (p : String × Opt) {ws os ps} : p ∈ [("--print", Opt.print), ("--no-window-system", .noWindow), ("--client", .client), ("--auto-daemon", .autoDaemon), ("--create-frame", .createFrame),
      ("--hello", .hello)] → Args ws os ps → Args (bs p.1 :: ws) (p.2 :: os) ps

/-- What an option does in the buffer, after these options: addresses of one kind are separated. -/
def Opt.forms (before : List Opt) : Opt → List Sexp
  | .subject s => [call0 "message-goto-subject", call1 "insert" s]
  | .to s => [call0 "message-goto-to", call1 "insert" ((if before.any (fun o => match o with | .to _ => true | _ => false) then bs ", " else []) ++ s)]
  | .cc s => [call0 "message-goto-cc", call1 "insert" ((if before.any (fun o => match o with | .cc _ => true | _ => false) then bs ", " else []) ++ s)]
  | .bcc s => [call0 "message-goto-bcc", call1 "insert" ((if before.any (fun o => match o with | .bcc _ => true | _ => false) then bs ", " else []) ++ s)]
  | .body f => [call0 "message-goto-body", call1 "insert-file" f]
  | _ => []

/-- What all of them do. -/
def formsFrom (before : List Opt) : List Opt → List Sexp
  | [] => []
  | o :: os => o.forms before ++ formsFrom (before ++ [o]) os

/-- What the other words do. -/
def addressForms (ps : List Str) : List Sexp := ps.flatMap (fun p => [call0 "message-goto-to", call1 "insert" (p ++ bs ", ")])

/-- The other words that are URLs, and those that are not. -/
def urls (ps : List Str) : List Str := ps.filter (fun p => starts (bs "mailto:") p)
def addresses (ps : List Str) : List Str := ps.filter (fun p => !starts (bs "mailto:") p)

/-- The body of the program that is meant; `none` if the arguments do not go together. -/
def body (os : List Opt) (ps : List Str) : Option (List Sexp) :=
  let fs := formsFrom [] os ++ addressForms (addresses ps)
  match urls ps with
  | [] => some (if fs.isEmpty && os.contains .hello then [call0 "notmuch"] else call0 "notmuch-mua-new-mail" :: fs)
  | [u] => if fs.isEmpty then some [call1 "browse-url-mail" u] else none
  | _ => none

/-- The terminal, or the frame, is for this message only. -/
def ownFrame (os : List Opt) : Bool := !os.contains .client || os.contains .createFrame || os.contains .autoDaemon || os.contains .noWindow

/-- The program that is meant. -/
def meant (os : List Opt) (ps : List Str) (pwd : Str) : Option Sexp :=
  (body os ps).map (fun b => .list ([.sym (bs "prog1"), .quote (.sym (bs "done")), .list [.sym (bs "require"), .quote (.sym (bs "notmuch"))], call1 "cd" pwd] ++ b ++
    (if ownFrame os then [.list [.sym (bs "message-add-action"), .function (.sym (bs "save-buffers-kill-terminal")), .quote (.sym (bs "exit"))]] else [])))

/-- What is typed into a header by the forms: `message-goto-…` goes to the end of one, `insert` adds there. -/
def typed (field : Str) : Option Str → List Sexp → Str
  | _, [] => []
  | _, .list [.sym f] :: xs => typed field (some f) xs
  | cur, .list [.sym f, .str s] :: xs => (if f = bs "insert" ∧ cur = some field then s else []) ++ typed field cur xs
  | cur, _ :: xs => typed field cur xs

/-- The three headers with addresses: how the script goes there, and what an option puts there. -/
inductive Header
  | to
  | cc
  | bcc

def Header.form : Header → Str
  | .to => bs "message-goto-to"
  | .cc => bs "message-goto-cc"
  | .bcc => bs "message-goto-bcc"

def Header.value : Header → Opt → Option Str
  | .to, .to s => some s
  | .cc, .cc s => some s
  | .bcc, .bcc s => some s
  | _, _ => none

end Notmuch.Mua
