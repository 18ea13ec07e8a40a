import Verif.Base.Bytes

/-!
# emacs/notmuch-emacs-mua: from arguments to Lisp

A Bash script.  Words are bytes without NUL.  Not modelled: the environment variables `EMACS` and `EMACSCLIENT`, the expansion of file name patterns in `echo ${ELISP}`.
-/

namespace Notmuch.Mua

/-- `${s//c/r}`. -/
def subst (c : UInt8) (r : Str) (s : Str) : Str := s.flatMap (fun x => if x = c then r else [x])

/-- `escape`, emacs/notmuch-emacs-mua:27-31. -/
def escape (s : Str) : Str := subst 34 [92, 34] (subst 92 [92, 92] s)

/-- The variables, emacs/notmuch-emacs-mua:36-46. -/
structure St where
  printOnly : Bool := false
  noWindow : Bool := false
  client : Bool := false
  autoDaemon : Bool := false
  createFrame : Bool := false
  elisp : Str := []
  mailto : Str := []
  hello : Bool := false
  toSep : Str := []
  ccSep : Str := []
  bccSep : Str := []
deriving DecidableEq

/-- What one call of `getopts` and the first `case` give, emacs/notmuch-emacs-mua:49-80. -/
inductive Got
  | stop
  | err
  | opt (name arg : Str) (rest : List Str)
deriving DecidableEq

/-- The part up to the first `=`, and what is after it. -/
def splitEq : Str → Option (Str × Str)
  | [] => none
  | c :: t => if c = 61 then some ([], t) else (splitEq t).map (fun p => (c :: p.1, p.2))

/-- Long options with arguments, emacs/notmuch-emacs-mua:65. -/
def withArg : List Str := [bs "--subject", bs "--to", bs "--cc", bs "--bcc", bs "--body"]

/-- Long options without arguments, emacs/notmuch-emacs-mua:70. -/
def withoutArg : List Str := [bs "--help", bs "--print", bs "--no-window-system", bs "--client", bs "--auto-daemon", bs "--create-frame", bs "--hello"]

/-- `getopts :s:c:b:i:h opt` at the first word, and the first `case`, emacs/notmuch-emacs-mua:49-80.  The words that are left are those after the `shift` of line 132. -/
def getopt : List Str → Got
  | [] => .stop
  | w :: rest =>
    match w with
    | 45 :: c :: v =>
      if c = 45 then
        if v.isEmpty then .stop
        else match splitEq w with
          | some (name, arg) => if withArg.contains name then .opt name arg rest else .err
          | none => if withoutArg.contains w then .opt w [45] rest else .err
      else if c = 104 then .opt [104] (bs "none") rest
      else if c = 115 ∨ c = 99 ∨ c = 98 ∨ c = 105 then
        if v.isEmpty then
          match rest with
          | [] => .err
          | a :: rest => .opt [c] a rest
        else .opt [c] v rest
      else .err
    | _ => .stop

/-- The second `case`, emacs/notmuch-emacs-mua:82-130; `arg` is escaped.  `none` for the manual page. -/
def handle (st : St) (name arg : Str) : Option St :=
  if name = bs "--help" ∨ name = bs "h" then none
  else if name = bs "--subject" ∨ name = bs "s" then some { st with elisp := st.elisp ++ bs " (message-goto-subject) (insert \"" ++ arg ++ bs "\")" }
  else if name = bs "--to" then some { st with elisp := st.elisp ++ bs " (message-goto-to) (insert \"" ++ (st.toSep ++ arg) ++ bs "\")", toSep := bs ", " }
  else if name = bs "--cc" ∨ name = bs "c" then some { st with elisp := st.elisp ++ bs " (message-goto-cc) (insert \"" ++ (st.ccSep ++ arg) ++ bs "\")", ccSep := bs ", " }
  else if name = bs "--bcc" ∨ name = bs "b" then some { st with elisp := st.elisp ++ bs " (message-goto-bcc) (insert \"" ++ (st.bccSep ++ arg) ++ bs "\")", bccSep := bs ", " }
  else if name = bs "--body" ∨ name = bs "i" then some { st with elisp := st.elisp ++ bs " (message-goto-body) (insert-file \"" ++ arg ++ bs "\")" }
  else if name = bs "--print" then some { st with printOnly := true }
  else if name = bs "--no-window-system" then some { st with noWindow := true }
  else if name = bs "--client" then some { st with client := true }
  else if name = bs "--auto-daemon" then some { st with autoDaemon := true, createFrame := true }
  else if name = bs "--create-frame" then some { st with createFrame := true }
  else some { st with hello := true }

/-- What the script does in the end. -/
inductive Out
  | fail
  | manual
  | print (text : Str)
  | exec (client : Bool) (args : List Str)
deriving DecidableEq

/-- The state of the script, or how it ended. -/
inductive Res (α : Type)
  | ok (a : α)
  | fail
  | manual
deriving DecidableEq

/-- The loop over the options, emacs/notmuch-emacs-mua:49-134. -/
def options : Nat → St → List Str → Res (St × List Str)
  | 0, st, ws => .ok (st, ws)
  | n + 1, st, ws =>
    match getopt ws with
    | .stop => .ok (st, ws)
    | .err => .fail
    | .opt name arg rest =>
      match handle st name (escape arg) with
      | none => .manual
      | some st => options n st rest

/-- The text begins with that. -/
def starts (p s : Str) : Bool := s.take p.length == p

/-- The loop over the other words, emacs/notmuch-emacs-mua:137-151. -/
def others : St → List Str → Res St
  | st, [] => .ok st
  | st, a :: as =>
    let arg := escape a
    if starts (bs "mailto:") arg then
      if !st.mailto.isEmpty then .fail else others { st with mailto := arg } as
    else others { st with elisp := st.elisp ++ bs " (message-goto-to) (insert \"" ++ arg ++ bs ", \")" } as

/-- The words of the text. -/
def words : Str → Str → List Str
  | acc, [] => if acc.isEmpty then [] else [acc]
  | acc, c :: t => if c = 32 ∨ c = 9 ∨ c = 10 then (if acc.isEmpty then words [] t else acc :: words [] t) else words (acc ++ [c]) t

/-- `echo ${ELISP}`, emacs/notmuch-emacs-mua:176: the words with a space between. -/
def echo (s : Str) : Str := (words [] s).intersperse (bs " ") |>.flatten

/-- The text of the program, emacs/notmuch-emacs-mua:153-173; `none` if there is an error. -/
def program (st : St) (pwd : Str) : Option Str :=
  let body : Option Str :=
    if !st.mailto.isEmpty then
      if !st.elisp.isEmpty then none else some (bs "(browse-url-mail \"" ++ st.mailto ++ bs "\")")
    else if st.elisp.isEmpty && st.hello then some (bs "(notmuch)")
    else some (bs "(notmuch-mua-new-mail) " ++ st.elisp)
  match body with
  | none => none
  | some b =>
    let b := if !st.client || st.createFrame || st.noWindow then b ++ bs " (message-add-action #'save-buffers-kill-terminal 'exit)" else b
    some (bs "(prog1 'done (require 'notmuch) (cd \"" ++ escape pwd ++ bs "\") " ++ b ++ bs ")")

/-- The script, emacs/notmuch-emacs-mua:49-185. -/
def script (argv : List Str) (pwd : Str) : Out :=
  match options argv.length {} argv with
  | .fail => .fail
  | .manual => .manual
  | .ok (st, ws) =>
    match others st ws with
    | .fail => .fail
    | .manual => .manual
    | .ok st =>
      match program st pwd with
      | none => .fail
      | some text =>
        if st.printOnly then .print (echo text)
        else if st.client then
          .exec true ((if st.noWindow then [bs "-nw"] else []) ++ (if st.createFrame then [bs "-c"] else []) ++ (if st.autoDaemon then [bs "--alternate-editor="] else []) ++ [bs "--eval", text])
        else .exec false ((if st.noWindow then [bs "-nw"] else []) ++ [bs "--eval", text])

end Notmuch.Mua
