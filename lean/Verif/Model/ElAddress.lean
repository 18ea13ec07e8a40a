/-
The addresses offered for completion in Emacs and the file they are saved in: emacs/notmuch-address.el.

Settings (`notmuch-address-internal-completion`) are numbers; times are seconds.  The harvest that runs in the background is seen by the addresses it yields
and by its end; which addresses `notmuch address` finds is left open.  Company mode, external commands and the selection among the offered addresses are left
out.
-/
namespace Notmuch.ElAddress

/-- What is at `notmuch-address-save-filename`, emacs/notmuch-address.el:342-361: nothing, something else, or a plist with version, settings, time of the
last harvest and completions. -/
inductive File where
  | absent
  | foreign (content : String)
  | saved (version settings last : Nat) (comps : List String)
deriving DecidableEq, Repr

/-- The variables of emacs/notmuch-address.el:34-43, 124, 128, 274; `named`: there is a file name; `running`: a full harvest runs. -/
structure State where
  named : Bool
  file : File
  settings : Nat
  comps : List String
  last : Nat
  finished : Bool
  running : Bool
deriving DecidableEq, Repr

/-- `notmuch-address-harvest-addr`, emacs/notmuch-address.el:261-263. -/
def addAddr (comps : List String) (a : String) : List String := if a ∈ comps then comps else comps ++ [a]

/-- `notmuch-address--load-address-hash`, emacs/notmuch-address.el:363-378 with 342-361; the current version is 1 (339-340). -/
def load (s : State) : State × Bool :=
  match s.named, s.file with
  | true, .saved v st l c => if st = s.settings ∧ v = 1 then ({ s with last := l, comps := c, finished := true }, true) else (s, false)
  | _, _ => (s, false)

/-- `notmuch-address--harvest-ready`, emacs/notmuch-address.el:45-50. -/
def ready (s : State) : State × Bool := if s.finished then (s, true) else load s

/-- `notmuch-address--save-address-hash`, emacs/notmuch-address.el:380-396. -/
def save (s : State) : State :=
  if s.named then
    match s.file with
    | .foreign _ => s
    | _ => { s with file := .saved 1 s.settings s.last s.comps }
  else s

/-- What happens, emacs/notmuch-address.el: `tab` is completion at a time, with what a quick harvest would find (204-219), `out` an address from the harvest in the
background (265-272), `done` its end and `failed` another end of it or of one that was killed (314-316, 403-411), `customise` 94-114, `restart` that of Emacs,
`outside` a change of the file by someone else. -/
inductive Event where
  | tab (now : Nat) (found : List String)
  | out (a : String)
  | done
  | failed (still : Bool)
  | customise (settings : Nat)
  | restart
  | outside (f : File)

/-- The state in which the addresses are looked up: `notmuch-address-options`, emacs/notmuch-address.el:208-213. -/
def atLookup (s : State) (found : List String) : State :=
  let (s1, r) := ready s
  if r then s1 else { s1 with comps := found.foldl addAddr s1.comps }

/-- `notmuch-address-options` with `notmuch-address-matching`, emacs/notmuch-address.el:193-214. -/
def offered (matches_ : String → Bool) (s : State) (found : List String) : List String := (atLookup s found).comps.filter matches_

/-- Whether completion starts a harvest: `notmuch-address-harvest-trigger`, emacs/notmuch-address.el:398-400. -/
def starts (s : State) (now : Nat) (found : List String) : Bool := decide (now - (atLookup s found).last > 86400)

/-- One event, emacs/notmuch-address.el:94-114, 204-219, 261-272, 398-411. -/
def step (s : State) : Event → State
  | .tab now found =>
    let s1 := atLookup s found
    if starts s now found then { s1 with last := now, running := true } else s1
  | .out a => if s.running then { s with comps := addAddr s.comps a } else s
  | .done => if s.running then { save s with finished := true, running := false } else s
  | .failed still => { s with last := 0, running := s.running && still }
  | .customise st => { s with settings := st, last := 0, comps := [], finished := false }
  | .restart => { s with last := 0, comps := [], finished := false, running := false }
  | .outside f => { s with file := f }

/-- A history.  emacs/notmuch-address.el. -/
def steps (s : State) (es : List Event) : State := es.foldl step s

end Notmuch.ElAddress
