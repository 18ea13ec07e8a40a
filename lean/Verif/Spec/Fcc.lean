import Verif.Model.Fcc

/-! # Specification: saving a sent message (C77) -/

namespace Notmuch.Fcc

/-- Nothing that was there is changed. -/
def Keeps (a b : Fs) : Prop := (∀ d ∈ a.dirs, d ∈ b.dirs) ∧ ∀ p, a.get p ≠ none → b.get p = a.get p

/-- The message was saved, as seen, in a maildir, under a new name. -/
def Saved (E : Env) (msg : Str) (a b : Fs) (p : Str) : Prop :=
  (∃ dir c, p = dir ++ bs "/cur/" ++ E.name c ++ bs ":2,S" ∧ ∀ sub ∈ [bs "/cur", bs "/new", bs "/tmp"], dir ++ sub ∈ b.dirs) ∧
    a.get p = none ∧ b.get p = some msg

/-- No directory has the name of a message. -/
def NoDir (E : Env) (fs : Fs) : Prop := ∀ dir c, dir ++ bs "/cur/" ++ E.name c ++ bs ":2,S" ∉ fs.dirs

end Notmuch.Fcc
