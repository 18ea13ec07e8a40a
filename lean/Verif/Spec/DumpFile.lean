import Verif.Model.DumpFile
import Verif.Spec.Insert

/-! # Specification: the file of a dump (C66) -/

namespace Notmuch.DumpFile
open Notmuch.Insert (Fs)

/-- What is to be in the file. -/
def Env.whole (E : Env) : Str := E.pack E.text ++ E.trailer

/-- `p` is the temporary file. -/
def Env.isTemp (E : Env) (out p : Str) : Prop := p = tempName out (E.suffix.getD E.tried)

/-- The name that `mkstemp` chose is free (or, if it failed, nothing has the name that it tried last). -/
def Env.Fresh (E : Env) (out : Str) (fs : Fs) : Prop := ∀ p, E.isTemp out p → fs.ent p = none

/-- A time as `gmtime` gives it, before the year 10000. -/
structure Tm.Ok (t : Tm) : Prop where
  year : t.year < 10000
  mon : t.mon < 100
  mday : t.mday < 100
  hour : t.hour < 100
  min : t.min < 100
  sec : t.sec < 100

end Notmuch.DumpFile
