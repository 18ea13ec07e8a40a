import Verif.Model.ShowBuf

/-!
# Reading a thread
-/

namespace Notmuch.ShowBufSpec
open Notmuch.ShowBuf

variable {ι τ γ : Type} [DecidableEq ι] [DecidableEq τ]

/-- How often the hook gave a message to `notmuch tag`. -/
def marked (s : State ι τ γ) (id : ι) : Nat := (s.log.filter fun e => e.1 && decide (id ∈ e.2.1)).length

/-- Nothing is changed by others in a history. -/
def Alone (cs : List (Cmd ι τ γ)) : Prop := ∀ f, Cmd.outside f ∉ cs

/-- The buffer shows the tags that the messages have. -/
def Shown (s : State ι τ γ) : Prop := ∀ m ∈ s.buf.msgs, m.tags = s.world.tags m.id

/-- Different messages have different ids. -/
def Distinct (s : State ι τ γ) : Prop := (s.buf.msgs.map (·.id)).Nodup

end Notmuch.ShowBufSpec
