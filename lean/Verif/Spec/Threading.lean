import Verif.Model.Threading

/-!
# What threads are
-/

namespace Notmuch.ThreadSpec
open Notmuch.Threading

/-- The equivalence relation generated by `E`: connected by a chain of links in either direction. -/
inductive Conn (E : Str → Str → Prop) : Str → Str → Prop
  | refl (a : Str) : Conn E a a
  | edge {a b : Str} : E a b → Conn E a b
  | symm {a b : Str} : Conn E a b → Conn E b a
  | trans {a b c : Str} : Conn E a b → Conn E b c → Conn E a c

/-- Message `a` was added by a file whose References or In-Reply-To header names `b`. -/
def Mentions (sha1 : Str → Str) (hist : List Op) (a b : Str) : Prop :=
  ∃ file mid refs r, Op.add file mid refs ∈ hist ∧ r ∈ refs ∧ a = normId sha1 mid ∧ b = normId sha1 r

/-- `a` is the id of an added message. -/
def Added (sha1 : Str → Str) (hist : List Op) (a : Str) : Prop :=
  ∃ file mid refs, Op.add file mid refs ∈ hist ∧ a = normId sha1 mid

/-- `a` is the id of an added message or named by one. -/
def Known (sha1 : Str → Str) (hist : List Op) (a : Str) : Prop :=
  Added sha1 hist a ∨ ∃ b, Mentions sha1 hist b a

/-- No message names itself by an over-long id (see `C19_long_self_reference_counterexample`). -/
def NoLongSelf (sha1 : Str → Str) (hist : List Op) : Prop :=
  ∀ file mid refs, Op.add file mid refs ∈ hist → ∀ r ∈ refs, normId sha1 r = normId sha1 mid → r = normId sha1 mid

/-- The documents of a database: `a` has a document, and its thread is `t`. -/
def HasThread (db : Db) (a : Str) (t : Nat) : Prop := ∃ d ∈ db.docs, d.mid = a ∧ d.threads = [t]

/-- Two messages are in the same thread. -/
def SameThread (db : Db) (a b : Str) : Prop := ∃ t, HasThread db a t ∧ HasThread db b t

/-- SHA-1 digests are printed with 40 digits. -/
def Sha (sha1 : Str → Str) : Prop := ∀ s, (sha1 s).length = 40

/-- According to the history, `file` is a file of message `a`: it was added with this id and not
removed since. -/
def Present (sha1 : Str → Str) (hist : List Op) (file a : Str) : Prop :=
  ∃ before mid refs after, hist = before ++ Op.add file mid refs :: after ∧ Op.remove file ∉ after ∧ a = normId sha1 mid

/-- Mail files do not change their message id. -/
def StableIds (sha1 : Str → Str) (hist : List Op) : Prop :=
  ∀ file mid refs mid' refs', Op.add file mid refs ∈ hist → Op.add file mid' refs' ∈ hist →
    normId sha1 mid = normId sha1 mid'

end Notmuch.ThreadSpec
