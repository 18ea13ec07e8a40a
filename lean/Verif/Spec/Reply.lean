import Verif.Model.Reply

/-! # Specification: whom a reply goes to (C49) -/

namespace Notmuch.Reply

open Notmuch.Address (Addr Mbx)

mutual
/-- The mailboxes of an address, those in groups too. -/
def mailboxes : Addr → List Mbx
  | .mailbox name addr => [(name, addr)]
  | .group none => []
  | .group (some l) => mailboxesL l

def mailboxesL : List Addr → List Mbx
  | [] => []
  | a :: l => mailboxes a ++ mailboxesL l
end

/-- The mailboxes of a header. -/
def mbxs (h : Option (List Addr)) : List Mbx := mailboxesL (h.getD [])

/-- The addresses are equal but for case. -/
def SameAddr (a b : Str) : Prop := a.map toLower = b.map toLower

/-- `u` is somewhere in `s`, whatever the case. -/
def ContainsCase (u s : Str) : Prop := ∃ a b c, s = a ++ b ++ c ∧ SameAddr b u

/-- One of the addresses of the configuration. -/
def Configured (cfg : Config) (a : Str) : Prop := a = cfg.primary ∨ a ∈ cfg.other

/-- An address of the user: not empty, and configured but for case. -/
def Mine (cfg : Config) (a : Str) : Prop := a ≠ [] ∧ ∃ u, Configured cfg u ∧ SameAddr u a

instance (cfg : Config) (a : Str) : Decidable (Mine cfg a) :=
  decidable_of_iff (a ≠ [] ∧ (cfg.primary.map toLower = a.map toLower ∨ ∃ u ∈ cfg.other, u.map toLower = a.map toLower)) (by
    unfold Mine Configured SameAddr
    constructor
    · rintro ⟨h, h1 | ⟨u, hu, h1⟩⟩
      · exact ⟨h, _, Or.inl rfl, h1⟩
      · exact ⟨h, u, Or.inr hu, h1⟩
    · rintro ⟨h, u, rfl | hu, h1⟩
      · exact ⟨h, Or.inl h1⟩
      · exact ⟨h, Or.inr ⟨u, hu, h1⟩⟩)

/-- The others of a header, who get the reply. -/
def others (cfg : Config) (h : Option (List Addr)) (t : RType) : Recipients := ((mbxs h).filter (fun m => ¬ Mine cfg m.2)).map (fun m => (t, m))

/-- A mailing list put its own address into Reply-To: it is the only one there and is in To, Cc or Bcc (not in a group). -/
def Munged (m : Msg) : Prop :=
  ∃ name addr, m.replyTo = some [.mailbox name addr] ∧ ∃ name', Addr.mailbox name' addr ∈ m.to.getD [] ++ m.cc.getD [] ++ m.bcc.getD []

/-- Whom to answer: Reply-To, if there is one that is not munged, else From. -/
def IsSender (m : Msg) (s : Option (List Addr)) : Prop :=
  (m.replyTo.getD [] ≠ [] ∧ ¬ Munged m → s = m.replyTo) ∧ (m.replyTo.getD [] = [] ∨ Munged m → s = m.from')

/-- The first of the user's addresses in a list of mailboxes. -/
def firstMine (cfg : Config) (l : List Mbx) : Option Str := (l.find? (fun m => Mine cfg m.2)).map (·.2)

/-- The first list that is not empty. -/
def firstNonempty : List Recipients → Recipients
  | [] => []
  | a :: l => if a = [] then firstNonempty l else a

end Notmuch.Reply
