import Verif.Model.Address
import Verif.Spec.Query

/-! # Specification: `notmuch address` (C47) -/

namespace Notmuch.Address

open Notmuch.QuerySpec (firsts)

mutual
/-- The mailboxes in an address: itself, or those of the members of a group. -/
def Addr.mailboxes : Addr → List Mbx
  | .mailbox name addr => [(name, addr)]
  | .group none => []
  | .group (some l) => mailboxesList l

def mailboxesList : List Addr → List Mbx
  | [] => []
  | a :: l => a.mailboxes ++ mailboxesList l
end

/-- The mailboxes of a header. -/
def headerMailboxes : Option (List Addr) → List Mbx
  | none => []
  | some l => mailboxesList l

/-- All mailboxes of the headers asked for, in order: the senders if nothing is asked for. -/
def occurrences (o : Opts) (msgs : List Msg) : List Mbx :=
  msgs.flatMap (fun m =>
    (if o.sender || !o.recipients then headerMailboxes m.sender else []) ++
    (if o.recipients then headerMailboxes m.to ++ headerMailboxes m.cc ++ headerMailboxes m.bcc else []))

/-- The same address, regardless of the case of ASCII letters (C30). -/
abbrev SameAddr (a b : Str) : Prop := StringUtil.strcaseEqual a b = true

/-- Of the mailboxes with an address, the one that occurs most often, and of those the one that occurs first. -/
def mostFrequent (occ : List Mbx) (a : Str) : Option Mbx :=
  (firsts (occ.filter (fun m => StringUtil.strcaseEqual a m.2))).find? (fun m => occ.all (fun m' => !StringUtil.strcaseEqual a m'.2 || decide (occ.count m' ≤ occ.count m)))

end Notmuch.Address
