import Verif.Model.StringUtil

/-!
# notmuch-search.c: `notmuch address`

What GMime makes of the headers is given: `Addr` trees.  Running out of memory is not modelled, nor overflow of the counters.
-/

namespace Notmuch.Address

open Notmuch.StringUtil (strcaseEqual)

/-- `InternetAddress`: a mailbox with its name (or NULL) and address, or a group with its members (or NULL). -/
inductive Addr where
  | mailbox (name : Option Str) (addr : Str)
  | group (members : Option (List Addr))

/-- A name and an address. -/
abbrev Mbx := Option Str × Str

/-- `mailbox_t`, notmuch-search.c:70-74, without and with its count. -/
structure Entry where
  mbx : Mbx
  count : Nat
  deriving DecidableEq

/-- `ctx->addresses`: a hash table, by address regardless of case, of lists of mailboxes. -/
abbrev Table := List (Str × List Entry)

inductive Dedup where
  | no
  | mailbox
  | address
  deriving DecidableEq

/-- `strcmp_null (a, b) == 0`, util/string-util.c:252-263. -/
def sameName : Option Str → Option Str → Bool
  | some a, some b => a = b
  | none, none => true
  | some _, none => false
  | none, some _ => false

/-- `mailbox_compare () == 0`, notmuch-search.c:297-308. -/
def same (a b : Mbx) : Bool := sameName a.1 b.1 && a.2 = b.2

/-- `g_list_find_custom` and `count++`: `none` if it is not there. -/
def bump (m : Mbx) : List Entry → Option (List Entry)
  | [] => none
  | e :: l => if same e.mbx m then some ({ e with count := e.count + 1 } :: l) else (bump m l).map (e :: ·)

/-- `is_duplicate`, notmuch-search.c:312-357. -/
def isDuplicate (t : Table) (m : Mbx) : Bool × Table :=
  match t with
  | [] => (false, [(m.2, [⟨m, 1⟩])])
  | (k, l) :: t =>
    if strcaseEqual k m.2 then
      match bump m l with
      | some l' => (true, (k, l') :: t)
      | none => (false, (k, l ++ [⟨m, 1⟩]) :: t)
    else ((isDuplicate t m).1, (k, l) :: (isDuplicate t m).2)

/-- The options. -/
structure Opts where
  sender : Bool
  recipients : Bool
  count : Bool
  dedup : Dedup
  deriving DecidableEq

/-- The hash table and what was printed: name, address and the count of the `mailbox_t` (0 for the one that `process_address_list` has on its stack). -/
structure St where
  table : Table
  out : List Entry

/-- A mailbox in `process_address_list`, notmuch-search.c:421-438. -/
def processMailbox (o : Opts) (st : St) (m : Mbx) : St :=
  if o.dedup ≠ .no then
    if (isDuplicate st.table m).1 || o.count || o.dedup = .address then { st with table := (isDuplicate st.table m).2 }
    else ⟨(isDuplicate st.table m).2, st.out ++ [⟨m, 0⟩]⟩
  else if o.count then st
  else { st with out := st.out ++ [⟨m, 0⟩] }

mutual
/-- One address of `process_address_list`, notmuch-search.c:408-438. -/
def processAddr (o : Opts) (st : St) : Addr → St
  | .mailbox name addr => processMailbox o st (name, addr)
  | .group none => st
  | .group (some l) => processList o st l

/-- `process_address_list`, notmuch-search.c:400-440. -/
def processList (o : Opts) (st : St) : List Addr → St
  | [] => st
  | a :: l => processList o (processAddr o st a) l
end

/-- `process_address_header`, notmuch-search.c:443-458: a header that is missing or has no addresses is skipped. -/
def processHeader (o : Opts) (st : St) : Option (List Addr) → St
  | none => st
  | some l => processList o st l

/-- The headers of a message. -/
structure Msg where
  sender : Option (List Addr)
  to : Option (List Addr)
  cc : Option (List Addr)
  bcc : Option (List Addr)

/-- One message, notmuch-search.c:605-624. -/
def processMessage (o : Opts) (st : St) (m : Msg) : St :=
  let st := if o.sender then processHeader o st m.sender else st
  if o.recipients then [m.to, m.cc, m.bcc].foldl (processHeader o) st else st

/-- The loop of `print_popular`, notmuch-search.c:482-489: the best so far. -/
def popular (best : Option Entry) (max : Nat) : List Entry → Option Entry
  | [] => best
  | e :: l => if e.count > max then popular (some e) e.count l else popular best max l

/-- `print_popular`, notmuch-search.c:473-498: `none` is INTERNAL_ERROR. -/
def printPopular (l : List Entry) : Option Entry := (popular none 0 l).map (fun e => { e with count := (l.map (·.count)).foldl (· + ·) 0 })

/-- `print_hash_value`, notmuch-search.c:506-515, for all of the table, in the order of `g_hash_table_foreach`. -/
def printTable (o : Opts) : Table → Option (List Entry)
  | [] => some []
  | (_, l) :: t =>
    (if o.dedup = .address then (printPopular l).map (fun e => [e]) else some l).bind (fun a => (printTable o t).map (a ++ ·))

/-- `notmuch_address_command`, notmuch-search.c:859-926, and `do_search_messages`: `order` is the order in which the hash table is walked. -/
def address (order : Table → Table) (o : Opts) (msgs : List Msg) : Option (List Entry) :=
  let o := if o.sender || o.recipients then o else { o with sender := true }
  if o.count && o.dedup = .no then none
  else
    let st := msgs.foldl (processMessage o) ⟨[], []⟩
    if o.count || o.dedup = .address then (printTable o (order st.table)).map (st.out ++ ·) else some st.out

end Notmuch.Address
