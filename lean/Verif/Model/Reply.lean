import Verif.Model.Address

/-!
# notmuch-reply.c

What GMime makes of the headers is given (`Address.Addr` trees); the printing of the reply is not part of this model.  `char` comparisons that ignore case are those
of the C locale.
-/

namespace Notmuch.Reply

open Notmuch.Address (Addr Mbx)
open Notmuch.StringUtil (strcaseEqual sanitize)

/-- The addresses of the configuration: user.primary_email and user.other_email. -/
structure Config where
  primary : Str
  other : List Str

inductive MatchMode where
  | userAddressInString
  | stringInUserAddress
  | stringIsUserAddress

/-- Whether `p`, in lower case, starts `s`. -/
def casePrefix : Str → Str → Bool
  | [], _ => true
  | _ :: _, [] => false
  | a :: p, b :: s => toLower a == toLower b && casePrefix p s

/-- `strcasestr (s, p) != NULL`. -/
def caseContains (p : Str) : Str → Bool
  | [] => casePrefix p []
  | c :: s => casePrefix p (c :: s) || caseContains p s

/-- `match_address`, notmuch-reply.c:92-106. -/
def matchAddress (str address : Str) : MatchMode → Bool
  | .userAddressInString => caseContains address str
  | .stringInUserAddress => caseContains str address
  | .stringIsUserAddress => strcaseEqual address str

/-- The loop over user.other_email, notmuch-reply.c:123-131. -/
def matchOther (str : Str) (mode : MatchMode) : List Str → Option Str
  | [] => none
  | a :: l => if matchAddress str a mode then some a else matchOther str mode l

/-- `address_match`, notmuch-reply.c:110-133. -/
def addressMatch (str : Option Str) (cfg : Config) (mode : MatchMode) : Option Str :=
  match str with
  | none => none
  | some s =>
    if s = [] then none
    else if matchAddress s cfg.primary mode then some cfg.primary
    else matchOther s mode cfg.other

/-- `address_is_users`, notmuch-reply.c:155-159. -/
def isUsers (addr : Str) (cfg : Config) : Bool := (addressMatch (some addr) cfg .stringIsUserAddress).isSome

inductive RType where
  | to
  | cc
  | bcc
  deriving DecidableEq

/-- The reply: recipients in order, each with the header it goes to. -/
abbrev Recipients := List (RType × Mbx)

/-- The state of `scan_address_list`: what was added, how many, and `*user_from`. -/
structure Scan where
  added : Recipients
  n : Nat
  userFrom : Option Str

/-- A mailbox in `scan_address_list`, notmuch-reply.c:206-223; `reply` tells whether `message` is not NULL. -/
def scanMailbox (cfg : Config) (reply : Bool) (type : RType) (st : Scan) (m : Mbx) : Scan :=
  if isUsers m.2 cfg then (if st.userFrom.isNone then { st with userFrom := some m.2 } else st)
  else if reply then { st with added := st.added ++ [(type, m)], n := st.n + 1 }
  else st

mutual
/-- One address of `scan_address_list`, notmuch-reply.c:197-223. -/
def scanAddr (cfg : Config) (reply : Bool) (type : RType) (st : Scan) : Addr → Scan
  | .mailbox name addr => scanMailbox cfg reply type st (name, addr)
  | .group none => st
  | .group (some l) => scanList cfg reply type st l

/-- `scan_address_list`, notmuch-reply.c:176-228. -/
def scanList (cfg : Config) (reply : Bool) (type : RType) (st : Scan) : List Addr → Scan
  | [] => st
  | a :: l => scanList cfg reply type (scanAddr cfg reply type st a) l
end

/-- A message: its headers, as GMime gives them. -/
structure Msg where
  from' : Option (List Addr)
  replyTo : Option (List Addr)
  to : Option (List Addr)
  cc : Option (List Addr)
  bcc : Option (List Addr)

/-- The loop of `reply_to_header_is_redundant`, notmuch-reply.c:257-269. -/
def hasMailbox (addr : Str) : List Addr → Bool
  | [] => false
  | .mailbox _ a :: l => a = addr || hasMailbox addr l
  | .group _ :: l => hasMailbox addr l

/-- `reply_to_header_is_redundant`, notmuch-reply.c:233-274; `g_mime_message_get_all_recipients` gives To, Cc and Bcc. -/
def redundant (m : Msg) : List Addr → Bool
  | [.mailbox _ addr] => hasMailbox addr (m.to.getD [] ++ m.cc.getD [] ++ m.bcc.getD [])
  | _ => false

/-- `get_sender`, notmuch-reply.c:276-303. -/
def getSender (m : Msg) : Option (List Addr) :=
  match m.replyTo with
  | some (a :: l) => if redundant m (a :: l) then m.from' else some (a :: l)
  | _ => m.from'

/-- `reply_to_map`, notmuch-reply.c:336-344. -/
def replyToMap (m : Msg) : List (Option (List Addr) × RType) := [(getSender m, .to), (m.to, .to), (m.cc, .cc), (m.bcc, .bcc)]

/-- The loop of `add_recipients_from_message`, notmuch-reply.c:349-374; `reply` tells whether `reply` is not NULL. -/
def recipientsLoop (cfg : Config) (all : Bool) : Bool → Scan → List (Option (List Addr) × RType) → Bool × Scan
  | reply, st, [] => (reply, st)
  | reply, st, (l, t) :: rest =>
    let st := scanList cfg reply t st (l.getD [])
    if !all && st.n ≠ 0 then
      if st.userFrom.isSome then (false, st) else recipientsLoop cfg all false st rest
    else recipientsLoop cfg all reply st rest

/-- `add_recipients_from_message`, notmuch-reply.c:326-386: the recipients, and the address of the user that was found; `none` is adding to a NULL message. -/
def addRecipients (cfg : Config) (m : Msg) (all : Bool) : Option (Recipients × Option Str) :=
  let r := recipientsLoop cfg all true ⟨[], 0, none⟩ (replyToMap m)
  match r.2.userFrom with
  | some a => if r.2.n = 0 then (if r.1 then some (r.2.added ++ [(.to, (none, a))], some a) else none) else some (r.2.added, some a)
  | none => some (r.2.added, none)

/-! ## The address of the user -/

/-- `strstr (s, p)`: the text from the first occurrence on. -/
def strstr (p : Str) : Str → Option Str
  | [] => if p = [] then some [] else none
  | c :: s => if p.isPrefixOf (c :: s) then some (c :: s) else strstr p s

/-- `guess_from_in_received_for`, notmuch-reply.c:394-405. -/
def guessFor (cfg : Config) (received : Str) : Option Str :=
  match strstr (bs " for ") received with
  | none => none
  | some p => addressMatch (some p) cfg .userAddressInString

/-- The fields that `strsep (&token, ". \t")` gives. -/
def fields : Str → List Str
  | [] => [[]]
  | c :: s =>
    if c = 46 ∨ c = 32 ∨ c = 9 then [] :: fields s
    else match fields s with
      | [] => [[c]]
      | f :: l => (c :: f) :: l

/-- The state of the loop over fields: `domain`, `tld`, whether there was an empty field after `tld`, and whether `tld` follows `domain` immediately. -/
structure Dom where
  domain : Option Str
  tld : Option Str
  gap : Bool
  adjacent : Bool

/-- One field, notmuch-reply.c:446-451. -/
def domStep (d : Dom) (f : Str) : Dom :=
  if f = [] then { d with gap := true } else ⟨d.tld, some f, false, !d.gap⟩

/-- notmuch-reply.c:443-462: `domain`, as a string, after `*(tld - 1) = '.'`: only if nothing was between the two does it join them. -/
def domainOf (token : Str) : Option Str :=
  let d := (fields token).foldl domStep ⟨none, none, false, false⟩
  match d.domain, d.tld with
  | some a, some b => some (if d.adjacent then a ++ bs "." ++ b else a)
  | _, _ => none

theorem strstr_len {p s t : Str} (h : strstr p s = some t) : t.length ≤ s.length := by
  induction s with
  | nil =>
    unfold strstr at h
    split at h
    · injection h with h; rw [← h]; exact Nat.le_refl _
    · cases h
  | cons c s ih =>
    unfold strstr at h
    split at h
    · injection h with h; rw [← h]; exact Nat.le_refl _
    · have := ih h
      simp only [List.length_cons]
      omega

/-- `strtok (mta, " \t")`. -/
def strtok (s : Str) : Option Str :=
  let r := s.dropWhile (fun c => c = 32 ∨ c = 9)
  if r = [] then none else some (r.takeWhile (fun c => ¬ (c = 32 ∨ c = 9)))

/-- `guess_from_in_received_by`, notmuch-reply.c:421-477. -/
def guessBy (cfg : Config) (s : Str) : Option Str :=
  match _h : strstr (bs " by ") s with
  | none => none
  | some p =>
    if _hne : p.drop 4 = [] then none
    else
      match strtok (p.drop 4) with
      | none => none
      | some token =>
        match (domainOf token).bind (fun d => addressMatch (some d) cfg .stringInUserAddress) with
        | some a => some a
        | none => guessBy cfg (p.drop 4)
termination_by s.length
decreasing_by
  have := strstr_len _h
  rw [List.length_drop]
  have : p.length ≠ 0 := by
    intro h0
    exact _hne (by rw [List.drop_eq_nil_iff]; omega)
  omega

/-- `guess_from_in_received_headers`, notmuch-reply.c:489-514. -/
def guessReceived (cfg : Config) (received : Option Str) : Option Str :=
  match received with
  | none => none
  | some r =>
    match guessFor cfg (sanitize r) with
    | some a => some a
    | none => guessBy cfg (sanitize r)

/-- `get_from_in_to_headers`, notmuch-reply.c:526-550: the headers Envelope-to, X-Original-To and Delivered-To. -/
def fromInToHeaders (cfg : Config) : List (Option Str) → Option Str
  | [] => none
  | h :: l =>
    match addressMatch h cfg .userAddressInString with
    | some a => some a
    | none => fromInToHeaders cfg l

/-- What the reply is made from. -/
structure Original where
  msg : Msg
  messageId : Str
  references : Option Str
  envelopeTo : Option Str
  originalTo : Option Str
  deliveredTo : Option Str
  received : Option Str
  subject : Option Str

/-- The reply. -/
structure ReplyMsg where
  inReplyTo : Str
  references : Str
  recipients : Recipients
  /-- the address in From (not with --format=headers-only) -/
  fromAddr : Option Str
  subject : Option Str

/-- `strncasecmp (subject, "Re:", 3)` is zero. -/
def hasRe (s : Str) : Bool := (s.take 3).map toLower == bs "re:"

/-- `create_reply_message`, notmuch-reply.c:552-632.  `talloc_asprintf ("%s <%s>", …)` for From is left out. -/
def createReply (cfg : Config) (o : Original) (all limited : Bool) : Option ReplyMsg :=
  let inReplyTo := bs "<" ++ o.messageId ++ bs ">"
  let references := match o.references with
    | some r => if r = [] then inReplyTo else r ++ bs " " ++ inReplyTo
    | none => inReplyTo
  match addRecipients cfg o.msg all with
  | none => none
  | some (recipients, from') =>
    if limited then some ⟨inReplyTo, references, recipients, none, none⟩
    else
      let from' := if from'.isNone then fromInToHeaders cfg [o.envelopeTo, o.originalTo, o.deliveredTo] else from'
      let from' := if from'.isNone then guessReceived cfg o.received else from'
      some ⟨inReplyTo, references, recipients, some (from'.getD cfg.primary), o.subject.map (fun s => if hasRe s then s else bs "Re: " ++ s)⟩

end Notmuch.Reply
