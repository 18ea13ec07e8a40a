import Verif.Model.Mime

/-!
# Signatures and encryption in `notmuch show`: mime-node.c, util/crypto.c, notmuch-show.c

Parts are those of `Mime`.  A list of signatures is a number; decryption and verification are functions of the part.  All parts of a message are shown, with `--part` left
out.  Simplified: memory does not run out, and a session key can be stored.
-/

namespace Notmuch.ShowCrypto
open Notmuch.Mime (Part Policy Smime Decrypted repairMixedUp legacyDisplay protectedSubject insertKey)

/-- A list of signatures with what is known of each (`GMimeSignatureList`). -/
abbrev Sigs := Nat

/-- `_notmuch_crypto_t`, util/crypto.h, and what GMime finds. -/
structure Env where
  /-- `g_mime_multipart_encrypted_decrypt`, `g_mime_application_pkcs7_mime_decrypt`: with a session key, or with the secret key; the cleartext, the signatures in it and
  the session key that may be exported. -/
  decrypt : Part → Option Str → Option (Part × Option Sigs × Option Str)
  /-- `g_mime_multipart_signed_verify`, and `g_mime_application_pkcs7_mime_verify` with what was signed -/
  verify : Part → Option Sigs × Option Part
  policy : Policy
  verifies : Bool

/-- What is asked of the user's agent, and what is stored. -/
inductive Eff where
  | askKey (p : Part) (key : Str)
  | askSecret (p : Part)
  | verify (p : Part)
  | stash (key : Str)

/-- `_notmuch_message_crypto_t`, util/crypto.h:42-66. -/
structure Msg where
  status : Decrypted
  sigs : Option Sigs
  payload : Bool
  subject : Option Str
  sigsEncrypted : Bool

/-- The message's state, its session keys, and the log. -/
structure St where
  msg : Msg
  keys : List Str
  log : List Eff

/-- One more effect. -/
def St.put (st : St) (e : Eff) : St := { st with log := st.log ++ [e] }

/-- `_notmuch_message_crypto_potential_sig_list`, util/crypto.c:138-165. -/
def noteSigs (s : Option Sigs) (m : Msg) : Msg :=
  if m.payload then m
  else { m with sigs := s, sigsEncrypted := if m.status = .full then true else m.sigsEncrypted }

/-- The control part of multipart/encrypted, util/crypto.c:170-184. -/
def isControl (p : Part) (parent : Option Part) (child : Nat) : Bool :=
  match parent with
  | some (.multipart .encrypted i _) =>
    child == 0 && (match i.protocol, p.info.type with
      | some e, some (a, b) => a ++ bs "/" ++ b == e
      | _, _ => false)
  | _ => false

/-- `_notmuch_message_crypto_potential_payload`, util/crypto.c:168-219. -/
def notePayload (p : Part) (parent : Option Part) (child : Nat) (m : Msg) : Bool × Msg :=
  if m.payload then (false, m)
  else if isControl p parent child then (false, m)
  else if m.status ≠ .full ∧ m.sigs = none then (false, { m with payload := true })
  else
    match protectedSubject p with
    | some s => (true, { m with payload := true, subject := some s })
    | none => (true, { m with payload := true })

/-- `_notmuch_message_crypto_successful_decryption`, util/crypto.c:222-237. -/
def noteDecryption (m : Msg) : Msg :=
  if !m.payload then { m with status := .full }
  else if m.status = .none then { m with status := .partially }
  else m

/-- The loop over the session keys in `_notmuch_crypto_decrypt`, util/crypto.c:43-78. -/
def tryKeys (E : Env) (p : Part) : List Str → St → Option (Part × Option Sigs) × St
  | [], st => (none, st)
  | k :: ks, st =>
    match E.decrypt p (some k) with
    | some (q, s, _) => (some (q, s), st.put (.askKey p k))
    | none => tryKeys E p ks (st.put (.askKey p k))

/-- `_notmuch_crypto_decrypt`, util/crypto.c:32-113, for a policy other than `false`: whether it was attempted, the cleartext with signatures, and the session key, which is
exported only with the flag. -/
def cryptoDecrypt (E : Env) (p : Part) (st : St) : Bool × Option (Part × Option Sigs × Option Str) × St :=
  match tryKeys E p st.keys st with
  | (some (q, s), st) => (true, some (q, s, none), st)
  | (none, st') =>
    if E.policy = .auto then (!st.keys.isEmpty, none, st')
    else (true, (E.decrypt p none).map (fun x => (x.1, x.2.1, if E.policy = .true then x.2.2 else none)), st'.put (.askSecret p))

/-- What is known of a node, notmuch-client.h:360-380. -/
structure Marks where
  attempted : Bool
  success : Bool
  verified : Bool
  sigs : Option Sigs

/-- Of a node with which nothing was done. -/
def noMarks : Marks := ⟨false, false, false, none⟩

/-- A node that is set up: its part, the number of children, what was unwrapped. -/
structure Set_ where
  part : Part
  n : Nat
  unwrapped : Option Part
  marks : Marks

/-- The signatures of a decryption, mime-node.c:299-313. -/
def decryptedSigs (s : Option Sigs) (st : St) : St :=
  match s with
  | some s => { st with msg := noteSigs (some s) st.msg }
  | none => st

/-- The session key of a decryption, mime-node.c:315-323. -/
def stash (E : Env) (key : Option Str) (st : St) : St :=
  if E.policy = .true then
    match key with
    | some k => { st.put (.stash k) with keys := insertKey k st.keys }
    | none => st
  else st

/-- `node_decrypt_and_verify`, mime-node.c:265-328. -/
def decryptNode (E : Env) (p : Part) (n : Nat) (st : St) : Set_ × St :=
  match cryptoDecrypt E p st with
  | (a, none, st) => (⟨p, n, none, ⟨a, false, false, none⟩⟩, st)
  | (a, some (q, s, key), st) =>
    (⟨p, n, some q, ⟨a, true, s.isSome, s⟩⟩, stash E key (decryptedSigs s { st with msg := noteDecryption st.msg }))

/-- `node_verify`, mime-node.c:230-262; `u` is what a PKCS#7 part has in it. -/
def verifyNode (E : Env) (p : Part) (n : Nat) (u : Option Part) (st : St) : Set_ × St :=
  (⟨p, if u.isSome then 1 else n, u, ⟨false, false, true, (E.verify p).1⟩⟩, { st.put (.verify p) with msg := noteSigs (E.verify p).1 st.msg })

/-- The cryptographic layers, mime-node.c:388-421; `none` if the part is none. -/
def layer (E : Env) (p : Part) (n : Nat) (st : St) : Option (Set_ × St) :=
  match p with
  | .multipart .encrypted _ _ => if E.policy ≠ .false then some (if n ≠ 2 then (⟨p, n, none, noMarks⟩, st) else decryptNode E p n st) else none
  | .multipart .signed _ _ => if E.verifies then some (if n ≠ 2 then (⟨p, n, none, noMarks⟩, st) else verifyNode E p n none st) else none
  | .pkcs7 _ .signedData _ => some (verifyNode E p n (E.verify p).2 st)
  | .pkcs7 _ .envelopedData _ =>
    if E.policy ≠ .false then
      some (⟨p, if (decryptNode E p n st).1.unwrapped.isSome && n == 0 then 1 else n, (decryptNode E p n st).1.unwrapped, (decryptNode E p n st).1.marks⟩, (decryptNode E p n st).2)
    else none
  | _ => none

/-- The part and the number of its children, mime-node.c:360-386; `none` for an unknown type. -/
def shape (p : Part) : Option (Part × Nat) :=
  match p with
  | .multipart _ _ l =>
    match repairMixedUp p with
    | some (.multipart k i l) => some (.multipart k i l, l.length)
    | _ => some (p, l.length)
  | .message _ _ _ => some (p, 1)
  | .pkcs7 _ _ _ => some (p, 0)
  | .leaf _ _ _ _ _ => some (p, 0)
  | .unknown _ => none

/-- One call of `_mime_node_set_up_part`, mime-node.c:356-433: the node, or what to set it up with instead. -/
def setUpOnce (E : Env) (p : Part) (parent : Option Part) (child : Nat) (st : St) : Option ((Set_ ⊕ Part) × St) :=
  (shape p).map (fun r =>
    match layer E r.1 r.2 st with
    | some (s, st) => (.inl s, st)
    | none =>
      match notePayload r.1 parent child st.msg with
      | (b, m) =>
        if b && m.status = .full then
          match legacyDisplay r.1 with
          | some q => (.inr q, { st with msg := m })
          | none => (.inl ⟨r.1, r.2, none, noMarks⟩, { st with msg := m })
        else (.inl ⟨r.1, r.2, none, noMarks⟩, { st with msg := m }))

/-- `_mime_node_set_up_part`, mime-node.c:356-433.  There is one payload, so the second call does not ask for a third. -/
def setUp (E : Env) (p : Part) (parent : Option Part) (child : Nat) (st : St) : Option (Set_ × St) :=
  match setUpOnce E p parent child st with
  | none => none
  | some (.inl s, st) => some (s, st)
  | some (.inr q, st) =>
    match setUpOnce E q parent child st with
    | some (.inl s, st) => some (s, st)
    | _ => none

/-- The parts from which the children are made, mime-node.c:445-460. -/
def childParts (s : Set_) : List (Option Part) :=
  match s.part with
  | .multipart _ _ l =>
    match s.unwrapped with
    | some q => (l.set 1 q).map some
    | none => l.map some
  | .message _ _ q => [q]
  | .pkcs7 _ _ _ => List.replicate s.n s.unwrapped
  | _ => []

/-- A node as it is shown. -/
inductive Node where
  | node (part : Part) (marks : Marks) (children : List Node)

/-- What a run gives: the depth did not suffice, the program dies, or a result. -/
inductive Res (α : Type) where
  | deep
  | crash
  | ok (a : α)

/-- The loop over the children, notmuch-show.c:856-857: `walk` shows one. -/
def walkList (walk : Part → Nat → St → Res (Node × St)) : Nat → List (Option Part) → St → Res (List Node × St)
  | _, [], st => .ok ([], st)
  | _, none :: _, _ => .crash
  | c, some p :: l, st =>
    match walk p c st with
    | .deep => .deep
    | .crash => .crash
    | .ok (n, st) =>
      match walkList walk (c + 1) l st with
      | .deep => .deep
      | .crash => .crash
      | .ok (ns, st) => .ok (n :: ns, st)

/-- `mime_node_child` and what is below the node, mime-node.c:436-462, notmuch-show.c:673-862.  A type that is not known makes `mime_node_child` use a pointer that is `NULL`
(mime-node.c:462-467). -/
def walk (E : Env) : Nat → Option Part → Part → Nat → St → Res (Node × St)
  | 0, _, _, _, _ => .deep
  | d + 1, parent, p, c, st =>
    match setUp E p parent c st with
    | none => .crash
    | some (s, st) =>
      match walkList (walk E d (some s.part)) 0 (childParts s) st with
      | .deep => .deep
      | .crash => .crash
      | .ok (ns, st) => .ok (.node s.part s.marks ns, st)

/-- The state of `mime_node_open`, mime-node.c:155-157. -/
def start (keys : List Str) : St := ⟨⟨.none, none, false, none, false⟩, keys, []⟩

/-- The body of a message with the session keys `keys`, notmuch-show.c:683-696. -/
def showBody (E : Env) (d : Nat) (keys : List Str) (p : Part) : Res (Node × St) := walk E d none p 0 (start keys)

/-- The map `crypto`: the signatures, whether these are encrypted, whether they are of the subject; whether all is encrypted, and the subject outside if it is another one. -/
structure Crypto where
  signed : Option (Sigs × Bool × Bool)
  decrypted : Option (Bool × Option (Option Str))

/-- notmuch-show.c:698-742; `outer` is the subject of the message. -/
def cryptoMap (m : Msg) (outer : Option Str) : Crypto where
  signed := m.sigs.map (fun s => (s, m.sigsEncrypted, m.subject.isSome))
  decrypted := if m.status = .none then none else some (m.status == .full, if m.subject.isSome && m.subject != outer then some outer else none)

/-- The subject that is shown, notmuch-show.c:264-268. -/
def shownSubject (m : Msg) (outer : Option Str) : Option Str :=
  match m.subject with
  | some s => some s
  | none => outer

/-- Whether the message is indexed again after it was shown, notmuch-show.c:1023-1047. -/
def indexesAgain (E : Env) (before after : List Str) : Bool := E.policy == .true && decide (before.length < after.length)

end Notmuch.ShowCrypto
