import Verif.Model.Filter
import Verif.Model.StringUtil

/-!
# Indexing the MIME parts of a message: lib/index.cc, util/crypto.c, util/repair.c

What GMime finds in a part (types, parameters, children) is a tree.  Decryption and verification are functions of the part.  What is written to
the document is a log of effects.  Simplified: adding a term or a property does not fail, and memory does not run out.
-/

namespace Notmuch.Mime

open Notmuch.StringUtil

/-- What GMime tells of any object. -/
structure Info where
  /-- the two halves of the content type -/
  type : Option (Str × Str)
  protectedHeaders : Option Str
  forwarded : Option Str
  protocol : Option Str
  /-- the header `Subject` of the part -/
  subject : Option Str
  deriving DecidableEq

/-- `GMIME_IS_MULTIPART_SIGNED`, `GMIME_IS_MULTIPART_ENCRYPTED`. -/
inductive Multi | signed | encrypted | other
  deriving DecidableEq

/-- `GMimeSecureMimeType`. -/
inductive Smime | signedData | envelopedData | other
  deriving DecidableEq

/-- The classes of GMime objects that the code tells apart. -/
inductive Part where
  | multipart (k : Multi) (i : Info) (children : List Part)
  | message (i : Info) (msgSubject : Option Str) (part : Option Part)
  | pkcs7 (i : Info) (t : Smime) (data : Str)
  | leaf (i : Info) (isText attachment : Bool) (filename : Option Str) (content : Str)
  | unknown (i : Info)

def Part.info : Part → Info
  | .multipart _ i _ => i
  | .message i _ _ => i
  | .pkcs7 i _ _ => i
  | .leaf i _ _ _ _ => i
  | .unknown i => i

/-- The index of the content within multipart/encrypted and of the signature within multipart/signed (gmime-multipart-encrypted.h,
gmime-multipart-signed.h); the other one is 0. -/
def encryptedContent : Nat := 1
def signedSignature : Nat := 1

/-- `notmuch_decryption_policy_t`. -/
inductive Policy | false | auto | nostash | true
  deriving DecidableEq

structure Env where
  /-- `g_mime_multipart_encrypted_decrypt`, `g_mime_application_pkcs7_mime_decrypt`: with a session key, or with the secret key; the
  cleartext, and the session key that may be exported. -/
  decrypt : Part → Option Str → Option (Part × Option Str)
  /-- `g_mime_application_pkcs7_mime_verify` -/
  verify : Part → Option Part
  /-- the policy of the index options, `none` without options -/
  policy : Option Policy
  /-- `_notmuch_database_indexable_as_text`, lib/database.cc:1579-1589 -/
  asText : Str → Bool
  /-- the charset filter -/
  charset : Info → Str → Str

/-- What is written to the document or asked of the user's agent. -/
inductive Eff where
  | mimetype (s : Str)
  | tag (s : Str)
  | attachment (s : Str)
  | body (s : Str)
  | subject (s : Str)
  | prop (k v : Str)
  | askKey (p : Part) (key : Str)
  | askSecret (p : Part)

/-- `_notmuch_message_decryption_status_t`, util/crypto.h:32-36. -/
inductive Decrypted | none | partially | full
  deriving DecidableEq

/-- `_notmuch_message_crypto_t`, the session keys among the properties of the message, and the log.  No signature list is made when
indexing. -/
structure St where
  log : List Eff
  keys : List Str
  payload : Bool
  status : Decrypted
  subject : Option Str

def St.put (st : St) (e : Eff) : St := { st with log := st.log ++ [e] }

/-- The properties are sorted by value, without duplicates (lib/message.cc:326-346, lib/string-map.c:60-75). -/
def insertKey (k : Str) (l : List Str) : List Str := if k ∈ l then l else l.takeWhile (· < k) ++ k :: l.dropWhile (· < k)

/-- `notmuch_message_add_property (message, "session-key", key)`. -/
def St.stash (st : St) (key : Str) : St := { st.put (.prop (bs "session-key") key) with keys := insertKey key st.keys }

/-- `_index_content_type`, lib/index.cc:352-364. -/
def indexContentType (p : Part) (st : St) : St :=
  match p.info.type with
  | none => st
  | some (a, b) => st.put (.mimetype (a ++ bs "/" ++ b))

/-- `g_mime_content_type_is_type`. -/
def isType (p : Part) (a b : Str) : Bool :=
  match p.info.type with
  | none => false
  | some (x, y) => strcaseEqual x a && strcaseEqual y b

/-- `_indexable_as_text`, lib/index.cc:383-398. -/
def indexableAsText (E : Env) (p : Part) : Bool :=
  match p.info.type with
  | none => false
  | some (a, b) => E.asText (a ++ bs "/" ++ b)

def isTextPart : Part → Bool
  | .leaf _ t _ _ _ => t
  | _ => false

/-- `g_mime_text_part_get_text (part)[0] == '\0'`.  Simplified: the content, before its charset is changed. -/
def emptyText : Part → Bool
  | .leaf _ _ _ _ c => c.takeWhile (· ≠ 0) = []
  | _ => false

/-- `_notmuch_is_mixed_up_mangled` and `_notmuch_repair_mixed_up_mangled`, util/repair.c:76-153.
The class of an object with type multipart/mixed is `GMimeMultipart`. -/
def repairMixedUp (p : Part) : Option Part :=
  match p with
  | .multipart .other _ [a, b, c] =>
    if isType p (bs "multipart") (bs "mixed") && isType a (bs "text") (bs "plain") && isTextPart a && isType b (bs "application") (bs "pgp-encrypted") &&
        isType c (bs "application") (bs "octet-stream") && emptyText a then
      some (.multipart .encrypted ⟨some (bs "multipart", bs "encrypted"), none, none, some (bs "application/pgp-encrypted"), none⟩ [b, c])
    else none
  | _ => none

/-- `_notmuch_crypto_payload_has_legacy_display`, util/repair.c:25-63: the second part if so. -/
def legacyDisplay (p : Part) : Option Part :=
  match p with
  | .multipart .other i [a, b] =>
    if isType p (bs "multipart") (bs "mixed") && i.protectedHeaders == some (bs "v1") &&
        (isType a (bs "text") (bs "plain") || isType a (bs "text") (bs "rfc822-headers")) && a.info.protectedHeaders == some (bs "v1") && isTextPart a then
      some b
    else none
  | _ => none

/-- `strcasecmp ("v1", protected_headers) == 0`. -/
def isV1 : Option Str → Bool
  | none => false
  | some s => strcaseEqual (bs "v1") s

/-- The subject that a payload protects, util/crypto.c:193-209. -/
def protectedSubject : Part → Option Str
  | .message i s _ => if i.forwarded = some (bs "no") then s else if isV1 i.protectedHeaders then i.subject else none
  | p => if isV1 p.info.protectedHeaders then p.info.subject else none

/-- `_notmuch_message_crypto_potential_payload`, util/crypto.c:147-219.  The child 0 of multipart/encrypted is never given when indexing, so that
test is not here. -/
def potentialPayload (p : Part) (st : St) : Bool × St :=
  if st.payload then (false, st)
  else if st.status ≠ .full then (false, { st with payload := true })
  else
    match protectedSubject p with
    | some s => (true, { st with payload := true, subject := some s })
    | none => (true, { st with payload := true })

/-- `_notmuch_message_crypto_successful_decryption`, util/crypto.c:222-237. -/
def successfulDecryption (st : St) : St :=
  if !st.payload then { st with status := .full }
  else if st.status = .none then { st with status := .partially }
  else st

/-- The choice of what to index that follows each call of `_notmuch_message_crypto_potential_payload`, lib/index.cc:467-475, 620-628, 663-671. -/
def payload (p : Part) (st : St) : Part × St :=
  let (b, st) := potentialPayload p st
  if b && st.status = .full then
    match legacyDisplay p with
    | some q => (q, st.put (.prop (bs "index.repaired") (bs "skip-protected-headers-legacy-display")))
    | none => (p, st)
  else (p, st)

/-- The loop over the session keys in `_notmuch_crypto_decrypt`, util/crypto.c:43-78. -/
def tryKeys (E : Env) (p : Part) : List Str → St → Option Part × St
  | [], st => (none, st)
  | k :: ks, st =>
    let st := st.put (.askKey p k)
    match E.decrypt p (some k) with
    | some (q, _) => (some q, st)
    | none => tryKeys E p ks st

/-- `_notmuch_crypto_decrypt`, util/crypto.c:32-113: whether it was attempted, the cleartext and, when the secret key was used and the result was
asked for, the session key.  The session key is exported only with the flag (GMIME_DECRYPT_EXPORT_SESSION_KEY). -/
def cryptoDecrypt (E : Env) (pol : Policy) (p : Part) (st : St) : Bool × Option (Part × Option Str) × St :=
  if pol = .false then (false, none, st)
  else
    match tryKeys E p st.keys st with
    | (some q, st) => (true, some (q, none), st)
    | (none, st') =>
      if pol = .auto then (!st.keys.isEmpty, none, st')
      else (true, (E.decrypt p none).map (fun x => (x.1, if pol = .true then x.2 else none)), st'.put (.askSecret p))

/-- What is remembered of a decryption, lib/index.cc:603-618; a result was asked for only with the policy `true`. -/
def remember (pol : Policy) (key : Option Str) (st : St) : St :=
  if pol = .true then
    match key with
    | some k => (successfulDecryption st).stash k
    | none => successfulDecryption st
  else st

/-- `_index_encrypted_mime_part`, lib/index.cc:567-635; `rec` is `_index_mime_part`. -/
def indexEncrypted (E : Env) (rec : Option Part → St → Option St) (p : Part) (st : St) : Option St :=
  match E.policy with
  | none => some st
  | some pol =>
    if pol = .false then some st
    else
      match cryptoDecrypt E pol p st with
      | (false, _, st) => some st
      | (true, none, st) => some (st.put (.prop (bs "index.decryption") (bs "failure")))
      | (true, some (clear, key), st) =>
        let (q, st) := payload clear (remember pol key st)
        (rec (some q) st).map (fun st => st.put (.prop (bs "index.decryption") (bs "success")))

/-- `_index_pkcs7_part`, lib/index.cc:637-692. -/
def indexPkcs7 (E : Env) (rec : Option Part → St → Option St) (t : Smime) (p : Part) (st : St) : Option St :=
  let st := indexContentType p st
  match t with
  | .signedData =>
    match E.verify p with
    | none => some st
    | some m =>
      let (q, st) := payload m (st.put (.tag (bs "signed")))
      rec (some q) st
  | .envelopedData => indexEncrypted E rec p (st.put (.tag (bs "encrypted")))
  | .other => some st

/-- The loop over the children, lib/index.cc:441-478. -/
def indexChildren (E : Env) (rec : Option Part → St → Option St) (k : Multi) (p : Part) : Nat → List Part → St → Option St
  | _, [], st => some st
  | i, c :: l, st =>
    if k = .signed ∧ i = signedSignature then indexChildren E rec k p (i + 1) l (indexContentType c st)
    else if k = .encrypted then
      if i = encryptedContent then (indexEncrypted E rec p (indexContentType c st)).bind (indexChildren E rec k p (i + 1) l)
      else indexChildren E rec k p (i + 1) l (indexContentType c st)
    else
      let (q, st) := payload c st
      (rec (some q) st).bind (indexChildren E rec k p (i + 1) l)

/-- The text of a part as it is indexed, lib/index.cc:517-558: what the filter of C42 leaves, its charset changed, up to the first NUL. -/
def bodyText (E : Env) (i : Info) (content : Str) : Str :=
  let isHtml := match i.type with
    | none => false
    | some (x, y) => strcaseEqual x (bs "text") && strcaseEqual y (bs "html")
  match Filter.discardAll (Filter.discardNew isHtml) 0 [content] with
  | none => []
  | some (_, s) => (E.charset i s).takeWhile (· ≠ 0)

/-- lib/index.cc:503-506. -/
def attachmentTerms (filename : Option Str) (st : St) : St :=
  match filename with
  | some f => (st.put (.tag (bs "attachment"))).put (.attachment f)
  | none => st.put (.tag (bs "attachment"))

/-- The parts that are neither multipart, nor messages, nor PKCS#7, lib/index.cc:496-558. -/
def indexLeaf (E : Env) (p : Part) (i : Info) (attachment : Bool) (filename : Option Str) (content : Str) (st : St) : St :=
  let st := if attachment then attachmentTerms filename st else st
  if attachment && !indexableAsText E p then st else st.put (.body (bodyText E i content))

/-- The part of `_index_mime_part` after the repair, lib/index.cc:430-562. -/
def indexRepaired (E : Env) (rec : Option Part → St → Option St) (p : Part) (st : St) : Option St :=
  let st := indexContentType p st
  match p with
  | .multipart k _ l =>
    let st := if k = .signed then st.put (.tag (bs "signed")) else st
    let st := if k = .encrypted then st.put (.tag (bs "encrypted")) else st
    indexChildren E rec k p 0 l st
  | .message _ _ q => rec q st
  | .pkcs7 _ t _ => indexPkcs7 E rec t p st
  | .leaf i _ att f c => some (indexLeaf E p i att f c st)
  | .unknown _ => some st

/-- `_index_mime_part`, lib/index.cc:401-562; `none` when `fuel` levels do not suffice. -/
def indexPart (E : Env) : Nat → Option Part → St → Option St
  | 0, _, _ => none
  | _ + 1, none, st => some st
  | fuel + 1, some p, st =>
    match repairMixedUp p with
    | some q => indexRepaired E (indexPart E fuel) q (st.put (.prop (bs "index.repaired") (bs "mixedup")))
    | none => indexRepaired E (indexPart E fuel) p st

/-- The parts and the protected subject in `_notmuch_message_index_file`, lib/index.cc:761-770.  `keys` are the session keys that the message has. -/
def indexFile (E : Env) (fuel : Nat) (keys : List Str) (p : Option Part) : Option St :=
  (indexPart E fuel p ⟨[], keys, false, .none, none⟩).map (fun st =>
    match st.subject with
    | some s => st.put (.subject s)
    | none => st)

/-- The session keys with which `notmuch_message_reindex` starts, lib/message.cc:2276-2280. -/
def reindexKeys (policy : Option Policy) (keys : List Str) : List Str := if policy = some .false then [] else keys

end Notmuch.Mime
