import Verif.Model.Mime

/-! # Specification: which parts of a message are indexed (C43) -/

namespace Notmuch.Mime

/-- The content type is `a/b`, in any case. -/
def HasType (p : Part) (a b : Str) : Prop := ∃ x y, p.info.type = some (x, y) ∧ x.map toLower = a.map toLower ∧ y.map toLower = b.map toLower

/-- `multipart/encrypted` that a mail server made `multipart/mixed`, with an empty text before. -/
def MixedUp (p b c : Part) : Prop := ∃ i j att f t, p = .multipart .other i [.leaf j true att f t, b, c] ∧ HasType p (bs "multipart") (bs "mixed") ∧
  HasType (.leaf j true att f t) (bs "text") (bs "plain") ∧ HasType b (bs "application") (bs "pgp-encrypted") ∧
  HasType c (bs "application") (bs "octet-stream") ∧ t.takeWhile (· ≠ 0) = []

/-- `multipart/mixed` with protected headers, whose first part `a` only shows them, for mail programs that do not know them. -/
def Legacy (p a b : Part) : Prop := ∃ i, p = .multipart .other i [a, b] ∧ HasType p (bs "multipart") (bs "mixed") ∧ i.protectedHeaders = some (bs "v1") ∧
  (HasType a (bs "text") (bs "plain") ∨ HasType a (bs "text") (bs "rfc822-headers")) ∧ a.info.protectedHeaders = some (bs "v1") ∧ isTextPart a = true

/-- What is indexed in place of a part: itself, or the encrypted part that it was. -/
def As (p f : Part) : Prop := (f = p ∧ ¬ ∃ b c, MixedUp p b c) ∨
  ∃ b c, MixedUp p b c ∧ f = .multipart .encrypted ⟨some (bs "multipart", bs "encrypted"), none, none, some (bs "application/pgp-encrypted"), none⟩ [b, c]

/-- What is known of encrypted parts: the cleartext that is indexed, the parts with which decryption was tried without success, and whether
displays of protected headers may be left out. -/
structure View where
  clear : Part → Part → Prop
  fails : Part → Prop
  skips : Prop

/-- An encrypted part with content. -/
def Encrypted (f : Part) : Prop := (∃ i l, f = .multipart .encrypted i l ∧ 2 ≤ l.length) ∨ ∃ i d, f = .pkcs7 i .envelopedData d

/-- The parts within a part that are indexed: all children, but not the signature; the message in a message; the content of signed data
if the signature can be read; the cleartext. -/
inductive Within (E : Env) (V : View) (f : Part) : Part → Prop
  | child {i l q} : f = .multipart .other i l → q ∈ l → Within E V f q
  | signed {i l n q} : f = .multipart .signed i l → n ≠ 1 → l[n]? = some q → Within E V f q
  | message {i s q} : f = .message i s (some q) → Within E V f q
  | verified {i d q} : f = .pkcs7 i .signedData d → E.verify f = some q → Within E V f q
  | clear {q} : Encrypted f → V.clear f q → Within E V f q

/-- A part somewhere in a part. -/
inductive Inside (E : Env) (V : View) : Part → Part → Prop
  | refl {p} : Inside E V p p
  | step {p f q r} : As p f → Within E V f q → Inside E V q r → Inside E V p r

/-- A part somewhere in a part, and not in a display of protected headers if those may be left out. -/
inductive Shown (E : Env) (V : View) : Part → Part → Prop
  | refl {p} : Shown E V p p
  | step {p f q r} : As p f → Within E V f q → (V.skips → ¬ ∃ b, Legacy f q b) → Shown E V q r → Shown E V p r

/-- What indexing one part writes to the document; `f` is indexed in place of `p`. -/
inductive Emits (E : Env) (V : View) (p f : Part) : Eff → Prop
  | type {a b} : f.info.type = some (a, b) → Emits E V p f (.mimetype (a ++ bs "/" ++ b))
  | signature {i l c a b} : f = .multipart .signed i l → l[1]? = some c → c.info.type = some (a, b) → Emits E V p f (.mimetype (a ++ bs "/" ++ b))
  | ciphertext {i l c a b} : f = .multipart .encrypted i l → c ∈ l → c.info.type = some (a, b) → Emits E V p f (.mimetype (a ++ bs "/" ++ b))
  | signed {i l} : f = .multipart .signed i l → Emits E V p f (.tag (bs "signed"))
  | verified {i d q} : f = .pkcs7 i .signedData d → E.verify f = some q → Emits E V p f (.tag (bs "signed"))
  | encrypted {i l} : f = .multipart .encrypted i l → Emits E V p f (.tag (bs "encrypted"))
  | enveloped {i d} : f = .pkcs7 i .envelopedData d → Emits E V p f (.tag (bs "encrypted"))
  | attachment {i t n c} : f = .leaf i t true n c → Emits E V p f (.tag (bs "attachment"))
  | filename {i t n c} : f = .leaf i t true (some n) c → Emits E V p f (.attachment n)
  | body {i t att n c} : f = .leaf i t att n c → (att = true → ∃ a b, i.type = some (a, b) ∧ E.asText (a ++ bs "/" ++ b) = true) →
      Emits E V p f (.body (bodyText E i c))
  | mixedUp {b c} : MixedUp p b c → Emits E V p f (.prop (bs "index.repaired") (bs "mixedup"))
  | skipped {a b} : V.skips → Legacy p a b → Emits E V p f (.prop (bs "index.repaired") (bs "skip-protected-headers-legacy-display"))
  | success {q} : Encrypted f → V.clear f q → Emits E V p f (.prop (bs "index.decryption") (bs "success"))
  | failure : Encrypted f → V.fails f → Emits E V p f (.prop (bs "index.decryption") (bs "failure"))

/-! ## What the policies let see -/

/-- `q` is the cleartext that the first of the session keys that fits gives. -/
def Unlocks (E : Env) (keys : List Str) (p q : Part) : Prop :=
  ∃ l k r sk, keys = l ++ k :: r ∧ (∀ k' ∈ l, E.decrypt p (some k') = none) ∧ E.decrypt p (some k) = some (q, sk)

/-- No session key fits. -/
def Locked (E : Env) (keys : List Str) (p : Part) : Prop := ∀ k ∈ keys, E.decrypt p (some k) = none

/-- The view without index options and with the policies other than `true`: `false` sees nothing, `auto` what the stashed session keys open, and
`nostash` also what the secret keys open. -/
def view (E : Env) (keys : List Str) : View where
  clear p q := (E.policy = some .auto ∧ Unlocks E keys p q) ∨
    (E.policy = some .nostash ∧ (Unlocks E keys p q ∨ (Locked E keys p ∧ ∃ sk, E.decrypt p none = some (q, sk))))
  fails p := (E.policy = some .auto ∧ keys ≠ [] ∧ Locked E keys p) ∨ (E.policy = some .nostash ∧ Locked E keys p ∧ E.decrypt p none = none)
  skips := False

/-- Whatever any key opens. -/
def anyView (E : Env) : View := ⟨fun p q => ∃ k sk, E.decrypt p k = some (q, sk), fun p => E.decrypt p none = none, True⟩

/-- What the secret key opens; a failure is sure when no key at all fits. -/
def secretView (E : Env) : View := ⟨fun p q => ∃ sk, E.decrypt p none = some (q, sk), fun p => ∀ k, E.decrypt p k = none, True⟩

/-- A part has one cleartext. -/
def OneClear (E : Env) : Prop := ∀ p k k' q q' sk sk', E.decrypt p k = some (q, sk) → E.decrypt p k' = some (q', sk') → q = q'

/-- The content of a message, or of a message that is its whole content, is encrypted, with the cleartext `q`. -/
inductive Covered (E : Env) : Part → Part → Prop
  | encrypted {p f q k sk} : As p f → Encrypted f → E.decrypt f k = some (q, sk) → Covered E p q
  | message {p i s r q} : As p (.message i s (some r)) → Covered E r q → Covered E p q

/-- The subject that a part has for the whole message: that of a message that is not forwarded, or of protected headers. -/
def Protects (p : Part) (s : Str) : Prop := (∃ i q, p = .message i (some s) q ∧ i.forwarded = some (bs "no")) ∨
  ((∀ i t q, p = .message i t q → i.forwarded ≠ some (bs "no")) ∧ (∃ v, p.info.protectedHeaders = some v ∧ v.map toLower = bs "v1") ∧ p.info.subject = some s)

/-- Effects on the document other than session keys. -/
def Doc : Eff → Prop
  | .askKey _ _ => False
  | .askSecret _ => False
  | .prop k _ => k ≠ bs "session-key"
  | _ => True

end Notmuch.Mime
