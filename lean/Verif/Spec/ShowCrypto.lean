import Verif.Model.ShowCrypto
import Verif.Spec.Mime

/-! # Specification: signatures and encryption in `notmuch show` (C69) -/

namespace Notmuch.ShowCrypto
open Notmuch.Mime (Part Policy Smime As Legacy insertKey)

/-! ## What can be read -/

/-- `q`, with the signatures `s`, is what the first of the session keys that fits gives. -/
def Unlocks (E : Env) (keys : List Str) (p q : Part) (s : Option Sigs) : Prop :=
  ∃ l k r sk, keys = l ++ k :: r ∧ (∀ k' ∈ l, E.decrypt p (some k') = none) ∧ E.decrypt p (some k) = some (q, s, sk)

/-- No session key fits. -/
def Locked (E : Env) (keys : List Str) (p : Part) : Prop := ∀ k ∈ keys, E.decrypt p (some k) = none

/-- What the policy lets see of an encrypted part when the message has the session keys `keys`, and those that it has then: `auto` what they open, `nostash` and `true` also what
the secret keys open; `true` keeps the session key. -/
inductive Opens (E : Env) (keys : List Str) (p q : Part) (s : Option Sigs) : List Str → Prop
  | session : E.policy ≠ .false → Unlocks E keys p q s → Opens E keys p q s keys
  | secret {sk} : E.policy = .nostash → Locked E keys p → E.decrypt p none = some (q, s, sk) → Opens E keys p q s keys
  | none : E.policy = .true → Locked E keys p → E.decrypt p none = some (q, s, none) → Opens E keys p q s keys
  | stash {k} : E.policy = .true → Locked E keys p → E.decrypt p none = some (q, s, some k) → Opens E keys p q s (insertKey k keys)

/-- The policy is not `false`, and nothing opens the part. -/
def Closed (E : Env) (keys : List Str) (p : Part) : Prop := E.policy ≠ .false ∧ Locked E keys p ∧ (E.policy = .auto ∨ E.decrypt p none = none)

/-! ## The layers around the content of a message -/

/-- A part without parts. -/
def Single (p : Part) : Prop := ∃ i t a f c, p = .leaf i t a f c

/-- The first part of multipart/encrypted as it should be. -/
def Version (protocol : Option Str) (v : Part) : Prop := Single v ∧ ∃ a b, v.info.type = some (a, b) ∧ protocol = some (a ++ bs "/" ++ b)

/-- What is around the content: multipart/signed with the signature and what is known of it; PKCS#7 signed data; multipart/encrypted with its first part, and PKCS#7 enveloped
data, with the signatures in it if it can be decrypted. `tried` is whether any key was tried. -/
inductive Layer where
  | signed (part signature : Part) (sigs : Option Sigs)
  | signedData (part : Part) (sigs : Option Sigs)
  | encrypted (part version : Part) (clear : Option (Option Sigs)) (tried : Bool)
  | enveloped (part : Part) (clear : Option (Option Sigs)) (tried : Bool)

/-- It was decrypted. -/
def Layer.opened : Layer → Bool
  | .encrypted _ _ c _ => c.isSome
  | .enveloped _ c _ => c.isSome
  | _ => false

/-- The signatures that were looked at, if any were: what is signed, and what is encrypted and signed. -/
def Layer.looked : Layer → Option (Option Sigs)
  | .signed _ _ s => some s
  | .signedData _ s => some s
  | .encrypted _ _ (some (some s)) _ => some (some s)
  | .enveloped _ (some (some s)) _ => some (some s)
  | _ => none

/-- How a decryption is shown. -/
def decryptMarks (clear : Option (Option Sigs)) (tried : Bool) : Marks :=
  match clear with
  | some s => ⟨true, true, s.isSome, s⟩
  | none => ⟨tried, false, false, none⟩

/-- How a layer is shown around what is in it. -/
def Layer.around : Layer → List Node → Node
  | .signed p c s, l => .node p ⟨false, false, true, s⟩ (l ++ [.node c noMarks []])
  | .signedData p s, l => .node p ⟨false, false, true, s⟩ l
  | .encrypted p v c t, l => .node p (decryptMarks c t) (.node v noMarks [] :: l)
  | .enveloped p c t, l => .node p (decryptMarks c t) l

/-- All layers around a content. -/
def wrap : List Layer → List Node → List Node
  | [], l => l
  | x :: ls, l => [x.around (wrap ls l)]

/-- It is a cryptographic layer for the options. -/
def IsLayer (E : Env) (p : Part) : Prop :=
  (∃ i l, p = .multipart .signed i l ∧ E.verifies = true) ∨ (∃ i l, p = .multipart .encrypted i l ∧ E.policy ≠ .false) ∨
  (∃ i d, p = .pkcs7 i .signedData d) ∨ (∃ i d, p = .pkcs7 i .envelopedData d ∧ E.policy ≠ .false)

/-- The layers of a part from outside to inside, each with two parts as it should have, and the content: the first part that is none, if there is one. -/
inductive Layers (E : Env) : List Str → Part → List Layer → Option Part → Prop
  | content {keys p f} : As p f → ¬ IsLayer E f → Layers E keys p [] (some f)
  | signed {keys p i c s ls pl} : As p (.multipart .signed i [c, s]) → E.verifies = true → Single s → Layers E keys c ls pl →
      Layers E keys p (.signed (.multipart .signed i [c, s]) s (E.verify (.multipart .signed i [c, s])).1 :: ls) pl
  | signedData {keys i d sigs q ls pl} : E.verify (.pkcs7 i .signedData d) = (sigs, some q) → Layers E keys q ls pl →
      Layers E keys (.pkcs7 i .signedData d) (.signedData (.pkcs7 i .signedData d) sigs :: ls) pl
  | unsigned {keys i d sigs} : E.verify (.pkcs7 i .signedData d) = (sigs, none) → Layers E keys (.pkcs7 i .signedData d) [.signedData (.pkcs7 i .signedData d) sigs] none
  | encrypted {keys p i v c q sigs keys' ls pl} : As p (.multipart .encrypted i [v, c]) → Version i.protocol v → Opens E keys (.multipart .encrypted i [v, c]) q sigs keys' →
      Layers E keys' q ls pl → Layers E keys p (.encrypted (.multipart .encrypted i [v, c]) v (some sigs) true :: ls) pl
  | closed {keys p i v c ls pl} : As p (.multipart .encrypted i [v, c]) → Version i.protocol v → Closed E keys (.multipart .encrypted i [v, c]) → Layers E keys c ls pl →
      Layers E keys p (.encrypted (.multipart .encrypted i [v, c]) v none (!keys.isEmpty || E.policy != .auto) :: ls) pl
  | enveloped {keys i d q sigs keys' ls pl} : Opens E keys (.pkcs7 i .envelopedData d) q sigs keys' → Layers E keys' q ls pl →
      Layers E keys (.pkcs7 i .envelopedData d) (.enveloped (.pkcs7 i .envelopedData d) (some sigs) true :: ls) pl
  | sealed {keys i d} : Closed E keys (.pkcs7 i .envelopedData d) →
      Layers E keys (.pkcs7 i .envelopedData d) [.enveloped (.pkcs7 i .envelopedData d) none (!keys.isEmpty || E.policy != .auto)] none

/-- The signatures for the message: those of the innermost layer of which any were looked at. -/
def signatures (ls : List Layer) : Option Sigs := ((ls.filterMap Layer.looked).getLast?).join

/-- They are within an encrypted layer, or in its encryption. -/
def SignedInside (ls : List Layer) : Prop := ∃ a x b, ls = a ++ x :: b ∧ x.looked ≠ none ∧ (∀ y ∈ b, y.looked = none) ∧ ∃ y ∈ a ++ [x], y.opened = true

/-! ## Nodes -/

def Node.part : Node → Part
  | .node p _ _ => p

def Node.marks : Node → Marks
  | .node _ m _ => m

def Node.children : Node → List Node
  | .node _ _ l => l

/-- A node in what is shown. -/
inductive Within : Node → Node → Prop
  | refl {n} : Within n n
  | child {n c m} : c ∈ n.children → Within c m → Within n m

/-- What is shown for a part: itself, what it was before a mail server changed it, or the part next to a display of protected headers. -/
inductive Shows : Part → Part → Prop
  | plain {p r} : As p r → Shows p r
  | skipped {p f a b r} : As p f → Legacy f a b → As b r → Shows p r

/-- Each is shown, in their order. -/
inductive ShowsAll : List Part → List Node → Prop
  | nil : ShowsAll [] []
  | cons {p n ps ns} : Shows p n.part → ShowsAll ps ns → ShowsAll (p :: ps) (n :: ns)

/-- The parts of a part. -/
def partsOf : Part → List Part
  | .multipart _ _ l => l
  | .message _ _ (some q) => [q]
  | _ => []

/-- The parts with the cleartext in its place. -/
def partsWith (q : Part) : Part → List Part
  | .multipart _ _ l => l.set 1 q
  | _ => [q]

/-- What a node tells is true: it shows its parts, or the cleartext in place of what is encrypted; `keys` are the session keys before, `keys'` those after. -/
inductive Honest (E : Env) (keys keys' : List Str) : Node → Prop
  | plain {p l} : ShowsAll (partsOf p) l → Honest E keys keys' (.node p noMarks l)
  | verified {p l} : (E.verifies = true ∨ ∃ i d, p = .pkcs7 i .signedData d) → ((∃ i k, p = .multipart .signed i k) ∨ (E.verify p).2 = none) → ShowsAll (partsOf p) l →
      Honest E keys keys' (.node p ⟨false, false, true, (E.verify p).1⟩ l)
  | unwrapped {i d q l} : (E.verify (.pkcs7 i .signedData d)).2 = some q → ShowsAll [q] l →
      Honest E keys keys' (.node (.pkcs7 i .signedData d) ⟨false, false, true, (E.verify (.pkcs7 i .signedData d)).1⟩ l)
  | session {p k q s sk l} : E.policy ≠ .false → k ∈ keys' → E.decrypt p (some k) = some (q, s, sk) → ShowsAll (partsWith q p) l →
      Honest E keys keys' (.node p ⟨true, true, s.isSome, s⟩ l)
  | secret {p q s sk l} : E.policy = .nostash ∨ E.policy = .true → Locked E keys p → E.decrypt p none = some (q, s, sk) → ShowsAll (partsWith q p) l →
      Honest E keys keys' (.node p ⟨true, true, s.isSome, s⟩ l)
  | failed {p t l} : Closed E keys p → (t = false → keys = [] ∧ E.policy = .auto) → (t = true → E.policy = .auto → keys' ≠ []) → ShowsAll (partsOf p) l → Honest E keys keys' (.node p ⟨t, false, false, none⟩ l)

end Notmuch.ShowCrypto
