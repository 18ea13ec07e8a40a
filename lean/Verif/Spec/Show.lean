import Verif.Model.Show
import Verif.Spec.Sprinter

/-! # Specification: devel/schemata, and what the values say (C55) -/

namespace Notmuch.Show

open Notmuch.Sprinter

/-! ## Values -/

/-- A C string; NULL is the empty string. -/
def text (s : Option Str) : Val := .str (cstr s)

/-- The value of a name in a list of names and values. -/
def lookup (k : Str) : List (Str × Val) → Option Val
  | [] => none
  | (a, v) :: l => if a = k then some v else lookup k l

/-- The value of a name in an object. -/
def get (v : Val) (k : Str) : Option Val :=
  match v with
  | .obj l => lookup k l
  | _ => none

def IsStr (v : Val) : Prop := ∃ s, v = .str s
def IsInt (v : Val) : Prop := ∃ i, v = .int i
def IsBool (v : Val) : Prop := ∃ b, v = .bool b
def IsList (P : Val → Prop) (v : Val) : Prop := ∃ l, v = .list l ∧ ∀ x ∈ l, P x

/-- An object: no name is repeated, the required names are there, and every value is as it should be for its name; a name that is not listed has a value that is `other`. -/
def IsObj (required optional : List (Str × (Val → Prop))) (other : Val → Prop) (v : Val) : Prop :=
  ∃ l, v = .obj l ∧ (l.map (·.1)).Nodup ∧ (∀ f ∈ required, ∃ w, (f.1, w) ∈ l) ∧
    ∀ x ∈ l, (∃ f ∈ required ++ optional, f.1 = x.1 ∧ f.2 x.2) ∨ ((∀ f ∈ required ++ optional, f.1 ≠ x.1) ∧ other x.2)

/-- No other names. -/
def Never (_ : Val) : Prop := False

/-! ## The schema, devel/schemata (version 4 and 5) -/

/-- `sig_errors`. -/
def IsSigErrors : Val → Prop :=
  IsObj [] [(bs "key-revoked", IsBool), (bs "key-expired", IsBool), (bs "sig-expired", IsBool), (bs "key-missing", IsBool), (bs "alg-unsupported", IsBool), (bs "crl-missing", IsBool),
    (bs "crl-too-old", IsBool), (bs "bad-policy", IsBool), (bs "sys-error", IsBool), (bs "tofu-conflict", IsBool)] Never

/-- `signature`. -/
def IsSignature : Val → Prop :=
  IsObj [(bs "status", fun v => v = .str (bs "good") ∨ v = .str (bs "bad") ∨ v = .str (bs "error") ∨ v = .str (bs "unknown"))]
    [(bs "fingerprint", IsStr), (bs "created", IsInt), (bs "expires", IsInt), (bs "userid", IsStr), (bs "email", IsStr), (bs "keyid", IsStr), (bs "errors", IsSigErrors)] Never

/-- `sigstatus`. -/
def IsSigStatus : Val → Prop := IsList IsSignature

/-- `encstatus`. -/
def IsEncStatus (v : Val) : Prop := ∃ s, v = .list [.obj [(bs "status", .str s)]] ∧ (s = bs "good" ∨ s = bs "bad")

/-- `headers`, with `extra_header_pair*`. -/
def IsHeaders : Val → Prop :=
  IsObj [(bs "Subject", IsStr), (bs "From", IsStr), (bs "Date", IsStr)] [(bs "To", IsStr), (bs "Cc", IsStr), (bs "Bcc", IsStr), (bs "Reply-To", IsStr)] IsStr

/-- `crypto`; `encrypted`, `headers` and `header-mask` are not marked optional in devel/schemata, but are left out (C55_crypto_optional). -/
def IsCrypto : Val → Prop :=
  IsObj [] [(bs "signed", IsObj [(bs "status", IsSigStatus)] [(bs "encrypted", IsBool), (bs "headers", IsList IsStr)] Never),
    (bs "decrypted", IsObj [(bs "status", fun v => v = .str (bs "full") ∨ v = .str (bs "partial"))] [(bs "header-mask", IsObj [] [] (fun v => IsStr v ∨ v = .null))] Never)] Never

/-- The names every part may have. -/
def partRequired : List (Str × (Val → Prop)) := [(bs "id", IsInt), (bs "content-type", IsStr)]
def partOptional : List (Str × (Val → Prop)) :=
  [(bs "encstatus", IsEncStatus), (bs "sigstatus", IsSigStatus), (bs "content-disposition", IsStr), (bs "content-id", IsStr), (bs "filename", IsStr)]

/-- `part`. -/
inductive IsPart : Val → Prop
  /-- A leaf. -/
  | leaf {v : Val} : IsObj partRequired (partOptional ++ [(bs "content", IsStr), (bs "content-charset", IsStr), (bs "content-length", IsInt), (bs "content-transfer-encoding", IsStr)]) Never v → IsPart v
  /-- A part with parts. -/
  | parts {v : Val} {l : List Val} : IsObj (partRequired ++ [(bs "content", fun w => w = .list l)]) partOptional Never v → (∀ x ∈ l, IsPart x) → IsPart v
  /-- A message in a message. -/
  | message {v h : Val} {l : List Val} : IsObj (partRequired ++ [(bs "content", fun w => w = .list [.obj [(bs "headers", h), (bs "body", .list l)]])]) partOptional Never v → IsHeaders h →
      (∀ x ∈ l, IsPart x) → IsPart v

/-- `message`. -/
def IsMessage : Val → Prop :=
  IsObj [(bs "id", IsStr), (bs "match", IsBool), (bs "excluded", IsBool), (bs "filename", IsList IsStr), (bs "timestamp", IsInt), (bs "date_relative", IsStr), (bs "tags", IsList IsStr),
    (bs "headers", IsHeaders), (bs "crypto", IsCrypto), (bs "duplicate", IsInt)] [(bs "body", IsList IsPart)] Never

/-- `thread_node`. -/
inductive IsThreadNode : Val → Prop
  | node {v : Val} {l : List Val} : (IsMessage v ∨ v = .null) → (∀ x ∈ l, IsThreadNode x) → IsThreadNode (.list [v, .list l])

/-- `thread_set`. -/
def IsThreadSet : Val → Prop := IsList (IsList IsThreadNode)

/-- `reply_headers` and the reply schema. -/
def IsReply : Val → Prop :=
  IsObj [(bs "reply-headers", IsObj [(bs "Subject", IsStr), (bs "From", IsStr), (bs "In-reply-to", IsStr), (bs "References", IsStr)]
      [(bs "To", IsStr), (bs "Cc", IsStr), (bs "Bcc", IsStr), (bs "Reply-To", IsStr)] Never), (bs "original", IsMessage)] [] Never

/-! ## What the values say -/

/-- The headers. -/
structure HeadersSay (h : Headers) (subject : Option Str) (v : Val) : Prop where
  subject : get v (bs "Subject") = some (text (subject.or h.subject))
  sender : get v (bs "From") = some (text h.sender)
  date : get v (bs "Date") = some (text (some h.date))
  to : get v (bs "To") = h.to.map (fun s => text (some s))
  cc : get v (bs "Cc") = h.cc.map (fun s => text (some s))
  bcc : get v (bs "Bcc") = h.bcc.map (fun s => text (some s))
  replyTo : get v (bs "Reply-To") = h.replyTo.map (fun s => text (some s))

/-- The names of the errors of a signature, by their bits in GMime (gmime-signature.h). -/
def errorNames : List (Nat × Str) :=
  [(4, bs "key-revoked"), (5, bs "key-expired"), (6, bs "sig-expired"), (7, bs "key-missing"), (8, bs "crl-missing"), (9, bs "crl-too-old"), (10, bs "bad-policy"), (11, bs "sys-error"),
    (12, bs "tofu-conflict")]

/-- A signature: it is bad when the bit 4 is set, otherwise an error when there is any bit from 8 on, otherwise good.  Who signed it is said only of a good signature whose identity is
valid; of others there is only the end of the fingerprint. -/
structure SigSays (s : Sig) (v : Val) : Prop where
  status : get v (bs "status") = some (.str (if s.status / 4 % 2 = 1 then bs "bad" else if 8 ≤ s.status then bs "error" else bs "good"))
  fingerprint : get v (bs "fingerprint") = if s.status < 4 then s.cert.map (fun c => text c.fingerprint) else none
  created : get v (bs "created") = if s.status < 4 ∧ s.created ≠ -1 then some (.int s.created) else none
  expires : get v (bs "expires") = if s.status < 4 ∧ 0 < s.expires then some (.int s.expires) else none
  userid : ∀ u, get v (bs "userid") = some u ↔ s.status < 4 ∧ ∃ c i, s.cert = some c ∧ c.valid = true ∧ c.userid = some i ∧ u = text (some i)
  email : ∀ u, get v (bs "email") = some u ↔ s.status < 4 ∧ ∃ c i, s.cert = some c ∧ c.valid = true ∧ c.email = some i ∧ u = text (some i)
  keyid : ∀ u, get v (bs "keyid") = some u ↔ ¬s.status < 4 ∧ ∃ c f, s.cert = some c ∧ c.fingerprint = some f ∧ u = text (some (f.drop (f.length - 16)))
  noErrors : s.status < 8 → get v (bs "errors") = none
  errors : 8 ≤ s.status → ∃ w, get v (bs "errors") = some w ∧ ∀ b ∈ errorNames, get w b.2 = if s.status / 2 ^ b.1 % 2 = 1 then some (.bool true) else none

/-- Signatures, one after the other. -/
inductive SigsSay : List Sig → List Val → Prop
  | nil : SigsSay [] []
  | cons {s : Sig} {v : Val} {l : List Sig} {vs : List Val} : SigSays s v → SigsSay l vs → SigsSay (s :: l) (v :: vs)

/-- What is said of signatures and of decryption of the whole message. -/
structure CryptoSays (h : Headers) (c : Crypto) (v : Val) : Prop where
  noSigs : c.sigs = none → get v (bs "signed") = none
  sigs : ∀ l, c.sigs = some l → ∃ w vs, get v (bs "signed") = some w ∧ get w (bs "status") = some (.list vs) ∧ SigsSay l vs ∧
    get w (bs "encrypted") = (if c.encrypted then some (.bool true) else none) ∧ get w (bs "headers") = (if c.subject.isSome then some (.list [.str (bs "Subject")]) else none)
  notDecrypted : c.status = .none → get v (bs "decrypted") = none
  decrypted : c.status ≠ .none → ∃ w, get v (bs "decrypted") = some w ∧ get w (bs "status") = some (.str (if c.status = .full then bs "full" else bs "partial")) ∧
    get w (bs "header-mask") = (if c.subject = none ∨ h.subject = c.subject then none else some (.obj [(bs "Subject", if h.subject = none then .null else text h.subject)]))

/-- Number, type and file name of a part. -/
structure InfoSays (i : Info) (n : Nat) (filename : Option Str) (v : Val) : Prop where
  id : get v (bs "id") = some (.int n)
  type : get v (bs "content-type") = some (text (some i.mimeType))
  disposition : get v (bs "content-disposition") = i.disposition.map (fun s => text (some s))
  cid : get v (bs "content-id") = i.cid.map (fun s => text (some s))
  filename : get v (bs "filename") = filename.map (fun s => text (some s))
  decrypt : get v (bs "encstatus") = i.decrypt.map (fun ok => .list [.obj [(bs "status", .str (if ok then bs "good" else bs "bad"))]])
  noVerify : i.verify = none → get v (bs "sigstatus") = none
  verify : ∀ l, i.verify = some l → ∃ vs, get v (bs "sigstatus") = some (.list vs) ∧ SigsSay (l.getD []) vs

mutual
/-- A part with number `n`: text is included, HTML only if asked for; otherwise its length may be given. -/
inductive PartSays (html : Bool) : Node → Nat → Val → Prop
  | text {i : Info} {filename charset cte : Option Str} {t : Str} {length : Int} {n : Nat} {v : Val} : InfoSays i n filename v → (i.isText = true ∧ (html = true ∨ i.isHtml = false)) →
      get v (bs "content") = some (.str t) → PartSays html (.part i filename t charset cte length []) n v
  | omitted {i : Info} {filename charset cte : Option Str} {t : Str} {length : Int} {n : Nat} {v : Val} : InfoSays i n filename v → ¬(i.isText = true ∧ (html = true ∨ i.isHtml = false)) →
      get v (bs "content") = none → get v (bs "content-length") = (if 0 ≤ length then some (.int length) else none) →
      get v (bs "content-charset") = charset.map (fun s => Show.text (some s)) → PartSays html (.part i filename t charset cte length []) n v
  | wrapped {i : Info} {filename charset cte : Option Str} {t : Str} {length : Int} {n : Nat} {k : Node} {kids : List Node} {v : Val} {l : List Val} : InfoSays i n filename v →
      get v (bs "content") = some (.list l) → PartsSay html (k :: kids) (n + 1) l → PartSays html (.part i filename t charset cte length (k :: kids)) n v
  | multipart {i : Info} {n : Nat} {kids : List Node} {v : Val} {l : List Val} : InfoSays i n none v →
      get v (bs "content") = some (.list l) → PartsSay html kids (n + 1) l → PartSays html (.multipart i kids) n v
  | message {i : Info} {h : Headers} {n : Nat} {kids : List Node} {v w : Val} {l : List Val} : InfoSays i n none v →
      get v (bs "content") = some (.list [.obj [(bs "headers", w), (bs "body", .list l)]]) → HeadersSay h none w → PartsSay html kids (n + 1) l → PartSays html (.message i h kids) n v

/-- Parts, one after the other. -/
inductive PartsSay (html : Bool) : List Node → Nat → List Val → Prop
  | nil {n : Nat} : PartsSay html [] n []
  | cons {t : Node} {kids : List Node} {n : Nat} {v : Val} {l : List Val} : PartSays html t n v → PartsSay html kids (n + t.nodes.length) l → PartsSay html (t :: kids) n (v :: l)
end

/-- A message: what is said of it, and that what is shown is from `r`. -/
structure MessageSays (o : Opts) (m : Msg) (r : Root) (v : Val) : Prop where
  id : get v (bs "id") = some (text (some m.id))
  isMatch : get v (bs "match") = some (.bool m.isMatch)
  excluded : get v (bs "excluded") = some (.bool m.excluded)
  files : get v (bs "filename") = some (.list (m.files.map (fun f => text (some f.name))))
  timestamp : get v (bs "timestamp") = some (.int m.timestamp)
  relative : get v (bs "date_relative") = some (text (some m.relative))
  tags : get v (bs "tags") = some (.list (m.tags.map (fun t => text (some t))))
  duplicate : get v (bs "duplicate") = some (.int (if 0 < o.duplicate then o.duplicate else 1))
  crypto : ∃ w, get v (bs "crypto") = some w ∧ CryptoSays r.headers r.crypto w
  headers : ∃ w, get v (bs "headers") = some w ∧ HeadersSay r.headers r.crypto.subject w
  body : o.body = true → ∃ w, get v (bs "body") = some (.list [w]) ∧ PartSays o.html r.body 1 w
  noBody : o.body = false → get v (bs "body") = none

/-! ## What has to be so -/

/-- The names of the extra headers that are found, as they are written in the message, are not repeated and are no names of other headers.  (C55_extra_twice) -/
def NamesOk (extra : List Str) (h : Headers) : Prop :=
  ((extra.filterMap h.find).map (fun x => cstr (some x.1))).Nodup ∧
  ∀ x ∈ extra.filterMap h.find, cstr (some x.1) ∉ [bs "Subject", bs "From", bs "To", bs "Cc", bs "Bcc", bs "Reply-To", bs "Date"]

/-- The printer for S-expressions takes only certain names. -/
def LispNames (extra : List Str) (h : Headers) : Prop := ∀ x ∈ extra.filterMap h.find, ∀ c ∈ cstr (some x.1), isAlnum c = true ∨ c = 45 ∨ c = 95

mutual
/-- The headers of all messages in a part; and a part of text has no parts: only S/MIME parts are unwrapped, mime-node.c:352-372. -/
def Node.Good (P : Headers → Prop) : Node → Prop
  | .part i _ _ _ _ _ kids => (i.isText = true → kids = []) ∧ Node.GoodAll P kids
  | .multipart _ kids => Node.GoodAll P kids
  | .message _ h kids => P h ∧ Node.GoodAll P kids

def Node.GoodAll (P : Headers → Prop) : List Node → Prop
  | [] => True
  | t :: l => t.Good P ∧ Node.GoodAll P l
end

def Root.Good (P : Headers → Prop) (r : Root) : Prop := P r.headers ∧ r.body.Good P

mutual
/-- The messages of a tree. -/
def Tree.msgs : Tree → List Msg
  | .node m l => m :: Tree.msgsList l

def Tree.msgsList : List Tree → List Msg
  | [] => []
  | t :: l => t.msgs ++ Tree.msgsList l
end

/-- The file that is shown: the first one that can be opened, or the one that is asked for. -/
inductive Chosen : Int → List File → File → Prop
  | first {d : Int} {f : File} {before after : List File} : d ≤ 0 → (∀ g ∈ before, g.bytes = none) → f.bytes ≠ none → Chosen d (before ++ f :: after) f
  | this {d : Int} {f : File} {before after : List File} : d = before.length + 1 → f.bytes ≠ none → Chosen d (before ++ f :: after) f

/-- A message can be shown. -/
def Readable (P : Headers → Prop) (d : Int) (m : Msg) : Prop := ∃ f r, Chosen d m.files f ∧ f.root = some r ∧ r.Good P

mutual
/-- The value of a tree: messages, or null for those that are not shown, each with the list of its replies. -/
def treeVal (p : Params) (msg : Msg → Val) : Tree → Val
  | .node m l => .list [if shown p m then msg m else .null, .list (treeVals p msg l)]

def treeVals (p : Params) (msg : Msg → Val) : List Tree → List Val
  | [] => []
  | t :: l => treeVal p msg t :: treeVals p msg l
end

/-- A message with the number of messages that are shown above it. -/
def depths (p : Params) : Nat → List Tree → List (Msg × Nat)
  | _, [] => []
  | d, .node m l :: r => (if shown p m then [(m, d)] else []) ++ depths p (if shown p m then d + 1 else d) l ++ depths p d r

/-- A value occurs in another one. -/
inductive Inside : Val → Val → Prop
  | self {v : Val} : Inside v v
  | element {l : List Val} {x v : Val} : x ∈ l → Inside x v → Inside (.list l) v
  | member {l : List (Str × Val)} {k : Str} {x v : Val} : (k, x) ∈ l → Inside x v → Inside (.obj l) v

/-- A message of which a file can be read. -/
def CanOpen (d : Int) (m : Msg) : Prop := ∃ f r, Chosen d m.files f ∧ f.root = some r

/-- From the offset on (from the end, if it is negative), no more than the limit, if there is one. -/
def Window {α : Type} (offset limit : Int) (l : List α) : List α :=
  let from_ := if offset < 0 then l.drop (l.length - offset.natAbs) else l.drop offset.toNat
  if limit < 0 then from_ else from_.take limit.toNat

/-- What the text format has for a part: the text of a text part, which is not HTML unless that is asked for, and else its type. -/
def ShownText (html : Bool) (i : Info) (text content : Str) : Prop :=
  (i.type.map toLower = bs "text" ∧ (html = true ∨ i.subtype.map toLower ≠ bs "html") → content = text) ∧
  (¬(i.type.map toLower = bs "text" ∧ (html = true ∨ i.subtype.map toLower ≠ bs "html")) → content = bs "Non-text part: " ++ (i.type ++ bs "/" ++ i.subtype) ++ bs "\n")

end Notmuch.Show
