import Verif.Model.Sprinter

/-!
# notmuch show: notmuch-show.c

What GMime finds in a file (headers, parts, signatures) is data here; how parts are decrypted is in Model/Mime.lean, how they are numbered in Model/MimeNode.lean, the text
filters are in Model/Filter.lean and the contents of mbox output in Model/Mbox.lean.
-/

namespace Notmuch.Show

open Notmuch.Sprinter

/-! ## Signatures -/

/-- A certificate; `valid`: the validity of its identity is FULL or ULTIMATE. -/
structure Cert where
  fingerprint : Option Str
  userid : Option Str
  email : Option Str
  valid : Bool

/-- A signature; its status is a set of bits: 1 VALID, 2 GREEN, 4 RED, and from 8 on errors. -/
structure Sig where
  status : Nat
  cert : Option Cert
  created : Int
  expires : Int

/-- `g_mime_signature_status_bad`, util/gmime-extra.c:197-201. -/
def Sig.bad (s : Sig) : Bool := s.status.testBit 2

/-- `g_mime_signature_status_error`, util/gmime-extra.c:203-207. -/
def Sig.error (s : Sig) : Bool := s.status / 8 ≠ 0

/-- `g_mime_signature_status_good`, util/gmime-extra.c:191-195. -/
def Sig.good (s : Sig) : Bool := !s.status.testBit 2 && s.status / 8 == 0

/-- `signature_status_to_string`, notmuch-show.c:410-423. -/
def Sig.statusString (s : Sig) : Str :=
  if s.bad then bs "bad" else if s.error then bs "error" else if s.good then bs "good" else bs "unknown"

/-- `g_mime_certificate_get_fpr16`, util/gmime-extra.c:117-126. -/
def Cert.fpr16 (c : Cert) : Option Str := c.fingerprint.map (fun f => if f.length < 16 then f else f.drop (f.length - 16))

/-- `g_mime_certificate_get_valid_userid` and `_email`, util/gmime-extra.c:87-115. -/
def Cert.validUserid (c : Cert) : Option Str := if c.valid then c.userid else none
def Cert.validEmail (c : Cert) : Option Str := if c.valid then c.email else none

/-- A field that is printed when it is not NULL. -/
def optField (k : Str) : Option Str → List Call
  | none => []
  | some v => [.mapKey k, .string (some v)]

/-- The bits of errors, notmuch-show.c:454-464. -/
def errorBits : List (Nat × Str) :=
  [(4, bs "key-revoked"), (5, bs "key-expired"), (6, bs "sig-expired"), (7, bs "key-missing"), (8, bs "crl-missing"), (9, bs "crl-too-old"), (10, bs "bad-policy"),
    (11, bs "sys-error"), (12, bs "tofu-conflict")]

/-- `do_format_signature_errors`, notmuch-show.c:431-446. -/
def errorCalls (status : Nat) : List Call :=
  [.mapKey (bs "errors"), .beginMap] ++ (errorBits.filter (fun b => status.testBit b.1)).flatMap (fun b => [.mapKey b.2, .boolean true]) ++ [.endAgg]

/-- The part of a signature that depends on its status, notmuch-show.c:496-532. -/
def certCalls (s : Sig) : List Call :=
  if s.good then
    (match s.cert with
      | none => []
      | some c => [.mapKey (bs "fingerprint"), .string c.fingerprint]) ++
    (if s.created ≠ -1 then [.mapKey (bs "created"), .integer s.created] else []) ++
    (if s.expires > 0 then [.mapKey (bs "expires"), .integer s.expires] else []) ++
    (match s.cert with
      | none => []
      | some c => optField (bs "userid") c.validUserid ++ optField (bs "email") c.validEmail)
  else
    match s.cert with
    | none => []
    | some c => optField (bs "keyid") c.fpr16

/-- The errors of a signature, notmuch-show.c:534-543 and 448-467. -/
def sigErrorCalls (version : Int) (s : Sig) : List Call :=
  if version ≤ 3 then (if s.error then [.mapKey (bs "errors"), .integer s.status] else [])
  else if s.error then errorCalls s.status else []

/-- One signature, notmuch-show.c:486-546. -/
def sigCalls (version : Int) (s : Sig) : List Call :=
  [.beginMap, .mapKey (bs "status"), .string (some s.statusString)] ++ certCalls s ++ sigErrorCalls version s ++ [.endAgg]

/-- `format_part_sigstatus_sprinter`, notmuch-show.c:469-549; `none` is NULL. -/
def sigStatusCalls (version : Int) (l : Option (List Sig)) : List Call := [.beginList] ++ (l.getD []).flatMap (sigCalls version) ++ [.endAgg]

/-! ## Headers -/

/-- The headers of a message, as strings, and the list of all. -/
structure Headers where
  subject : Option Str
  sender : Option Str
  to : Option Str
  cc : Option Str
  bcc : Option Str
  replyTo : Option Str
  date : Str
  inReplyTo : Option Str
  references : Option Str
  all : List (Str × Option Str)

/-- The same name, without regard to case. -/
def sameName (a b : Str) : Bool := a.map toLower == b.map toLower

/-- `g_mime_header_list_get_header`: the first with that name. -/
def Headers.find (h : Headers) (name : Str) : Option (Str × Option Str) := h.all.find? (fun x => sameName x.1 name)

/-- `format_extra_headers_sprinter`, notmuch-show.c:228-249; the names come from the configuration `show.extra_headers`. -/
def extraCalls (extra : List Str) (h : Headers) : List Call :=
  extra.flatMap (fun name =>
    match h.find name with
    | none => []
    | some (n, v) => [.mapKey n, .string v])

/-- `format_headers_sprinter`, notmuch-show.c:251-315. -/
def headersCalls (extra : List Str) (h : Headers) (reply : Bool) (payloadSubject : Option Str) : List Call :=
  [.beginMap, .mapKey (bs "Subject"), .string (if payloadSubject.isSome then payloadSubject else h.subject), .mapKey (bs "From"), .string h.sender] ++
  optField (bs "To") h.to ++ optField (bs "Cc") h.cc ++ optField (bs "Bcc") h.bcc ++ optField (bs "Reply-To") h.replyTo ++
  (if reply then [.mapKey (bs "In-reply-to"), .string h.inReplyTo, .mapKey (bs "References"), .string h.references]
    else [.mapKey (bs "Date"), .string (some h.date)] ++ extraCalls extra h) ++ [.endAgg]

/-! ## Parts -/

/-- What is said about every part. -/
structure Info where
  type : Str
  subtype : Str
  decrypt : Option Bool
  verify : Option (Option (List Sig))
  disposition : Option Str
  cid : Option Str

/-- A MIME node other than the root, mime-node.c: a leaf (or a wrapped S/MIME part) with its text after decoding and conversion and what is said when it is left out; a multipart; a
message with headers and one child. -/
inductive Node where
  | part (i : Info) (filename : Option Str) (text : Str) (charset cte : Option Str) (length : Int) (kids : List Node)
  | multipart (i : Info) (kids : List Node)
  | message (i : Info) (h : Headers) (kids : List Node)

mutual
/-- The number of nodes. -/
def Node.size : Node → Nat
  | .part _ _ _ _ _ _ kids => 1 + Node.sizes kids
  | .multipart _ kids => 1 + Node.sizes kids
  | .message _ _ kids => 1 + Node.sizes kids

def Node.sizes : List Node → Nat
  | [] => 0
  | t :: l => t.size + Node.sizes l
end

mutual
/-- The nodes in depth-first order. -/
def Node.nodes : Node → List Node
  | .part i f t c e n kids => .part i f t c e n kids :: Node.nodesList kids
  | .multipart i kids => .multipart i kids :: Node.nodesList kids
  | .message i h kids => .message i h kids :: Node.nodesList kids

def Node.nodesList : List Node → List Node
  | [] => []
  | t :: l => t.nodes ++ Node.nodesList l
end

/-- `g_mime_content_type_is_type (…, "text", "*")`, and whether the text is shown: notmuch-show.c:828-830. -/
def Info.isText (i : Info) : Bool := sameName i.type (bs "text")
def Info.isHtml (i : Info) : Bool := i.isText && sameName i.subtype (bs "html")
def Info.showText (html : Bool) (i : Info) : Bool := i.isText && (html || !i.isHtml)

/-- `g_mime_content_type_get_mime_type`. -/
def Info.mimeType (i : Info) : Str := i.type ++ [47] ++ i.subtype

/-- Options of the output: the version of the format, `show.extra_headers`, `--include-html`, `--body`, `--duplicate`. -/
structure Opts where
  version : Int
  extra : List Str
  html : Bool
  body : Bool
  duplicate : Int

/-- notmuch-show.c:762-803: the beginning of a part with number `n`. -/
def infoCalls (o : Opts) (i : Info) (n : Nat) (filename : Option Str) : List Call :=
  [.mapKey (bs "id"), .integer n] ++
  (match i.decrypt with
    | none => []
    | some ok => [.mapKey (bs "encstatus"), .beginList, .beginMap, .mapKey (bs "status"), .string (some (if ok then bs "good" else bs "bad")), .endAgg, .endAgg]) ++
  (match i.verify with
    | none => []
    | some l => .mapKey (bs "sigstatus") :: sigStatusCalls o.version l) ++
  [.mapKey (bs "content-type"), .string (some i.mimeType)] ++ optField (bs "content-disposition") i.disposition ++ optField (bs "content-id") i.cid ++ optField (bs "filename") filename

/-- `format_omitted_part_meta_sprinter`, notmuch-show.c:644-666. -/
def omittedCalls (charset cte : Option Str) (length : Int) : List Call :=
  optField (bs "content-charset") charset ++ optField (bs "content-transfer-encoding") cte ++ (if length ≥ 0 then [.mapKey (bs "content-length"), .integer length] else [])

mutual
/-- `format_part_sprinter` for a node that is not the root, notmuch-show.c:746-873; `n` is its number: C44 has that it is depth-first. -/
def partCalls (o : Opts) : Node → Nat → List Call
  | .part i filename text charset cte length kids, n =>
    [.beginMap] ++ infoCalls o i n filename ++
    (if i.showText o.html then [.mapKey (bs "content"), .stringLen text] ++ partsCalls o kids (n + 1)
      else if kids ≠ [] then [.mapKey (bs "content"), .beginList] ++ partsCalls o kids (n + 1) ++ [.endAgg]
      else omittedCalls charset cte length) ++ [.endAgg]
  | .multipart i kids, n =>
    [.beginMap] ++ infoCalls o i n none ++ [.mapKey (bs "content"), .beginList] ++ partsCalls o kids (n + 1) ++ [.endAgg] ++ [.endAgg]
  | .message i h kids, n =>
    [.beginMap] ++ infoCalls o i n none ++ [.mapKey (bs "content"), .beginList, .beginMap, .mapKey (bs "headers")] ++ headersCalls o.extra h false none ++
    [.mapKey (bs "body"), .beginList] ++ partsCalls o kids (n + 1) ++ [.endAgg, .endAgg, .endAgg] ++ [.endAgg]

/-- notmuch-show.c:864-865. -/
def partsCalls (o : Opts) : List Node → Nat → List Call
  | [], _ => []
  | t :: l, n => partCalls o t n ++ partsCalls o l (n + t.size)
end

/-! ## Messages -/

/-- `decryption_status`, util/crypto.h. -/
inductive Decrypted where
  | none
  | partially
  | full
  deriving DecidableEq

/-- `_notmuch_message_crypto_t`, util/crypto.h. -/
structure Crypto where
  sigs : Option (List Sig)
  encrypted : Bool
  subject : Option Str
  status : Decrypted

/-- A message file as GMime parses it: headers and one part. -/
structure Root where
  headers : Headers
  crypto : Crypto
  body : Node

/-- A file of a message: `bytes` is `none` when it cannot be opened, `root` is `none` when it cannot be parsed. -/
structure File where
  name : Str
  bytes : Option Str
  root : Option Root

/-- A message of the database. -/
structure Msg where
  id : Str
  isMatch : Bool
  excluded : Bool
  files : List File
  timestamp : Int
  relative : Str
  tags : List Str
  sender : Str

/-- The slow path of `mime_node_open`, mime-node.c:105-141: the first file from number `duplicate` on; for a certain one, no other is tried. -/
def openSlow (duplicate : Int) : List File → Int → Option File
  | [], _ => none
  | f :: l, i =>
    if i ≥ duplicate then
      if f.bytes.isSome then some f else if duplicate > 0 then none else openSlow duplicate l (i + 1)
    else openSlow duplicate l (i + 1)

/-- `mime_node_open`, mime-node.c:80-187: the file that is opened, if one can be. -/
def openFile (duplicate : Int) (files : List File) : Option File :=
  match files with
  | [] => none
  | f :: _ => if duplicate ≤ 0 ∧ f.bytes.isSome then some f else openSlow duplicate files 1

/-- What is parsed. -/
def openRoot (duplicate : Int) (files : List File) : Option Root := (openFile duplicate files).bind (·.root)

/-- `format_message_sprinter`, notmuch-show.c:112-165. -/
def metaCalls (version : Int) (m : Msg) : List Call :=
  [.mapKey (bs "id"), .string (some m.id), .mapKey (bs "match"), .boolean m.isMatch, .mapKey (bs "excluded"), .boolean m.excluded, .mapKey (bs "filename")] ++
  (if version ≥ 3 then [.beginList] ++ m.files.map (fun f => .string (some f.name)) ++ [.endAgg] else [.string (m.files.head?.map (·.name))]) ++
  [.mapKey (bs "timestamp"), .integer m.timestamp, .mapKey (bs "date_relative"), .string (some m.relative), .mapKey (bs "tags"), .beginList] ++
  m.tags.map (fun t => .string (some t)) ++ [.endAgg]

/-- notmuch-show.c:703-716. -/
def signedCalls (version : Int) (c : Crypto) : List Call :=
  match c.sigs with
  | none => []
  | some l =>
    [.mapKey (bs "signed"), .beginMap, .mapKey (bs "status")] ++ sigStatusCalls version (some l) ++
    (if c.encrypted then [.mapKey (bs "encrypted"), .boolean true] else []) ++
    (if c.subject.isSome then [.mapKey (bs "headers"), .beginList, .string (some (bs "Subject")), .endAgg] else []) ++ [.endAgg]

/-- notmuch-show.c:717-738. -/
def decryptedCalls (h : Headers) (c : Crypto) : List Call :=
  if c.status = .none then []
  else
    [.mapKey (bs "decrypted"), .beginMap, .mapKey (bs "status"), .string (some (if c.status = .full then bs "full" else bs "partial"))] ++
    (if c.subject.isSome ∧ h.subject ≠ c.subject then
      [.mapKey (bs "header-mask"), .beginMap, .mapKey (bs "Subject"), if h.subject.isSome then .string h.subject else .null, .endAgg] else []) ++ [.endAgg]

/-- notmuch-show.c:698-741. -/
def cryptoCalls (version : Int) (h : Headers) (c : Crypto) : List Call :=
  if version ≥ 4 then [.mapKey (bs "crypto"), .beginMap] ++ signedCalls version c ++ decryptedCalls h c ++ [.endAgg] else []

/-- `format_part_sprinter` for the root, notmuch-show.c:678-749. -/
def messageCalls (o : Opts) (m : Msg) (r : Root) : List Call :=
  [.beginMap] ++ metaCalls o.version m ++ [.mapKey (bs "duplicate"), .integer (if o.duplicate > 0 then o.duplicate else 1)] ++
  (if o.body then [.mapKey (bs "body"), .beginList] ++ partCalls o r.body 1 ++ [.endAgg] else []) ++ cryptoCalls o.version r.headers r.crypto ++
  [.mapKey (bs "headers")] ++ headersCalls o.extra r.headers false r.crypto.subject ++ [.endAgg]

/-- The structured output of `notmuch reply`, notmuch-reply.c:676-689. -/
def replyCalls (o : Opts) (reply : Headers) (m : Msg) (r : Root) : List Call :=
  [.beginMap, .mapKey (bs "reply-headers")] ++ headersCalls o.extra reply true none ++ [.mapKey (bs "original")] ++ messageCalls { o with body := true, html := false } m r ++ [.endAgg]

/-! ## Text -/

/-- `%s`; NULL is `(null)`. -/
def fmt : Option Str → Str
  | none => bs "(null)"
  | some s => s

/-- A line `Name: value` that is left out for NULL. -/
def optLine (name : Str) : Option Str → Str
  | none => []
  | some v => name ++ bs ": " ++ v ++ [10]

/-- `_get_tags_as_string`, notmuch-show.c:41-63. -/
def joinTags : List Str → Str
  | [] => []
  | [t] => t
  | t :: l => t ++ [32] ++ joinTags l

/-- `_get_one_line_summary`, notmuch-show.c:66-84. -/
def summary (m : Msg) : Str := m.sender ++ bs " (" ++ m.relative ++ bs ") (" ++ joinTags m.tags ++ bs ")"

/-- The headers, notmuch-show.c:601-621. -/
def textHeaders (summary : Str) (h : Headers) : Str :=
  12 :: bs "header{\n" ++ summary ++ bs "Subject: " ++ fmt h.subject ++ bs "\nFrom: " ++ fmt h.sender ++ [10] ++ optLine (bs "To") h.to ++ optLine (bs "Cc") h.cc ++ bs "Date: " ++ h.date ++ [10] ++
  12 :: bs "header}\n"

/-- `part` or `attachment`, notmuch-show.c:584-588. -/
def partType (i : Info) : Str := if (i.disposition.map (sameName (bs "attachment"))).getD false then bs "attachment" else bs "part"

/-- notmuch-show.c:584-599. -/
def textBegin (i : Info) (n : Nat) (filename : Option Str) : Str :=
  12 :: partType i ++ bs "{ ID: " ++ dec n ++ (match filename with | none => [] | some f => bs ", Filename: " ++ f) ++ (match i.cid with | none => [] | some c => bs ", Content-id: " ++ c) ++
  bs ", Content-type: " ++ i.mimeType ++ [10]

mutual
/-- `format_part_text` for a node that is not the root, notmuch-show.c:552-642. -/
def textPart (o : Opts) : Node → Nat → Str
  | .part i filename text _ _ _ kids, n =>
    textBegin i n filename ++ (if i.showText o.html then text else bs "Non-text part: " ++ i.mimeType ++ [10]) ++ textParts o kids (n + 1) ++ 12 :: partType i ++ bs "}\n"
  | .multipart i kids, n => textBegin i n none ++ textParts o kids (n + 1) ++ 12 :: partType i ++ bs "}\n"
  | .message i h kids, n =>
    textBegin i n none ++ textHeaders [] h ++ (if o.body then 12 :: bs "body{\n" ++ textParts o kids (n + 1) ++ 12 :: bs "body}\n" else []) ++ 12 :: partType i ++ bs "}\n"

def textParts (o : Opts) : List Node → Nat → Str
  | [], _ => []
  | t :: l, n => textPart o t n ++ textParts o l (n + t.size)
end

/-- `%d` of a flag. -/
def flag (b : Bool) : Str := if b then bs "1" else bs "0"

/-- `format_part_text` for the root, notmuch-show.c:566-576 and 601-641. -/
def textMessage (o : Opts) (depth : Nat) (m : Msg) (r : Root) : Str :=
  12 :: bs "message{ id:" ++ m.id ++ bs " depth:" ++ dec depth ++ bs " match:" ++ flag m.isMatch ++ bs " excluded:" ++ flag m.excluded ++ bs " filename:" ++ fmt (m.files.head?.map (·.name)) ++ [10] ++
  textHeaders (summary m ++ [10]) r.headers ++ (if o.body then 12 :: bs "body{\n" ++ textPart o r.body 1 ++ 12 :: bs "body}\n" else []) ++ 12 :: bs "message}\n"

/-! ## The command -/

/-- The formats. -/
inductive Format where
  | structured
  | text
  | mbox
  | raw
  deriving DecidableEq

/-- What is written: calls of the printer, and bytes.  A message in mbox format is the name and the bytes of the file (Model/Mbox.lean has the rest). -/
inductive Ev where
  | call (c : Call)
  | out (s : Str)

/-- `notmuch_show_params_t`. -/
structure Params where
  opts : Opts
  entire : Bool
  omitExcluded : Bool
  part : Int
  offset : Int
  limit : Int

/-- `_get_filename`, notmuch-show.c:26-39. -/
def getFile (index : Int) : List File → Int → Option File
  | [], _ => none
  | f :: l, i => if i ≥ index then some f else getFile index l (i + 1)

/-- The part of a message, mime-node.c:400-425: the root for 0 and less. -/
def seek (r : Root) (n : Int) : Option (Option Node) := if n ≤ 0 then some none else (r.body.nodes[(n - 1).toNat]?).map some

/-- What a format does with a part; `true` is an error.  `format_part_mbox`, notmuch-show.c:891-945, `format_part_raw`, notmuch-show.c:947-1007 (where the bytes of a part other than the
root are its text). -/
def formatPart (fm : Format) (p : Params) (depth : Nat) (m : Msg) (r : Root) (t : Option Node) : List Ev × Bool :=
  match fm, t with
  | .structured, none => ((messageCalls p.opts m r).map .call, false)
  | .structured, some t => ((partCalls p.opts t p.part.toNat).map .call, false)
  | .text, none => ([.out (textMessage p.opts depth m r)], false)
  | .text, some t => ([.out (textPart p.opts t p.part.toNat)], false)
  | .mbox, _ =>
    match m.files.head?.bind (·.bytes) with
    | none => ([], true)
    | some b => ([.out b], false)
  | .raw, none =>
    match (getFile p.opts.duplicate m.files 1).bind (·.bytes) with
    | none => ([], true)
    | some b => ([.out b], false)
  | .raw, some (.part _ _ text _ _ _ _) => ([.out text], false)
  | .raw, some _ => ([], false)

/-- `show_message`, notmuch-show.c:1009-1052, without the indexing after decryption. -/
def showMessage (fm : Format) (p : Params) (depth : Nat) (m : Msg) : List Ev × Bool :=
  match openRoot p.opts.duplicate m.files with
  | none => ([], true)
  | some r =>
    match seek r p.part with
    | none => ([], false)
    | some t => formatPart fm p depth m r t

/-- A message and its replies. -/
inductive Tree where
  | node (m : Msg) (replies : List Tree)

/-- Whether a message is shown, notmuch-show.c:1082. -/
def shown (p : Params) (m : Msg) : Bool := (m.isMatch && (!m.excluded || !p.omitExcluded)) || p.entire

/-- notmuch-show.c:1082-1090. -/
def showOne (fm : Format) (p : Params) (depth : Nat) (m : Msg) : List Ev × Bool := if shown p m then showMessage fm p depth m else ([.call .null], false)

mutual
/-- One turn of the loop of `show_messages`, notmuch-show.c:1072-1103. -/
def showTree (fm : Format) (p : Params) (depth : Nat) : Tree → List Ev × Bool
  | .node m replies =>
    let a := showOne fm p depth m
    let b := showTrees fm p (if shown p m then depth + 1 else depth) replies
    ([.call .beginList] ++ a.1 ++ ([.call .beginList] ++ b.1 ++ [.call .endAgg]) ++ [.call .endAgg], a.2 || b.2)

/-- The loop. -/
def showTrees (fm : Format) (p : Params) (depth : Nat) : List Tree → List Ev × Bool
  | [] => ([], false)
  | t :: l =>
    let a := showTree fm p depth t
    let b := showTrees fm p depth l
    (a.1 ++ b.1, a.2 || b.2)
end

/-- `show_messages`, notmuch-show.c:1054-1108. -/
def showMessages (fm : Format) (p : Params) (depth : Nat) (l : List Tree) : List Ev × Bool :=
  ([.call .beginList] ++ (showTrees fm p depth l).1 ++ [.call .endAgg], (showTrees fm p depth l).2)

/-- The offset that is used, notmuch-show.c:1168-1177 and 1234-1243: a negative one is from the end. -/
def offsetOf (offset : Int) (count : Nat) : Int := if offset < 0 then (if offset + count < 0 then 0 else offset + count) else offset

/-- The loops of notmuch-show.c:1185-1207 and 1251-1276: `i` is the number of the thread or message; `offset + limit` does not overflow. -/
def window {α : Type} (offset limit : Int) : List α → Int → List α
  | [], _ => []
  | x :: l, i =>
    if limit < 0 ∨ i < offset + limit then
      if i < offset then window offset limit l (i + 1) else x :: window offset limit l (i + 1)
    else []

/-- All of them, one after the other. -/
def showAll {α : Type} (f : α → List Ev × Bool) : List α → List Ev × Bool
  | [] => ([], false)
  | x :: l => ((f x).1 ++ (showAll f l).1, (f x).2 || (showAll f l).2)

/-- `do_show_threaded`, notmuch-show.c:1153-1214: the toplevel messages of the threads that are found; `count` is the result of `notmuch_query_count_threads`; the result is `true` on
failure. -/
def showThreaded (fm : Format) (p : Params) (count : Nat) (threads : List (List Tree)) : List Ev × Bool :=
  let r := showAll (showMessages fm p 0) (window (offsetOf p.offset count) p.limit threads 0)
  ([.call .beginList] ++ r.1 ++ [.call .endAgg], r.2)

/-- One message of `do_show_unthreaded`, notmuch-show.c:1258-1275. -/
def showAlone (fm : Format) (p : Params) (m : Msg) : List Ev × Bool :=
  let m := { m with isMatch := true }
  let a := if !m.excluded || !p.omitExcluded then showMessage fm p 0 m else ([.call .null], false)
  ([.call .beginList, .call .beginList] ++ a.1 ++ [.call .endAgg, .call .endAgg], a.2)

/-- `do_show_unthreaded`, notmuch-show.c:1216-1279. -/
def showUnthreaded (fm : Format) (p : Params) (count : Nat) (found : List Msg) : List Ev × Bool :=
  let r := showAll (showAlone fm p) (window (offsetOf p.offset count) p.limit found 0)
  ([.call .beginList] ++ r.1 ++ [.call .endAgg], r.2)

/-- `do_show_single`, notmuch-show.c:1111-1150. -/
def showSingle (fm : Format) (p : Params) (found : List Msg) : List Ev × Bool :=
  match found with
  | [m] => showMessage fm p 0 { m with isMatch := true }
  | _ => ([], true)

/-- The calls of the printer. -/
def calls : List Ev → List Call
  | [] => []
  | .call c :: l => c :: calls l
  | .out _ :: l => calls l

/-- The bytes that are written besides; the text printer prints nothing for the calls that are made, sprinter-text.c:87-114. -/
def bytes : List Ev → Str
  | [] => []
  | .call _ :: l => bytes l
  | .out s :: l => s ++ bytes l

/-! ## Options -/

/-- The options of the command line: `format` is `none` when it is not given, and so is `entire`. -/
structure CmdLine where
  format : Option Format
  entire : Option Bool
  exclude : Bool
  unthreaded : Bool
  part : Int
  duplicate : Int
  body : Bool
  html : Bool
  limit : Int
  offset : Int

/-- What is shown. -/
inductive Mode where
  | single
  | threaded
  | unthreaded
  deriving DecidableEq

/-- `notmuch_show_command`, notmuch-show.c:1378-1487: `none` when parts are asked for in mbox format. -/
def plan (version : Int) (extra : List Str) (c : CmdLine) : Option (Format × Mode × Params) :=
  let fm := c.format.getD (if c.part ≥ 0 then .raw else .text)
  if fm = .mbox ∧ c.part > 0 then none
  else
    let single := decide (c.part ≥ 0) || decide (c.duplicate > 0) || decide (fm = .raw)
    let mode := if single then Mode.single else if c.unthreaded then .unthreaded else .threaded
    some (fm, mode, ⟨⟨version, extra, c.html, c.body || decide (c.part > 0), c.duplicate⟩, c.entire.getD (decide (fm = .structured)), if single then true else c.exclude, c.part, c.offset, c.limit⟩)

end Notmuch.Show
