import Verif.Spec.Show
import Verif.Proofs.Search

/-! # notmuch show: the values that are printed (C55) -/

namespace Notmuch.Show

open Notmuch.Sprinter

/-! ## Calls -/

theorem n_nil : norm [] = [] := rfl
theorem n_key (k : Str) (l : List Call) : norm (.mapKey k :: l) = .mapKey (cstr (some k)) :: norm l := rfl
theorem n_str (s : Option Str) (l : List Call) : norm (.string s :: l) = .stringLen (cstr s) :: norm l := rfl
theorem n_strlen (s : Str) (l : List Call) : norm (.stringLen s :: l) = .stringLen s :: norm l := rfl
theorem n_int (i : Int) (l : List Call) : norm (.integer i :: l) = .integer i :: norm l := rfl
theorem n_bool (b : Bool) (l : List Call) : norm (.boolean b :: l) = .boolean b :: norm l := rfl
theorem n_null (l : List Call) : norm (.null :: l) = .null :: norm l := rfl
theorem n_map (l : List Call) : norm (.beginMap :: l) = .beginMap :: norm l := rfl
theorem n_list (l : List Call) : norm (.beginList :: l) = .beginList :: norm l := rfl
theorem n_end (l : List Call) : norm (.endAgg :: l) = .endAgg :: norm l := rfl

theorem norm_app (a b : List Call) : norm (a ++ b) = norm a ++ norm b := Search.norm_append a b
theorem callsObj_app (a b : List (Str × Val)) : Val.callsObj (a ++ b) = Val.callsObj a ++ Val.callsObj b := Search.callsObj_append a b
theorem callsList_app (a b : List Val) : Val.callsList (a ++ b) = Val.callsList a ++ Val.callsList b := Search.callsList_append a b

/-- An object with these members. -/
theorem calls_obj (l : List (Str × Val)) : (Val.obj l).calls = [.beginMap] ++ Val.callsObj l ++ [.endAgg] := by rw [Val.calls]; rfl
theorem calls_list (l : List Val) : (Val.list l).calls = [.beginList] ++ Val.callsList l ++ [.endAgg] := by rw [Val.calls]; rfl

/-! ## Members -/

/-- One member. -/
def one (k : Str) (v : Val) : List (Str × Val) := [(k, v)]

/-- A member that may be left out. -/
def optV (k : Str) : Option Val → List (Str × Val)
  | none => []
  | some v => [(k, v)]

def str (s : Str) : Val := text (some s)

theorem one_calls (k : Str) (v : Val) : Val.callsObj (one k v) = .mapKey k :: v.calls := by simp [one, Val.callsObj]

theorem optV_some_calls (k : Str) (v : Val) : Val.callsObj (optV k (some v)) = .mapKey k :: v.calls := by simp [optV, Val.callsObj]

theorem optField_calls (k : Str) (hk : cstr (some k) = k) (o : Option Str) : norm (optField k o) = Val.callsObj (optV k (o.map str)) := by
  cases o with
  | none => rfl
  | some s => simp [optField, optV, n_key, n_str, n_nil, hk, Val.callsObj, str, text, Val.calls]

/-! ## Signatures -/

def errorsVal (status : Nat) : Val := .obj ((errorBits.filter (fun b => status.testBit b.1)).map (fun b => (b.2, .bool true)))

theorem errorBits_names : ∀ b ∈ errorBits, cstr (some b.2) = b.2 := by decide +kernel

theorem errors_calls (status : Nat) : norm (errorCalls status) = .mapKey (bs "errors") :: (errorsVal status).calls := by
  have h : ∀ l : List (Nat × Str), (∀ b ∈ l, cstr (some b.2) = b.2) → norm (l.flatMap (fun b => [.mapKey b.2, .boolean true])) = Val.callsObj (l.map (fun b => (b.2, .bool true))) := by
    intro l
    induction l with
    | nil => intro _; rfl
    | cons b l ih =>
      intro hb
      simp [n_key, n_bool, Val.callsObj, Val.calls, hb b (by simp), ih (fun b h => hb b (by simp [h]))]
  have hf : ∀ b ∈ errorBits.filter (fun b => status.testBit b.1), cstr (some b.2) = b.2 := fun b hb => errorBits_names b ((List.mem_filter.1 hb).1)
  unfold errorCalls errorsVal
  rw [norm_app, norm_app, h _ hf, calls_obj]
  rfl

def certV (s : Sig) : List (Str × Val) :=
  if s.good then
    optV (bs "fingerprint") (s.cert.map (fun c => text c.fingerprint)) ++ optV (bs "created") (if s.created ≠ -1 then some (.int s.created) else none) ++
    optV (bs "expires") (if s.expires > 0 then some (.int s.expires) else none) ++ (optV (bs "userid") (s.cert.bind (fun c => c.validUserid.map str)) ++ optV (bs "email") (s.cert.bind (fun c => c.validEmail.map str)))
  else optV (bs "keyid") (s.cert.bind (fun c => c.fpr16.map str))

theorem certV_calls (s : Sig) : norm (certCalls s) = Val.callsObj (certV s) := by
  unfold certCalls certV
  split
  · rw [norm_app, norm_app, norm_app, callsObj_app, callsObj_app, callsObj_app]
    congr 1
    · congr 1
      · congr 1
        · cases s.cert <;> rfl
        · split <;> rfl
      · split <;> rfl
    · cases s.cert with
      | none => rfl
      | some c =>
        simp only []
        rw [norm_app, callsObj_app, optField_calls _ (by decide +kernel), optField_calls _ (by decide +kernel)]
        rfl
  · cases s.cert with
    | none => rfl
    | some c => exact optField_calls _ (by decide +kernel) _

def sigErrorV (version : Int) (s : Sig) : List (Str × Val) :=
  optV (bs "errors") (if s.error then some (if version ≤ 3 then .int s.status else errorsVal s.status) else none)

theorem sigErrorV_calls (version : Int) (s : Sig) : norm (sigErrorCalls version s) = Val.callsObj (sigErrorV version s) := by
  unfold sigErrorCalls sigErrorV
  by_cases hv : version ≤ 3 <;> cases he : s.error <;> simp [hv, optV, n_nil, Val.callsObj, errors_calls]
  rfl

def sigVal (version : Int) (s : Sig) : Val := .obj (one (bs "status") (.str s.statusString) ++ certV s ++ sigErrorV version s)

theorem statusString_c (s : Sig) : cstr (some s.statusString) = s.statusString := by
  unfold Sig.statusString
  repeat' split
  all_goals decide +kernel

theorem sigVal_calls (version : Int) (s : Sig) : norm (sigCalls version s) = (sigVal version s).calls := by
  unfold sigCalls sigVal
  rw [norm_app, norm_app, norm_app, calls_obj, callsObj_app, callsObj_app, certV_calls, sigErrorV_calls, one_calls, n_map, n_key, n_str, statusString_c]
  simp [n_nil, Val.calls, n_end]
  decide +kernel

def sigStatusVal (version : Int) (l : Option (List Sig)) : Val := .list ((l.getD []).map (sigVal version))

theorem flatMap_calls {α : Type} (f : α → List Call) (g : α → Val) (h : ∀ x, norm (f x) = (g x).calls) : ∀ l : List α, norm (l.flatMap f) = Val.callsList (l.map g)
  | [] => rfl
  | x :: l => by rw [List.flatMap_cons, norm_app, h, flatMap_calls f g h l, List.map_cons, Val.callsList]

theorem sigStatus_calls (version : Int) (l : Option (List Sig)) : norm (sigStatusCalls version l) = (sigStatusVal version l).calls := by
  unfold sigStatusCalls sigStatusVal
  rw [norm_app, norm_app, flatMap_calls _ _ (sigVal_calls version), calls_list]
  rfl

/-! ## Headers -/

def extraV (extra : List Str) (h : Headers) : List (Str × Val) := (extra.filterMap h.find).map (fun x => (cstr (some x.1), text x.2))

theorem extraV_calls (extra : List Str) (h : Headers) : norm (extraCalls extra h) = Val.callsObj (extraV extra h) := by
  unfold extraCalls extraV
  induction extra with
  | nil => rfl
  | cons n l ih =>
    rw [List.flatMap_cons, norm_app, ih]
    cases e : h.find n with
    | none => simp [List.filterMap_cons, e, n_nil]
    | some x => simp [List.filterMap_cons, e, n_nil, n_key, n_str, Val.callsObj, text, Val.calls]

def headersV (extra : List Str) (h : Headers) (reply : Bool) (subject : Option Str) : List (Str × Val) :=
  one (bs "Subject") (text (subject.or h.subject)) ++ one (bs "From") (text h.sender) ++ optV (bs "To") (h.to.map str) ++ optV (bs "Cc") (h.cc.map str) ++ optV (bs "Bcc") (h.bcc.map str) ++
  optV (bs "Reply-To") (h.replyTo.map str) ++
  (if reply then one (bs "In-reply-to") (text h.inReplyTo) ++ one (bs "References") (text h.references) else one (bs "Date") (text (some h.date)) ++ extraV extra h)

theorem headers_calls (extra : List Str) (h : Headers) (reply : Bool) (subject : Option Str) :
    norm (headersCalls extra h reply subject) = (Val.obj (headersV extra h reply subject)).calls := by
  have hs : (if subject.isSome then subject else h.subject) = subject.or h.subject := by cases subject <;> rfl
  have h1 : norm [Call.beginMap, .mapKey (bs "Subject"), .string (subject.or h.subject), .mapKey (bs "From"), .string h.sender] =
      [.beginMap] ++ (Val.callsObj (one (bs "Subject") (text (subject.or h.subject))) ++ Val.callsObj (one (bs "From") (text h.sender))) := by
    rw [one_calls, one_calls, n_map, n_key, n_str, n_key, n_str, n_nil, show cstr (some (bs "Subject")) = bs "Subject" by decide +kernel, show cstr (some (bs "From")) = bs "From" by decide +kernel]
    simp [text, Val.calls]
  have h2 : norm (if reply then [Call.mapKey (bs "In-reply-to"), .string h.inReplyTo, .mapKey (bs "References"), .string h.references]
      else [.mapKey (bs "Date"), .string (some h.date)] ++ extraCalls extra h) =
      Val.callsObj (if reply then one (bs "In-reply-to") (text h.inReplyTo) ++ one (bs "References") (text h.references) else one (bs "Date") (text (some h.date)) ++ extraV extra h) := by
    cases reply
    · simp only [Bool.false_eq_true, if_false]
      rw [norm_app, callsObj_app, extraV_calls, one_calls, n_key, n_str, n_nil, show cstr (some (bs "Date")) = bs "Date" by decide +kernel]
      simp [text, Val.calls]
    · simp only [if_true]
      rw [callsObj_app, one_calls, one_calls, n_key, n_str, n_key, n_str, n_nil, show cstr (some (bs "In-reply-to")) = bs "In-reply-to" by decide +kernel,
        show cstr (some (bs "References")) = bs "References" by decide +kernel]
      simp [text, Val.calls]
  unfold headersCalls headersV
  rw [hs, norm_app, norm_app, norm_app, norm_app, norm_app, norm_app, h1, h2, optField_calls _ (by decide +kernel), optField_calls _ (by decide +kernel), optField_calls _ (by decide +kernel),
    optField_calls _ (by decide +kernel), calls_obj, callsObj_app, callsObj_app, callsObj_app, callsObj_app, callsObj_app, callsObj_app]
  simp [n_end, n_nil]

/-! ## Parts -/

def encVal (ok : Bool) : Val := .list [.obj [(bs "status", .str (if ok then bs "good" else bs "bad"))]]

def infoV (o : Opts) (i : Info) (n : Nat) (filename : Option Str) : List (Str × Val) :=
  one (bs "id") (.int n) ++ optV (bs "encstatus") (i.decrypt.map encVal) ++ optV (bs "sigstatus") (i.verify.map (sigStatusVal o.version)) ++ one (bs "content-type") (str i.mimeType) ++
  optV (bs "content-disposition") (i.disposition.map str) ++ optV (bs "content-id") (i.cid.map str) ++ optV (bs "filename") (filename.map str)

theorem info_calls (o : Opts) (i : Info) (n : Nat) (filename : Option Str) : norm (infoCalls o i n filename) = Val.callsObj (infoV o i n filename) := by
  unfold infoCalls infoV
  rw [norm_app, norm_app, norm_app, norm_app, norm_app, norm_app, callsObj_app, callsObj_app, callsObj_app, callsObj_app, callsObj_app, callsObj_app, optField_calls _ (by decide +kernel),
    optField_calls _ (by decide +kernel), optField_calls _ (by decide +kernel), one_calls, one_calls]
  congr 1
  congr 1
  congr 1
  refine congr (congrArg _ ?_) ?_
  · congr 1
    · congr 1
      cases i.decrypt with
        | none => rfl
        | some ok =>
          simp only [Option.map_some, optV, encVal]
          rw [n_key, n_list, n_map, n_key, n_str, n_end, n_end, n_nil, show cstr (some (bs "encstatus")) = bs "encstatus" by decide +kernel, show cstr (some (bs "status")) = bs "status" by decide +kernel]
          have : cstr (some (if ok = true then bs "good" else bs "bad")) = if ok = true then bs "good" else bs "bad" := by cases ok <;> decide +kernel
          rw [this]
          simp [Val.callsObj, Val.calls, Val.callsList]
    · cases i.verify with
      | none => rfl
      | some l =>
        simp only [Option.map_some, optV]
        rw [n_key, sigStatus_calls, show cstr (some (bs "sigstatus")) = bs "sigstatus" by decide +kernel]
        simp [Val.callsObj]
  · rw [n_key, n_str, n_nil, show cstr (some (bs "content-type")) = bs "content-type" by decide +kernel]
    rfl

def omittedV (charset cte : Option Str) (length : Int) : List (Str × Val) :=
  optV (bs "content-charset") (charset.map str) ++ optV (bs "content-transfer-encoding") (cte.map str) ++ optV (bs "content-length") (if length ≥ 0 then some (.int length) else none)

theorem omitted_calls (charset cte : Option Str) (length : Int) : norm (omittedCalls charset cte length) = Val.callsObj (omittedV charset cte length) := by
  unfold omittedCalls omittedV
  rw [norm_app, norm_app, callsObj_app, callsObj_app, optField_calls _ (by decide +kernel), optField_calls _ (by decide +kernel)]
  split <;> rfl

mutual
/-- The value of a part. -/
def partVal (o : Opts) : Node → Nat → Val
  | .part i filename text charset cte length kids, n =>
    .obj (infoV o i n filename ++ (if i.showText o.html then one (bs "content") (.str text) else if kids ≠ [] then one (bs "content") (.list (partsVal o kids (n + 1))) else omittedV charset cte length))
  | .multipart i kids, n => .obj (infoV o i n none ++ one (bs "content") (.list (partsVal o kids (n + 1))))
  | .message i h kids, n =>
    .obj (infoV o i n none ++ one (bs "content") (.list [.obj [(bs "headers", .obj (headersV o.extra h false none)), (bs "body", .list (partsVal o kids (n + 1)))]]))

def partsVal (o : Opts) : List Node → Nat → List Val
  | [], _ => []
  | t :: l, n => partVal o t n :: partsVal o l (n + t.size)
end

theorem showText_text {html : Bool} {i : Info} (h : i.showText html = true) : i.isText = true := by
  simp only [Info.showText, Bool.and_eq_true] at h
  exact h.1

theorem cstr_content : cstr (some (bs "content")) = bs "content" := by decide +kernel

mutual
theorem part_calls (o : Opts) (P : Headers → Prop) : ∀ (t : Node) (n : Nat), t.Good P → norm (partCalls o t n) = (partVal o t n).calls
  | .part i filename text charset cte length kids, n, hg => by
    rw [Node.Good] at hg
    rw [partCalls, partVal, norm_app, norm_app, norm_app, calls_obj, callsObj_app, info_calls]
    by_cases hs : i.showText o.html = true
    · have hk := hg.1 (showText_text hs)
      subst hk
      simp [hs, partsCalls, one_calls, n_key, n_strlen, n_nil, cstr_content, Val.calls, n_end, n_map]
    · by_cases hk : kids = []
      · subst hk
        simp [hs, omitted_calls, n_map, n_end, n_nil]
      · simp only [hs, Bool.false_eq_true, if_false, ne_eq, not_false_eq_true, hk, if_true]
        rw [norm_app, norm_app, one_calls, calls_list, parts_calls o P kids (n + 1) hg.2, n_key, n_list, n_nil, cstr_content]
        simp [n_map, n_end, n_nil]
  | .multipart i kids, n, hg => by
    rw [Node.Good] at hg
    rw [partCalls, partVal]
    simp only [norm_app, calls_obj, callsObj_app, info_calls, one_calls, calls_list, parts_calls o P kids (n + 1) hg, n_key, n_list, n_nil, cstr_content, n_map, n_end]
    simp
  | .message i h kids, n, hg => by
    rw [Node.Good] at hg
    rw [partCalls, partVal]
    simp only [norm_app, info_calls, headers_calls, parts_calls o P kids (n + 1) hg.2, n_key, n_list, n_nil, cstr_content, n_map, n_end, show cstr (some (bs "headers")) = bs "headers" by decide +kernel,
      show cstr (some (bs "body")) = bs "body" by decide +kernel]
    simp only [calls_obj, callsObj_app, one_calls, calls_list, Val.callsList, Val.callsObj]
    simp

theorem parts_calls (o : Opts) (P : Headers → Prop) : ∀ (l : List Node) (n : Nat), Node.GoodAll P l → norm (partsCalls o l n) = Val.callsList (partsVal o l n)
  | [], _, _ => rfl
  | t :: l, n, hg => by
    rw [Node.GoodAll] at hg
    rw [partsCalls, partsVal, norm_app, Val.callsList, part_calls o P t n hg.1, parts_calls o P l (n + t.size) hg.2]
end

/-! ## Messages -/

def metaV (version : Int) (m : Msg) : List (Str × Val) :=
  one (bs "id") (str m.id) ++ one (bs "match") (.bool m.isMatch) ++ one (bs "excluded") (.bool m.excluded) ++
  one (bs "filename") (if version ≥ 3 then .list (m.files.map (fun f => str f.name)) else text (m.files.head?.map (·.name))) ++ one (bs "timestamp") (.int m.timestamp) ++
  one (bs "date_relative") (str m.relative) ++ one (bs "tags") (.list (m.tags.map str))

theorem map_str_calls {α : Type} (f : α → Str) : ∀ l : List α, norm (l.map (fun x => .string (some (f x)))) = Val.callsList (l.map (fun x => str (f x)))
  | [] => rfl
  | x :: l => by rw [List.map_cons, n_str, map_str_calls f l, List.map_cons, Val.callsList]; simp [str, text, Val.calls]

theorem meta_calls (version : Int) (m : Msg) : norm (metaCalls version m) = Val.callsObj (metaV version m) := by
  unfold metaCalls metaV
  simp only [norm_app, callsObj_app, one_calls, n_key, n_str, n_bool, n_int, n_list, n_end, n_nil, show cstr (some (bs "id")) = bs "id" by decide +kernel,
    show cstr (some (bs "match")) = bs "match" by decide +kernel, show cstr (some (bs "excluded")) = bs "excluded" by decide +kernel, show cstr (some (bs "filename")) = bs "filename" by decide +kernel,
    show cstr (some (bs "timestamp")) = bs "timestamp" by decide +kernel, show cstr (some (bs "date_relative")) = bs "date_relative" by decide +kernel, show cstr (some (bs "tags")) = bs "tags" by decide +kernel,
    map_str_calls (fun t => t), calls_list]
  by_cases hv : version ≥ 3
  · simp only [if_pos hv, norm_app, n_list, n_end, n_nil, map_str_calls (fun f : File => f.name), calls_list]
    simp [str, text, Val.calls]
    rfl
  · simp only [if_neg hv, n_str, n_nil]
    simp [str, text, Val.calls]
    rfl

def signedVal (version : Int) (c : Crypto) (l : List Sig) : Val :=
  .obj (one (bs "status") (sigStatusVal version (some l)) ++ optV (bs "encrypted") (if c.encrypted then some (.bool true) else none) ++
    optV (bs "headers") (if c.subject.isSome then some (.list [.str (bs "Subject")]) else none))

def maskVal (s : Option Str) : Val := .obj (one (bs "Subject") (match s with | none => .null | some s => str s))

def decryptedVal (h : Headers) (c : Crypto) : Val :=
  .obj (one (bs "status") (.str (if c.status = .full then bs "full" else bs "partial")) ++ optV (bs "header-mask") (if c.subject.isSome ∧ h.subject ≠ c.subject then some (maskVal h.subject) else none))

def cryptoVal (version : Int) (h : Headers) (c : Crypto) : Val :=
  .obj (optV (bs "signed") (c.sigs.map (signedVal version c)) ++ optV (bs "decrypted") (if c.status = .none then none else some (decryptedVal h c)))

theorem signed_calls (version : Int) (c : Crypto) : norm (signedCalls version c) = Val.callsObj (optV (bs "signed") (c.sigs.map (signedVal version c))) := by
  unfold signedCalls
  cases c.sigs with
  | none => rfl
  | some l =>
    rw [Option.map_some, optV_some_calls, signedVal]
    rw [calls_obj, callsObj_app, callsObj_app, one_calls, norm_app, norm_app, norm_app, norm_app, sigStatus_calls]
    simp only [n_key, n_map, n_nil, n_end, show cstr (some (bs "signed")) = bs "signed" by decide +kernel, show cstr (some (bs "status")) = bs "status" by decide +kernel]
    have h1 : norm (if c.encrypted = true then [Call.mapKey (bs "encrypted"), .boolean true] else []) = Val.callsObj (optV (bs "encrypted") (if c.encrypted = true then some (.bool true) else none)) := by
      split <;> rfl
    have h2 : norm (if c.subject.isSome = true then [Call.mapKey (bs "headers"), .beginList, .string (some (bs "Subject")), .endAgg] else []) =
        Val.callsObj (optV (bs "headers") (if c.subject.isSome = true then some (.list [.str (bs "Subject")]) else none)) := by
      split
      · simp only [optV, Val.callsObj, List.append_nil, Val.calls, Val.callsList]; decide +kernel
      · rfl
    rw [h1, h2]
    simp

theorem decrypted_calls (h : Headers) (c : Crypto) : norm (decryptedCalls h c) = Val.callsObj (optV (bs "decrypted") (if c.status = .none then none else some (decryptedVal h c))) := by
  unfold decryptedCalls
  by_cases hc : c.status = .none
  · rw [if_pos hc, if_pos hc]; rfl
  · rw [if_neg hc, if_neg hc]
    rw [optV_some_calls, decryptedVal]
    rw [calls_obj, callsObj_app, one_calls, norm_app, norm_app]
    have h2 : norm (if c.subject.isSome = true ∧ h.subject ≠ c.subject then [Call.mapKey (bs "header-mask"), .beginMap, .mapKey (bs "Subject"), if h.subject.isSome then .string h.subject else .null, .endAgg] else []) =
        Val.callsObj (optV (bs "header-mask") (if c.subject.isSome = true ∧ h.subject ≠ c.subject then some (maskVal h.subject) else none)) := by
      by_cases hx : c.subject.isSome = true ∧ h.subject ≠ c.subject
      · rw [if_pos hx, if_pos hx]
        simp only [optV, Val.callsObj, List.append_nil, maskVal, calls_obj, one_calls]
        rw [n_key, n_map, n_key, show cstr (some (bs "header-mask")) = bs "header-mask" by decide +kernel, show cstr (some (bs "Subject")) = bs "Subject" by decide +kernel]
        cases h.subject with
        | none => rfl
        | some s => rfl
      · rw [if_neg hx, if_neg hx]; rfl
    rw [h2]
    have hs : cstr (some (if c.status = .full then bs "full" else bs "partial")) = if c.status = .full then bs "full" else bs "partial" := by split <;> decide +kernel
    rw [n_key, n_map, n_key, n_str, n_nil, hs, show cstr (some (bs "decrypted")) = bs "decrypted" by decide +kernel, show cstr (some (bs "status")) = bs "status" by decide +kernel]
    simp [Val.calls, n_end, n_nil]

def cryptoV (version : Int) (h : Headers) (c : Crypto) : List (Str × Val) := if version ≥ 4 then one (bs "crypto") (cryptoVal version h c) else []

theorem crypto_calls (version : Int) (h : Headers) (c : Crypto) : norm (cryptoCalls version h c) = Val.callsObj (cryptoV version h c) := by
  unfold cryptoCalls cryptoV
  by_cases hv : version ≥ 4
  · rw [if_pos hv, if_pos hv, norm_app, norm_app, norm_app, signed_calls, decrypted_calls, one_calls, cryptoVal, calls_obj, callsObj_app, n_key, n_map, n_nil, n_end, n_nil,
      show cstr (some (bs "crypto")) = bs "crypto" by decide +kernel]
    simp
  · rw [if_neg hv, if_neg hv]; rfl

def messageVal (o : Opts) (m : Msg) (r : Root) : Val :=
  .obj (metaV o.version m ++ one (bs "duplicate") (.int (if o.duplicate > 0 then o.duplicate else 1)) ++ optV (bs "body") (if o.body then some (.list [partVal o r.body 1]) else none) ++
    cryptoV o.version r.headers r.crypto ++ one (bs "headers") (.obj (headersV o.extra r.headers false r.crypto.subject)))

theorem message_calls (o : Opts) (P : Headers → Prop) (m : Msg) (r : Root) (hg : r.Good P) : norm (messageCalls o m r) = (messageVal o m r).calls := by
  unfold messageCalls messageVal
  have hb : norm (if o.body = true then [Call.mapKey (bs "body"), .beginList] ++ partCalls o r.body 1 ++ [.endAgg] else []) = Val.callsObj (optV (bs "body") (if o.body = true then some (.list [partVal o r.body 1]) else none)) := by
    by_cases hx : o.body = true
    · rw [if_pos hx, if_pos hx, norm_app, norm_app, part_calls o P _ _ hg.2]
      simp only [optV, Val.callsObj, Val.calls, Val.callsList, n_key, n_list, n_nil, n_end, show cstr (some (bs "body")) = bs "body" by decide +kernel]
      simp
    · rw [if_neg hx, if_neg hx]; rfl
  rw [norm_app, norm_app, norm_app, norm_app, norm_app, norm_app, norm_app, hb, meta_calls, crypto_calls, headers_calls, calls_obj (_ ++ _), callsObj_app, callsObj_app, callsObj_app, callsObj_app, one_calls, one_calls]
  simp only [n_key, n_int, n_map, n_end, n_nil, show cstr (some (bs "duplicate")) = bs "duplicate" by decide +kernel, show cstr (some (bs "headers")) = bs "headers" by decide +kernel, Val.calls]
  simp

def replyVal (o : Opts) (reply : Headers) (m : Msg) (r : Root) : Val :=
  .obj [(bs "reply-headers", .obj (headersV o.extra reply true none)), (bs "original", messageVal { o with body := true, html := false } m r)]

theorem reply_calls (o : Opts) (P : Headers → Prop) (reply : Headers) (m : Msg) (r : Root) (hg : r.Good P) : norm (replyCalls o reply m r) = (replyVal o reply m r).calls := by
  unfold replyCalls replyVal
  rw [norm_app, norm_app, norm_app, norm_app, headers_calls, message_calls _ P m r hg]
  simp only [n_key, n_map, n_nil, n_end, show cstr (some (bs "reply-headers")) = bs "reply-headers" by decide +kernel, show cstr (some (bs "original")) = bs "original" by decide +kernel]
  rw [calls_obj [_, _]]
  simp only [Val.callsObj]
  simp

end Notmuch.Show
