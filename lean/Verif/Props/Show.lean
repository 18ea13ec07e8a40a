import Verif.Proofs.ShowPart
import Verif.Props.Sprinter

/-! # C55: notmuch show -/

namespace Notmuch.Props

open Notmuch.Show Notmuch.Sprinter

/-! ## Examples -/

def showInfo : Info := ⟨bs "text", bs "plain", none, none, none, none⟩

def showHeaders : Headers := ⟨some (bs "Lunch"), some (bs "a@x"), some (bs "b@x"), none, none, none, bs "Mon, 1 Jan 2024 10:00:00 +0000", none, none, [(bs "X-List", some (bs "food"))]⟩

/-- Text, and a signed part with an HTML attachment in a message. -/
def showBody : Node :=
  .multipart ⟨bs "multipart", bs "signed", none, some (some [⟨3, some ⟨some (bs "ABCDEF0123456789ABCDEF"), some (bs "A <a@x>"), some (bs "a@x"), true⟩, 1700000000, 0⟩]), none, none⟩
    [.part showInfo none (bs "See you.\n") (some (bs "utf-8")) none 9 [],
      .message ⟨bs "message", bs "rfc822", none, none, some (bs "attachment"), none⟩ showHeaders
        [.part ⟨bs "text", bs "html", none, none, none, none⟩ (some (bs "a.html")) (bs "<p>") none none 3 []]]

def showRoot : Root := ⟨showHeaders, ⟨none, false, none, .none⟩, showBody⟩

/-- Its first file is gone. -/
def showMsg1 : Msg := ⟨bs "one@x", true, false, [⟨bs "/m/gone", none, none⟩, ⟨bs "/m/1", some (bs "Subject: Lunch\n"), some showRoot⟩], 1704103200, bs "Today 10:00", [bs "inbox", bs "unread"], bs "a"⟩

def showMsg2 : Msg := ⟨bs "two@x", false, false, [⟨bs "/m/2", some (bs "Subject: Lunch\n"), some showRoot⟩], 1704103260, bs "Today 10:01", [], bs "b"⟩

def showMsgGone : Msg := ⟨bs "three@x", true, false, [⟨bs "/m/3", none, none⟩], 1704103260, bs "Today 10:01", [], bs "c"⟩

def showParams : Params := ⟨⟨5, [bs "x-list"], false, true, 0⟩, false, true, -1, 0, -1⟩

def showThread : List Tree := [.node showMsg2 [.node showMsg1 []]]

private theorem show_names : NamesOk [bs "x-list"] showHeaders := by
  refine ⟨?_, ?_⟩
  · decide +kernel
  · have : [bs "x-list"].filterMap showHeaders.find = [(bs "X-List", some (bs "food"))] := by decide +kernel
    rw [this]
    intro x hx
    rw [List.mem_singleton] at hx
    subst hx
    decide +kernel

private theorem show_lisp : LispNames [bs "x-list"] showHeaders := by
  have : [bs "x-list"].filterMap showHeaders.find = [(bs "X-List", some (bs "food"))] := by decide +kernel
  unfold LispNames
  rw [this]
  intro x hx
  rw [List.mem_singleton] at hx
  subst hx
  show ∀ c ∈ cstr (some (bs "X-List")), isAlnum c = true ∨ c = 45 ∨ c = 95
  decide +kernel

private theorem show_good (P : Headers → Prop) (h : P showHeaders) : showRoot.Good P := by
  refine ⟨h, ?_⟩
  show showBody.Good P
  unfold showBody
  simp [Node.Good, Node.GoodAll, h]

private theorem show_readable (P : Headers → Prop) (h : P showHeaders) : Readable P 0 showMsg1 :=
  ⟨_, showRoot, .first (before := [⟨bs "/m/gone", none, none⟩]) (after := []) (by omega) (by simp) (by simp), rfl, show_good P h⟩

private theorem show_shown : ∀ m ∈ Tree.msgsList showThread, shown showParams m = true → m = showMsg1 := by
  intro m hm hs
  simp [showThread, Tree.msgsList, Tree.msgs] at hm
  rcases hm with rfl | rfl
  · have : shown showParams showMsg2 = false := by decide +kernel
    rw [this] at hs; simp at hs
  · rfl

/-! ## Threads -/

/-- **C55.** A message is shown when it matches, unless it is excluded and such messages are not wanted; and all are shown when whole threads are wanted. -/
theorem C55_shown (p : Params) (m : Msg) : shown p m = true ↔ p.entire = true ∨ (m.isMatch = true ∧ (m.excluded = true → p.omitExcluded = false)) := by
  unfold shown
  cases m.isMatch <;> cases m.excluded <;> cases p.omitExcluded <;> cases p.entire <;> simp

/-- **C55.** The output of `notmuch show --format=json`: for any threads, offset and limit, of which the messages that are shown can be read: it is a JSON text for the list of the threads in
the window, each the list of its toplevel messages with their replies, with null for those that are not shown; it fits the schema, and every message says what there is to say about the file
that was opened. -/
theorem C55_json (p : Params) (hv : 4 ≤ p.opts.version) (hp : p.part ≤ 0) (threads : List (List Tree))
    (h : ∀ t ∈ Window p.offset p.limit threads, ∀ m ∈ Tree.msgsList t, shown p m = true → Readable (NamesOk p.opts.extra) p.opts.duplicate m) :
    ∃ (st : St) (msg : Msg → Val) (v : Val), Json.run start (calls (showThreaded .structured p threads.length threads).1) = some st ∧ IsJson st.out v ∧
      v = .list ((Window p.offset p.limit threads).map (fun t => .list (treeVals p msg t))) ∧ IsThreadSet v ∧
      (∀ t ∈ Window p.offset p.limit threads, ∀ m ∈ Tree.msgsList t, shown p m = true →
        IsMessage (msg m) ∧ ∃ f r, Chosen p.opts.duplicate m.files f ∧ f.root = some r ∧ MessageSays p.opts m r (msg m)) ∧
      (showThreaded .structured p threads.length threads).2 = false := by
  obtain ⟨hc, he⟩ := threaded_calls hp threads h
  obtain ⟨st, h1, _, h3⟩ := C40_json _ _ hc
  have hm : ∀ t ∈ Window p.offset p.limit threads, ∀ m ∈ Tree.msgsList t, shown p m = true →
        IsMessage (msgVal p.opts m) ∧ ∃ f r, Chosen p.opts.duplicate m.files f ∧ f.root = some r ∧ MessageSays p.opts m r (msgVal p.opts m) := by
    intro t ht m hm hs
    obtain ⟨f, r, hc, hr, hg, e⟩ := msgVal_eq (h t ht m hm hs)
    rw [e]
    exact ⟨message_ok hv m hg, f, r, hc, hr, message_says hv m hg⟩
  refine ⟨st, msgVal p.opts, _, h1, h3, rfl, ?_, hm, he⟩
  refine ⟨_, rfl, ?_⟩
  intro x hx
  obtain ⟨t, ht, rfl⟩ := List.mem_map.1 hx
  exact ⟨_, rfl, trees_ok t (fun m hm' hs => (hm t ht m hm' hs).1)⟩

example : ∀ t ∈ Window showParams.offset showParams.limit [showThread], ∀ m ∈ Tree.msgsList t, shown showParams m = true → Readable (NamesOk showParams.opts.extra) showParams.opts.duplicate m := by
  intro t ht m hm hs
  have : Window showParams.offset showParams.limit [showThread] = [showThread] := rfl
  rw [this, List.mem_singleton] at ht
  subst ht
  rw [show_shown m hm hs]
  exact show_readable _ show_names

/-- **C55.** The same for S-expressions, when the names of the extra headers are made of letters, digits, `-` and `_`. -/
theorem C55_sexp (p : Params) (hv : 4 ≤ p.opts.version) (hp : p.part ≤ 0) (threads : List (List Tree))
    (h : ∀ t ∈ Window p.offset p.limit threads, ∀ m ∈ Tree.msgsList t, shown p m = true → Readable (fun x => NamesOk p.opts.extra x ∧ LispNames p.opts.extra x) p.opts.duplicate m) :
    ∃ (st : St) (msg : Msg → Val) (v : Val), Sexp.run start (calls (showThreaded .structured p threads.length threads).1) = some st ∧ IsLisp st.out v.lisp ∧
      v = .list ((Window p.offset p.limit threads).map (fun t => .list (treeVals p msg t))) ∧ IsThreadSet v ∧
      (∀ t ∈ Window p.offset p.limit threads, ∀ m ∈ Tree.msgsList t, shown p m = true →
        IsMessage (msg m) ∧ ∃ f r, Chosen p.opts.duplicate m.files f ∧ f.root = some r ∧ MessageSays p.opts m r (msg m)) ∧
      (showThreaded .structured p threads.length threads).2 = false := by
  obtain ⟨hc, he⟩ := threaded_calls hp threads h
  have hm : ∀ t ∈ Window p.offset p.limit threads, ∀ m ∈ Tree.msgsList t, shown p m = true →
        (msgVal p.opts m).KeysOk ∧ IsMessage (msgVal p.opts m) ∧ ∃ f r, Chosen p.opts.duplicate m.files f ∧ f.root = some r ∧ MessageSays p.opts m r (msgVal p.opts m) := by
    intro t ht m hm hs
    obtain ⟨f, r, hc, hr, hg, e⟩ := msgVal_eq (h t ht m hm hs)
    rw [e]
    have h1 : r.Good (NamesOk p.opts.extra) := root_mono (fun x hx => hx.1) hg
    have h2 : r.Good (LispNames p.opts.extra) := root_mono (fun x hx => hx.2) hg
    exact ⟨message_keys m h2, message_ok hv m h1, f, r, hc, hr, message_says hv m h1⟩
  have hk : (Val.list ((Window p.offset p.limit threads).map (fun t => .list (treeVals p (msgVal p.opts) t)))).KeysOk := by
    refine klist ?_
    intro x hx
    obtain ⟨t, ht, rfl⟩ := List.mem_map.1 hx
    exact klist (trees_keys t (fun m hm' hs => (hm t ht m hm' hs).1))
  obtain ⟨st, h1, _, h3⟩ := C40_sexp _ hk _ hc
  refine ⟨st, msgVal p.opts, _, h1, h3, rfl, ?_, fun t ht m hm' hs => (hm t ht m hm' hs).2, he⟩
  refine ⟨_, rfl, ?_⟩
  intro x hx
  obtain ⟨t, ht, rfl⟩ := List.mem_map.1 hx
  exact ⟨_, rfl, trees_ok t (fun m hm' hs => (hm t ht m hm' hs).2.1)⟩

example : Readable (fun x => NamesOk showParams.opts.extra x ∧ LispNames showParams.opts.extra x) showParams.opts.duplicate showMsg1 := show_readable _ ⟨show_names, show_lisp⟩

/-- **C55.** The command fails just when a message that is to be shown cannot be opened or parsed, in JSON, S-expressions and text; the rest is shown. -/
theorem C55_failure (fm : Format) (hf : fm = .structured ∨ fm = .text) (p : Params) (threads : List (List Tree)) :
    (showThreaded fm p threads.length threads).2 = true ↔ ∃ t ∈ Window p.offset p.limit threads, ∃ m ∈ Tree.msgsList t, shown p m = true ∧ ¬CanOpen p.opts.duplicate m := by
  unfold showThreaded
  simp only []
  rw [window_spec, all_fail]
  constructor
  · rintro ⟨t, ht, h⟩
    exact ⟨t, ht, (trees_fail hf p t 0).1 h⟩
  · rintro ⟨t, ht, h⟩
    exact ⟨t, ht, (trees_fail hf p t 0).2 h⟩

example : ∃ t ∈ Window showParams.offset showParams.limit [[Tree.node showMsgGone []]], ∃ m ∈ Tree.msgsList t, shown showParams m = true ∧ ¬CanOpen showParams.opts.duplicate m := by
  refine ⟨_, List.mem_singleton.2 rfl, showMsgGone, by simp [Tree.msgsList, Tree.msgs], by decide +kernel, ?_⟩
  rintro ⟨f, r, hc, _⟩
  rw [← open_iff] at hc
  simp [showMsgGone, openFile, openSlow, showParams] at hc

/-- **C55.** The text format: the messages that are shown, one after the other, each with the number of messages above it that are shown.  Every one is a block that begins with its ID, its
depth and its flags, and ends with `message}`. -/
theorem C55_text (p : Params) (hp : p.part ≤ 0) (threads : List (List Tree)) (P : Headers → Prop)
    (h : ∀ t ∈ Window p.offset p.limit threads, ∀ m ∈ Tree.msgsList t, shown p m = true → Readable P p.opts.duplicate m) :
    ∃ block : Msg × Nat → Str,
      bytes (showThreaded .text p threads.length threads).1 = (Window p.offset p.limit threads).flatMap (fun t => (depths p 0 t).flatMap block) ∧
      (∀ m d, CanOpen p.opts.duplicate m → ∃ rest, block (m, d) = 12 :: bs "message{ id:" ++ m.id ++ bs " depth:" ++ dec d ++ bs " match:" ++ (if m.isMatch then bs "1" else bs "0") ++ bs " excluded:" ++
        (if m.excluded then bs "1" else bs "0") ++ bs " filename:" ++ rest ++ 12 :: bs "message}\n") ∧
      (showThreaded .text p threads.length threads).2 = false := by
  obtain ⟨a, b⟩ := threaded_text hp threads h
  refine ⟨msgText p.opts, a, ?_, b⟩
  intro m d ho
  unfold msgText
  simp only []
  cases hr : openRoot p.opts.duplicate m.files with
  | none => exact absurd ho ((openRoot_none _ _).1 hr)
  | some r =>
    simp only [textMessage]
    refine ⟨fmt (m.files.head?.map (·.name)) ++ [10] ++ textHeaders (summary m ++ [10]) r.headers ++
      (if p.opts.body then 12 :: bs "body{\n" ++ textPart p.opts r.body 1 ++ 12 :: bs "body}\n" else []), ?_⟩
    simp only [flag, List.append_assoc, List.cons_append]

example : depths showParams 0 showThread = [(showMsg1, 0)] ∧ depths { showParams with entire := true } 0 showThread = [(showMsg2, 0), (showMsg1, 1)] := by
  have h1 : shown showParams showMsg2 = false := by decide +kernel
  have h2 : shown showParams showMsg1 = true := by decide +kernel
  have h3 : shown { showParams with entire := true } showMsg2 = true := by decide +kernel
  have h4 : shown { showParams with entire := true } showMsg1 = true := by decide +kernel
  constructor <;> simp [showThread, depths, h1, h2, h3, h4]

/-! ## One message -/

/-- In text format, too, every part has its number, its type and its content: the text if it is text (of HTML only on request), and else a line that says what it is. -/
theorem C55_text_parts (o : Opts) (hb : o.body = true) (depth : Nat) (m : Msg) (r : Root) (k : Nat) (i : Info) (filename : Option Str) (text : Str) (charset cte : Option Str) (length : Int)
    (kids : List Node) (h : r.body.nodes[k]? = some (.part i filename text charset cte length kids)) :
    ∃ pre kind name content post, textMessage o depth m r = pre ++ (12 :: (kind ++ bs "{ ID: " ++ dec (k + 1)) ++ name ++ bs ", Content-type: " ++ (i.type ++ bs "/" ++ i.subtype) ++ bs "\n" ++ content) ++ post ∧
      (kind = bs "part" ∧ (∀ d, i.disposition = some d → d.map toLower ≠ bs "attachment") ∨ kind = bs "attachment" ∧ ∃ d, i.disposition = some d ∧ d.map toLower = bs "attachment") ∧
      ShownText o.html i text content := by
  obtain ⟨pre, post, e⟩ := text_inside hb r.body 1 k _ h
  have hs : ShownText o.html i text (if i.showText o.html then text else bs "Non-text part: " ++ i.mimeType ++ [10]) := by
    have ht : (bs "text").map toLower = bs "text" := by decide +kernel
    have hh : (bs "html").map toLower = bs "html" := by decide +kernel
    unfold ShownText Info.showText Info.isHtml Info.isText sameName
    rw [ht, hh]
    constructor
    · rintro ⟨a, b⟩
      rw [if_pos]
      simp only [a, BEq.rfl, Bool.true_and, Bool.or_eq_true, Bool.not_eq_true', beq_eq_false_iff_ne]
      exact b
    · intro k
      rw [if_neg]
      · rfl
      · intro w
        simp only [Bool.and_eq_true, beq_iff_eq, Bool.or_eq_true, Bool.not_eq_true', Bool.and_eq_false_iff, beq_eq_false_iff_ne] at w
        apply k
        refine ⟨w.1, ?_⟩
        rcases w.2 with x | x | x
        · exact .inl x
        · exact absurd w.1 x
        · exact .inr x
  have hat : (bs "attachment").map toLower = bs "attachment" := by decide +kernel
  have hp : partType i = bs "part" ∧ (∀ d, i.disposition = some d → d.map toLower ≠ bs "attachment") ∨ partType i = bs "attachment" ∧ ∃ d, i.disposition = some d ∧ d.map toLower = bs "attachment" := by
    unfold partType
    cases i.disposition with
    | none => left; exact ⟨rfl, by intro d hd; cases hd⟩
    | some d =>
      simp only [Option.map_some, Option.getD_some, sameName, hat, beq_iff_eq, Option.some.injEq]
      by_cases w : bs "attachment" = d.map toLower
      · rw [if_pos w]; right; exact ⟨rfl, d, rfl, w.symm⟩
      · rw [if_neg w]; left; exact ⟨rfl, by rintro d' rfl x; exact w x.symm⟩
  obtain ⟨name, hname⟩ : ∃ name, textBegin i (k + 1) filename = 12 :: (partType i ++ bs "{ ID: " ++ dec (k + 1)) ++ name ++ bs ", Content-type: " ++ (i.type ++ bs "/" ++ i.subtype) ++ bs "\n" := by
    unfold textBegin Info.mimeType
    rw [show (bs "/") = [47] from rfl, show (bs "\n") = [10] from rfl]
    cases filename with
    | none =>
      cases i.cid with
      | none => exact ⟨[], by simp only [List.append_assoc, List.cons_append, List.nil_append]⟩
      | some c => exact ⟨bs ", Content-id: " ++ c, by simp only [List.append_assoc, List.cons_append, List.nil_append]⟩
    | some f =>
      cases i.cid with
      | none => exact ⟨bs ", Filename: " ++ f, by simp only [List.append_assoc, List.cons_append, List.nil_append]⟩
      | some c => exact ⟨bs ", Filename: " ++ f ++ (bs ", Content-id: " ++ c), by simp only [List.append_assoc, List.cons_append, List.nil_append]⟩
  rw [textPart, show 1 + k = k + 1 by omega, hname] at e
  have assoc : ∀ p x y z w v q : Str, p ++ (x ++ y ++ z ++ w ++ v) ++ q = p ++ (x ++ y) ++ (z ++ w ++ v ++ q) := by
    intros; simp only [List.append_assoc]
  rw [assoc] at e
  obtain ⟨A, B, hAB⟩ : ∃ A B, textMessage o depth m r = A ++ textPart o r.body 1 ++ B := by
    unfold textMessage
    rw [if_pos hb]
    have assoc' : ∀ A B C D E F : Str, A ++ B ++ (C ++ D ++ E) ++ F = (A ++ B ++ C) ++ D ++ (E ++ F) := by intros; simp only [List.append_assoc]
    exact ⟨_, _, assoc' _ _ _ _ _ _⟩
  have assoc2 : ∀ A p x q B : Str, A ++ (p ++ x ++ q) ++ B = (A ++ p) ++ x ++ (q ++ B) := by intros; simp only [List.append_assoc]
  rw [e, assoc2] at hAB
  exact ⟨_, partType i, name, _, _, hAB, hp, hs⟩

example : showRoot.body.nodes[1]? = some (.part showInfo none (bs "See you.\n") (some (bs "utf-8")) none 9 []) := rfl


/-- **C55.** One message as JSON (`--part=0` or `--duplicate=n`): the message and nothing else, from the file that is asked for. -/
theorem C55_single (p : Params) (hv : 4 ≤ p.opts.version) (hp : p.part ≤ 0) (m : Msg) (h : Readable (NamesOk p.opts.extra) p.opts.duplicate m) :
    ∃ st v f r, Json.run start (calls (showSingle .structured p [m]).1) = some st ∧ IsJson st.out v ∧ IsMessage v ∧ Chosen p.opts.duplicate m.files f ∧ f.root = some r ∧
      MessageSays p.opts { m with isMatch := true } r v ∧ (showSingle .structured p [m]).2 = false := by
  obtain ⟨hc, he⟩ := showMessage_calls (m := { m with isMatch := true }) hp 0 h
  obtain ⟨st, h1, _, h3⟩ := C40_json _ _ hc
  obtain ⟨f, r, hc, hr, hg, e⟩ := msgVal_eq (o := p.opts) (m := { m with isMatch := true }) h
  refine ⟨st, _, f, r, h1, h3, ?_, hc, hr, ?_, he⟩
  · rw [e]; exact message_ok hv _ hg
  · rw [e]; exact message_says hv _ hg

example : Readable (NamesOk [bs "x-list"]) 2 showMsg1 :=
  ⟨_, showRoot, .this (before := [⟨bs "/m/gone", none, none⟩]) (after := []) (by rfl) (by simp), rfl, show_good _ show_names⟩

/-- **C55.** Nothing but a single message can be shown so. -/
theorem C55_single_only (fm : Format) (p : Params) (found : List Msg) (h : found.length ≠ 1) : showSingle fm p found = ([], true) := by
  unfold showSingle
  split
  · simp at h
  · rfl

example : ([] : List Msg).length ≠ 1 := by decide

/-- **C55.** A part of a message as JSON (`--part=n`): the part with number `n`, as it stands in the message when all of it is shown (with its body). -/
theorem C55_part (p : Params) (hv : 4 ≤ p.opts.version) (n : Nat) (hn : 1 ≤ n) (hp : p.part = n) (hb : p.opts.body = true) (m : Msg) (f : File) (r : Root)
    (hc : Chosen p.opts.duplicate m.files f) (hr : f.root = some r) (hg : r.Good (NamesOk p.opts.extra)) (hs : n ≤ r.body.nodes.length) :
    ∃ st v st' w, Json.run start (calls (showSingle .structured p [m]).1) = some st ∧ IsJson st.out v ∧ IsPart v ∧ get v (bs "id") = some (.int n) ∧
      (∃ u, r.body.nodes[n - 1]? = some u ∧ PartSays p.opts.html u n v) ∧ (showSingle .structured p [m]).2 = false ∧
      Json.run start (calls (showSingle .structured { p with part := 0 } [m]).1) = some st' ∧ IsJson st'.out w ∧ Inside w v := by
  have ho : openRoot p.opts.duplicate m.files = some r := by rw [openRoot, (open_iff _ _ _).2 hc]; exact hr
  obtain ⟨u, hu⟩ : ∃ u, r.body.nodes[n - 1]? = some u := by
    rw [List.getElem?_eq_getElem (by omega)]; exact ⟨_, rfl⟩
  have hgu : u.Good (NamesOk p.opts.extra) := good_node _ u hg.2 (List.mem_of_getElem? hu)
  have hs1 : showSingle .structured p [m] = ((partCalls p.opts u n).map .call, false) := by
    unfold showSingle showMessage seek
    simp only []
    rw [ho]
    simp only []
    rw [if_neg (by omega), show (p.part - 1).toNat = n - 1 by omega, hu]
    simp only [Option.map_some, formatPart]
    rw [show p.part.toNat = n by omega]
  have hk : norm (calls (showSingle .structured p [m]).1) = (partVal p.opts u n).calls := by
    rw [hs1, calls_map, part_calls _ _ u n hgu]
  obtain ⟨st, h1, _, h3⟩ := C40_json _ _ hk
  obtain ⟨hc', _⟩ := showMessage_calls (P := NamesOk p.opts.extra) (p := { p with part := 0 }) (m := { m with isMatch := true }) (by simp) 0 ⟨f, r, hc, hr, hg⟩
  obtain ⟨st', h1', _, h3'⟩ := C40_json _ _ hc'
  refine ⟨st, _, st', _, h1, h3, part_ok hv u n hgu, ?_, ⟨u, hu, part_says hv u n hgu⟩, by rw [hs1], h1', h3', ?_⟩
  · have := part_says hv u n hgu
    cases this with
    | text h => exact h.id
    | omitted h => exact h.id
    | wrapped h => exact h.id
    | multipart h => exact h.id
    | message h => exact h.id
  · have hi := part_inside (o := p.opts) r.body 1 (n - 1) u hg.2 hu
    rw [show 1 + (n - 1) = n by omega] at hi
    show Inside (msgVal p.opts { m with isMatch := true }) _
    unfold msgVal
    simp only []
    rw [ho]
    simp only [messageVal]
    refine .member (k := bs "body") (x := .list [partVal p.opts r.body 1]) ?_ (.element (List.mem_singleton.2 rfl) hi)
    rw [hb]
    simp [optV]

example : 4 ≤ showRoot.body.nodes.length := by decide +kernel

/-- **C55.** A part that the message does not have: nothing is printed, and that is no error. -/
theorem C55_part_none (fm : Format) (p : Params) (m : Msg) (f : File) (r : Root) (hc : Chosen p.opts.duplicate m.files f) (hr : f.root = some r) (h : (r.body.nodes.length : Int) < p.part) :
    showSingle fm p [m] = ([], false) := by
  have ho : openRoot p.opts.duplicate m.files = some r := by rw [openRoot, (open_iff _ _ _).2 hc]; exact hr
  unfold showSingle showMessage seek
  simp only []
  rw [ho]
  simp only []
  rw [if_neg (by omega), List.getElem?_eq_none (by omega)]
  rfl

example : (showRoot.body.nodes.length : Int) < 5 := by decide +kernel

/-- **C55.** The raw message is the bytes of the file that is shown, if that is the first one or the one that is asked for. -/
theorem C55_raw (p : Params) (hp : p.part ≤ 0) (m : Msg) (f : File) (b : Str) (hc : Chosen p.opts.duplicate m.files f) (hr : f.root ≠ none) (hb : f.bytes = some b)
    (h1 : p.opts.duplicate ≤ 0 → m.files.head? = some f) : bytes (showSingle .raw p [m]).1 = b ∧ (showSingle .raw p [m]).2 = false := by
  obtain ⟨r, hr⟩ := Option.ne_none_iff_exists'.1 hr
  have ho : openRoot p.opts.duplicate m.files = some r := by rw [openRoot, (open_iff _ _ _).2 hc]; exact hr
  have hf : getFile p.opts.duplicate m.files 1 = some f := by
    by_cases hd : p.opts.duplicate ≤ 0
    · have := h1 hd
      cases hm : m.files with
      | nil => rw [hm] at this; simp at this
      | cons g l =>
        rw [hm] at this
        simp at this
        rw [getFile, if_pos (by omega), this]
    · have hg : ∀ (l : List File) (i : Int), i ≤ p.opts.duplicate → getFile p.opts.duplicate l i = l[(p.opts.duplicate - i).toNat]? := by
        intro l
        induction l with
        | nil => intro i _; simp [getFile]
        | cons g l ih =>
          intro i hi
          rw [getFile]
          by_cases he : i ≥ p.opts.duplicate
          · rw [if_pos he, show (p.opts.duplicate - i).toNat = 0 by omega]; rfl
          · rw [if_neg he, ih _ (by omega), show (p.opts.duplicate - i).toNat = (p.opts.duplicate - (i + 1)).toNat + 1 by omega, List.getElem?_cons_succ]
      rw [hg _ _ (by omega)]
      generalize m.files = fs at hc
      cases hc with
      | first h => omega
      | @this _ before after h _ =>
        rw [show (p.opts.duplicate - 1).toNat = before.length by omega]
        simp
  unfold showSingle showMessage seek
  simp only []
  rw [ho]
  simp only [hp, if_true, formatPart]
  rw [hf]
  simp only [Option.bind_some, hb, bytes, List.append_nil]
  exact ⟨trivial, trivial⟩

example : bytes (showSingle .raw { showParams with opts := { showParams.opts with duplicate := 2 } } [showMsg1]).1 = bs "Subject: Lunch\n" :=
  (C55_raw _ (by decide) showMsg1 ⟨bs "/m/1", some (bs "Subject: Lunch\n"), some showRoot⟩ _ (.this (before := [⟨bs "/m/gone", none, none⟩]) (after := []) (by rfl) (by simp)) (by simp) rfl
    (by intro h; exact absurd h (by decide))).1

/-- **C55.** The file that is opened: the first that can be opened, or the one that is asked for, if that can be opened. -/
theorem C55_file (d : Int) (files : List File) (f : File) : openFile d files = some f ↔ Chosen d files f := open_iff d files f

/-! ## Without threads -/

/-- **C55.** The JSON output of `--unthreaded`: every message is alone, as `[[message]]`. -/
theorem C55_unthreaded (p : Params) (hv : 4 ≤ p.opts.version) (hp : p.part ≤ 0) (found : List Msg)
    (h : ∀ m ∈ Window p.offset p.limit found, (m.excluded = false ∨ p.omitExcluded = false) → Readable (NamesOk p.opts.extra) p.opts.duplicate m) :
    ∃ (st : St) (msg : Msg → Val), Json.run start (calls (showUnthreaded .structured p found.length found).1) = some st ∧
      IsJson st.out (.list ((Window p.offset p.limit found).map (fun m => .list [.list [if m.excluded = true ∧ p.omitExcluded = true then .null else msg m]]))) ∧
      (∀ m ∈ Window p.offset p.limit found, (m.excluded = false ∨ p.omitExcluded = false) →
        IsMessage (msg m) ∧ ∃ f r, Chosen p.opts.duplicate m.files f ∧ f.root = some r ∧ MessageSays p.opts { m with isMatch := true } r (msg m)) ∧
      (showUnthreaded .structured p found.length found).2 = false := by
  have b := all_calls (showAlone .structured p)
    (fun m => Val.list [.list [if m.excluded = true ∧ p.omitExcluded = true then .null else msgVal p.opts { m with isMatch := true }]]) _ (fun m hm => alone_calls hp (h m hm))
  have hc : norm (calls (showUnthreaded .structured p found.length found).1) = (Val.list ((Window p.offset p.limit found).map
      (fun m => .list [.list [if m.excluded = true ∧ p.omitExcluded = true then .null else msgVal p.opts { m with isMatch := true }]]))).calls := by
    unfold showUnthreaded
    simp only []
    rw [window_spec]
    simp only [calls_app, norm_app, b.1]
    rw [calls_list]
    simp [calls, n_list, n_end, n_nil]
  obtain ⟨st, h1, _, h3⟩ := C40_json _ _ hc
  refine ⟨st, fun m => msgVal p.opts { m with isMatch := true }, h1, h3, ?_, ?_⟩
  · intro m hm hx
    obtain ⟨f, r, hc, hr, hg, e⟩ := msgVal_eq (o := p.opts) (m := { m with isMatch := true }) (h m hm hx)
    simp only [e]
    exact ⟨message_ok hv _ hg, f, r, hc, hr, message_says hv _ hg⟩
  · unfold showUnthreaded
    simp only []
    rw [window_spec]
    exact b.2

example : Window showParams.offset showParams.limit [showMsg1] = [showMsg1] := rfl

/-- **C55** (false of the code). devel/schemata has a list of replies in every thread node; without threads there is none, so that any output with a message does not fit the schema. -/
theorem C55_unthreaded_no_replies (l : List Val) (v : Val) : ¬IsThreadSet (.list (.list [.list [v]] :: l)) := by
  rintro ⟨l', e, h⟩
  cases e
  obtain ⟨l'', e, h⟩ := h (.list [.list [v]]) (by simp)
  cases e
  have := h (.list [v]) (List.mem_singleton.2 rfl)
  cases this

/-! ## Replies -/

/-- **C55.** The structured output of `notmuch reply` fits the schema for replies, and its original is the message. -/
theorem C55_reply (o : Opts) (hv : 4 ≤ o.version) (reply : Headers) (m : Msg) (r : Root) (hg : r.Good (NamesOk o.extra)) :
    ∃ st v w x, Json.run start (replyCalls o reply m r) = some st ∧ IsJson st.out v ∧ IsReply v ∧ get v (bs "original") = some w ∧ MessageSays { o with body := true, html := false } m r w ∧
      get v (bs "reply-headers") = some x ∧ get x (bs "Subject") = some (text reply.subject) ∧ get x (bs "From") = some (text reply.sender) ∧
      get x (bs "In-reply-to") = some (text reply.inReplyTo) ∧ get x (bs "References") = some (text reply.references) ∧ get x (bs "To") = reply.to.map (fun s => text (some s)) ∧
      get x (bs "Cc") = reply.cc.map (fun s => text (some s)) ∧ get x (bs "Bcc") = reply.bcc.map (fun s => text (some s)) := by
  obtain ⟨st, h1, _, h3⟩ := C40_json _ _ (reply_calls o (NamesOk o.extra) reply m r hg)
  refine ⟨st, _, _, .obj (headersV o.extra reply true none), h1, h3, reply_ok hv reply m hg, ?_, message_says (o := { o with body := true, html := false }) hv m hg, ?_, ?_, ?_, ?_, ?_, ?_, ?_, ?_⟩
  · unfold replyVal Show.get
    simp only [lookup]
    rw [if_neg (by decide +kernel), if_pos trivial]
  · unfold replyVal Show.get
    simp only [lookup]
    rw [if_pos trivial]
  all_goals (unfold Show.get headersV; simp only [if_true]; look)
  · rfl
  · cases reply.to <;> rfl
  · cases reply.cc <;> rfl

example : showRoot.Good (NamesOk showParams.opts.extra) := show_good _ show_names

/-! ## Options -/

/-- **C55.** Which format, and whether one message, threads or single messages are shown. -/
theorem C55_plan (version : Int) (extra : List Str) (c : CmdLine) (fm : Format) (mode : Mode) (p : Params) (h : plan version extra c = some (fm, mode, p)) :
    (c.format = none → fm = if 0 ≤ c.part then .raw else .text) ∧ (∀ g, c.format = some g → fm = g) ∧
    (mode = .single ↔ 0 ≤ c.part ∨ 0 < c.duplicate ∨ fm = .raw) ∧ (mode = .unthreaded ↔ mode ≠ .single ∧ c.unthreaded = true) ∧
    (c.entire = none → (p.entire = true ↔ fm = .structured)) ∧ (∀ b, c.entire = some b → p.entire = b) ∧
    (0 < c.part → p.opts.body = true ∧ fm ≠ .mbox) ∧ (c.part ≤ 0 → p.opts.body = c.body) ∧ p.part = c.part ∧ p.opts.duplicate = c.duplicate ∧ p.offset = c.offset ∧ p.limit = c.limit ∧
    p.opts.html = c.html ∧ p.opts.version = version ∧ p.opts.extra = extra ∧ (mode ≠ .single → p.omitExcluded = c.exclude) := by
  unfold plan at h
  simp only [] at h
  by_cases hm : c.format.getD (if c.part ≥ 0 then .raw else .text) = Format.mbox ∧ c.part > 0
  · rw [if_pos hm] at h; simp at h
  · rw [if_neg hm] at h
    simp only [Option.some.injEq, Prod.mk.injEq] at h
    obtain ⟨rfl, rfl, rfl⟩ := h
    have hsingle : (decide (c.part ≥ 0) || decide (c.duplicate > 0) || decide ((c.format.getD (if c.part ≥ 0 then .raw else .text)) = Format.raw)) = true ↔
        0 ≤ c.part ∨ 0 < c.duplicate ∨ c.format.getD (if c.part ≥ 0 then .raw else .text) = Format.raw := by
      simp [or_assoc]
    refine ⟨?_, ?_, ?_, ?_, ?_, ?_, ?_, ?_, rfl, rfl, rfl, rfl, rfl, rfl, rfl, ?_⟩
    · intro h; simp [h]
    · intro g h; simp [h]
    · by_cases hs : (decide (c.part ≥ 0) || decide (c.duplicate > 0) || decide ((c.format.getD (if c.part ≥ 0 then .raw else .text)) = Format.raw)) = true
      · rw [if_pos hs]; simp only [true_iff]; exact hsingle.1 hs
      · rw [if_neg hs]
        constructor
        · intro h; split at h <;> simp at h
        · intro h; exact absurd (hsingle.2 h) hs
    · by_cases hs : (decide (c.part ≥ 0) || decide (c.duplicate > 0) || decide ((c.format.getD (if c.part ≥ 0 then .raw else .text)) = Format.raw)) = true
      · rw [if_pos hs]; simp
      · rw [if_neg hs]; cases c.unthreaded <;> simp
    · intro h; simp [h]
    · intro b h; simp [h]
    · intro h
      refine ⟨by simp [h], ?_⟩
      intro he
      exact hm ⟨he, h⟩
    · intro h
      simp only []
      rw [show decide (c.part > 0) = false by simp; omega, Bool.or_false]
    · intro hx
      simp only []
      by_cases hs : (decide (c.part ≥ 0) || decide (c.duplicate > 0) || decide ((c.format.getD (if c.part ≥ 0 then .raw else .text)) = Format.raw)) = true
      · rw [if_pos hs] at hx; exact absurd rfl hx
      · rw [if_neg hs]

example : plan 5 [] ⟨some .structured, none, true, false, -1, 0, true, false, -1, 0⟩ = some (.structured, .threaded, ⟨⟨5, [], false, true, 0⟩, true, true, -1, 0, -1⟩) := rfl

/-! ## What the code does not do -/

/-- **C55** (why `NamesOk`). With `show.extra_headers=Subject`, the subject is twice in the headers. -/
theorem C55_extra_twice : ∃ h : Headers, ¬IsHeaders (.obj (headersV [bs "subject"] h false none)) := by
  refine ⟨{ showHeaders with all := [(bs "Subject", some (bs "Lunch"))] }, ?_⟩
  rintro ⟨l, e, hn, _⟩
  cases e
  revert hn
  decide +kernel

/-- **C55** (why `LispNames`). A header that is written `X.Y` and is in `show.extra_headers` ends `notmuch show --format=sexp` in the middle. -/
theorem C55_sexp_abort : ∃ h : Headers, Sexp.run start (headersCalls [bs "x.y"] h false none) = none := by
  refine ⟨{ showHeaders with all := [(bs "X.Y", some (bs "1"))] }, ?_⟩
  decide +kernel

/-- **C55** (false of the code). A message whose files are gone leaves only the list of its replies in its node, and no null before it: that does not fit the schema. -/
theorem C55_gone_no_null : ∃ v, norm (calls (showTree .structured showParams 0 (.node showMsgGone [])).1) = v.calls ∧ ¬IsThreadNode v := by
  refine ⟨.list [.list []], by decide +kernel, ?_⟩
  intro h
  cases h

/-- **C55** (false of the code). The text format names the first file of a message even if another one is shown; and the number of the duplicate is 1 if the first file cannot be opened and
the second one is shown. -/
theorem C55_wrong_file_named : openFile 0 showMsg1.files = showMsg1.files[1]? ∧
    bytes (showMessage .text showParams 0 showMsg1).1 = bs "\x0cmessage{ id:one@x depth:0 match:1 excluded:0 filename:/m/gone\n" ++ (bytes (showMessage .text showParams 0 showMsg1).1).drop 63 ∧
    get (msgVal showParams.opts showMsg1) (bs "duplicate") = some (.int 1) := by
  refine ⟨rfl, by decide +kernel, ?_⟩
  obtain ⟨f, r, _, _, hg, e⟩ := msgVal_eq (o := showParams.opts) (show_readable (NamesOk [bs "x-list"]) show_names)
  rw [e]
  exact (message_says (by decide) _ hg).duplicate

/-- **C55** (false of the code). Raw output fails when the first file is gone, although another one can be opened (and is shown in other formats); and mbox output with `--duplicate` is
that of the first file. -/
theorem C55_raw_first : (showSingle .raw showParams [showMsg1]).2 = true ∧ (showSingle .text showParams [showMsg1]).2 = false ∧
    ∃ m : Msg, bytes (showSingle .mbox { showParams with opts := { showParams.opts with duplicate := 2 } } [m]).1 = bs "first" ∧
      bytes (showSingle .raw { showParams with opts := { showParams.opts with duplicate := 2 } } [m]).1 = bs "second" := by
  refine ⟨by decide +kernel, by decide +kernel, ⟨bs "x", true, false, [⟨bs "/1", some (bs "first"), some showRoot⟩, ⟨bs "/2", some (bs "second"), some showRoot⟩], 0, [], [], []⟩, ?_, ?_⟩
  · decide +kernel
  · decide +kernel

/-- **C55** (false of the code). `--unthreaded --exclude=false --offset=-1`: messages are counted without the excluded ones, so that it is not the last message that is shown. -/
theorem C55_unthreaded_offset : ∃ (a b : Msg), a.excluded = true ∧ window (offsetOf (-1) 1) (-1) [b, a] 0 = [b, a] ∧ Window (-1) (-1) [b, a] = [a] :=
  ⟨{ showMsg1 with excluded := true }, showMsg1, rfl, rfl, rfl⟩

end Notmuch.Props
