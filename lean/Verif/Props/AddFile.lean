import Verif.Proofs.AddFileWhole
import Verif.Props.Threading
import Verif.Props.Reindex

/-! # C65: adding a file to the database -/

namespace Notmuch.Props

open Notmuch.AddFile
open Notmuch.Threading (Op normId)
open Notmuch.ThreadSpec (NoLongSelf Known Mentions Conn Added)

/-- C65: which headers were asked for before makes no difference: the value of a header is the text of the first one of that name in any case (of all of them for `Received` and
`Delivered-To`), empty if there is none.  A file that is not mail has no headers. -/
theorem C65_headers {decode : Str → Option Str} {dec : Str → Str} (hd : ∀ v, decode v = some (dec v)) (f : File) (asked : List Str) (name : Str) :
    (∀ p, IsMail f p → (getHeader decode name (ask decode asked (opened f))).1 = some (text dec p name)) ∧
    ((∀ p, ¬ IsMail f p) → (getHeader decode name (ask decode asked (opened f))).1 = none) := by
  refine ⟨fun p h => ask_header hd h asked name, fun h => ?_⟩
  rw [ask_none h, getHeader_none h]

/-- C65: the hash is that of the whole contents however they are read, and there is none if reading fails. -/
theorem C65_hash (digest : Str → Str) (f : File) :
    (∀ rs content, f.again = some rs → Reads rs content → sha1OfFile digest f = some (digest content)) ∧
    (∀ rs, f.again = some rs → Fails rs → sha1OfFile digest f = none) ∧ (f.again = none → sha1OfFile digest f = none) := by
  unfold sha1OfFile
  refine ⟨fun rs content h hr => ?_, fun rs h hr => ?_, fun h => ?_⟩
  · rw [h, Option.bind_some, readAll_reads hr]; rfl
  · rw [h, Option.bind_some, readAll_fails hr]; rfl
  · rw [h]; rfl

/-- C65: a file that is refused leaves the database as it is, and no message is given. -/
theorem C65_refused {E : Env} {name : Str} {st : Status} (h : Refused E name st) (db : Db) : indexFile E db name = some (db, st, none) := by
  have nm : ∀ {f st m}, E.writable = true → E.open_ name = some f → E.begin = .success → getHeaders E.decode E.digest (opened f) = some (st, none, m) →
      st ≠ .success → st ≠ .duplicateMessageId → indexFile E db name = some (db, st, none) := by
    intro f st m h1 h2 h3 h4 h5 h6
    unfold indexFile
    rw [if_neg (by rw [h1]; simp), h2]
    simp only [h3, ne_eq, not_true_eq_false, if_false]
    unfold inside
    rw [h4]
    simp [endStatus, h5, h6]
  cases h with
  | readOnly h1 => unfold indexFile; rw [if_pos h1]
  | notOpened h1 h2 => unfold indexFile; rw [if_neg (by rw [h1]; simp), h2]
  | notBegun h1 h2 h3 => unfold indexFile; rw [if_neg (by rw [h1]; simp), h2]; simp only [h3, ne_eq, not_false_eq_true, if_true]
  | @notMail f h1 h2 h3 h4 =>
    refine nm (m := opened f) h1 h2 h3 ?_ (by decide) (by decide)
    unfold getHeaders; rw [parse_opened_none h4]
  | notAddressed h1 h2 h3 h4 h5 h6 =>
    obtain ⟨m, _, e⟩ := getHeaders_mail (digest := E.digest) h5 h4
    rw [if_neg h6] at e
    exact nm h1 h2 h3 e (by decide) (by decide)
  | @noId f p dec h1 h2 h3 h4 h5 h6 h7 h8 =>
    obtain ⟨m, _, e⟩ := getHeaders_mail (digest := E.digest) h5 h4
    have hs : sha1OfFile E.digest f = none := by
      cases ha : f.again with
      | none => exact (C65_hash E.digest f).2.2 ha
      | some rs => exact (C65_hash E.digest f).2.1 rs ha (h8 rs ha)
    rw [if_pos h6, h7, hs] at e
    exact nm h1 h2 h3 e (by decide) (by decide)

theorem sha_of {digest : Str → Str} (h : ∀ s, (digest s).length = 40) : ThreadSpec.Sha (sha1OfString digest) := fun s => h _

/-- C65: adding a file to a database with history `ops`: the message gets exactly the terms that the file gives, in addition to those it had, and the values of its headers if it
had no file; other messages change at most their thread, and nothing is new but ghosts for unknown parents.  The threads are as in C19 for the history with this file. -/
theorem C65_add {E : Env} {name : Str} {f : File} {p : Parsed} {dec : Str → Str} {e : Str} (hR : Ready E name f p dec e) (hA : Addressed dec p) {db : Db} {ops : List Op}
    (hself : NoLongSelf (sha1OfString E.digest) ops) (hsay : SaysDb db (Threading.run (sha1OfString E.digest) ops)) :
    ∃ id parents reply, MessageId.messageId (some (text dec p (bs "Message-ID"))) (sha1OfFile E.digest f) = some (some id) ∧
      MessageId.parents (normId (sha1OfString E.digest) id) (some (text dec p (bs "References"))) (some (text dec p (bs "In-Reply-To"))) = some (parents, reply) ∧
      (db.lastThread + (E.keys parents).length + 1 < 2 ^ 64 →
        ∃ db' st doc, indexFile E db name = some (db', st, some doc.docId) ∧ doc ∈ db'.docs ∧ Outcome E dec p name e (normId (sha1OfString E.digest) id) parents reply db doc st ∧
          OthersKept db db' doc.docId ∧ SaysDb db' (Threading.run (sha1OfString E.digest) (ops ++ [.add e id (E.keys parents)]))) := by
  have hwf := (Threading.inv2_run (sha_of hR.hash) ops hself).wf
  obtain ⟨id, parents, reply, h1, h2, h3⟩ := indexFile_spec hR hA hsay hwf
  refine ⟨id, parents, reply, h1, h2, fun hroom => ?_⟩
  rw [hsay.lastThread] at hroom
  obtain ⟨db', st, doc, r1, r2, r3, r4, r5, _⟩ := h3 hroom
  refine ⟨db', st, doc, r1, r2, r3, r4, ?_⟩
  unfold Threading.run
  rw [List.foldl_append]
  exact r5

/-- C65: a file outside the mail directory changes no document. -/
theorem C65_no_entry {E : Env} {name : Str} (he : E.entry name = none) (db : Db) {db' : Db} {st : Status} {n : Option Nat} (h : indexFile E db name = some (db', st, n)) :
    db'.docs = db.docs ∧ db'.lastThread = db.lastThread ∧ n = none ∧ (E.begin ≠ .duplicateMessageId → st ≠ .success ∧ st ≠ .duplicateMessageId) := by
  have hname : ∀ new ghost h, addName E name new ghost h = some (h, .pathError) := by intro new ghost h; unfold addName; rw [he]
  have hin : ∀ f r, inside E db name f = some r → r.1.docs = db.docs ∧ r.1.lastThread = db.lastThread ∧ r.2.2 = none ∧ r.2.1 ≠ .success ∧ r.2.1 ≠ .duplicateMessageId := by
    intro f r hr
    unfold inside at hr
    cases hg : getHeaders E.decode E.digest (opened f) with
    | none => rw [hg] at hr; cases hr
    | some x =>
      obtain ⟨st', hs, m⟩ := x
      have hst : hs = none → st' = .fileNotEmail ∨ st' = .fileError := by
        rintro rfl
        have hp : ∀ m : MsgFile, (parse m).1 = .success ∨ (parse m).1 = .fileNotEmail := by
          intro m; unfold parse
          cases m.parsed with
          | some _ => exact .inl rfl
          | none =>
            simp only
            cases m.file.gmime (isMbox m.file) with
            | none => exact .inr rfl
            | some p => simp only; split <;> simp
        unfold getHeaders at hg
        split at hg
        · simp only at hg
          split at hg
          · cases hg; exact .inl rfl
          · split at hg
            · cases hg
            · cases hg; exact .inr rfl
            · cases hg
        · rename_i m' hne hpe
          simp only [Option.some.injEq, Prod.mk.injEq] at hg
          obtain ⟨rfl, -, -⟩ := hg
          rcases hp (opened f) with h | h
          · rw [hpe] at h; exact absurd h hne
          · rw [hpe] at h; exact .inl h
      rw [hg] at hr
      cases hs with
      | none =>
        simp only [Option.some.injEq] at hr
        subst hr
        refine ⟨rfl, rfl, rfl, ?_⟩
        rcases hst rfl with rfl | rfl <;> simp
      | some hs =>
        simp only at hr
        cases hf : findId E db hs.id with
        | none =>
          rw [hf] at hr
          simp only [genDoc, hname, Option.some.injEq] at hr
          subst hr
          exact ⟨rfl, rfl, rfl, by simp⟩
        | some d =>
          rw [hf] at hr
          simp only at hr
          cases hgh : TermList.readGhost d.terms with
          | none => rw [hgh] at hr; cases hr
          | some g =>
            rw [hgh] at hr
            simp only [hname, Option.some.injEq] at hr
            subst hr
            exact ⟨rfl, rfl, rfl, by simp⟩
  unfold indexFile at h
  split at h
  · cases h; exact ⟨rfl, rfl, rfl, fun _ => by simp⟩
  · split at h
    · cases h; exact ⟨rfl, rfl, rfl, fun _ => by simp⟩
    · split at h
      · rename_i hb
        cases h; exact ⟨rfl, rfl, rfl, fun hd => ⟨hb, hd⟩⟩
      · rename_i f _ _
        cases hi : inside E db name f with
        | none => rw [hi] at h; cases h
        | some r =>
          rw [hi] at h
          obtain ⟨h1, h2, h3, h4, h5⟩ := hin f r hi
          simp only [Option.map_some, Option.some.injEq, Prod.mk.injEq] at h
          obtain ⟨rfl, rfl, rfl⟩ := h
          refine ⟨h1, h2, h3, fun _ => ?_⟩
          unfold endStatus
          rw [if_neg (by simp [h4, h5])]
          exact ⟨h4, h5⟩

/-- C65: whatever files are added, in whatever order, the database says what C19 says about the same history. -/
theorem C65_history {digest : Str → Str} (hd : ∀ s, (digest s).length = 40) {db : Db} {ops : List Op} (h : History digest db ops) (hself : NoLongSelf (sha1OfString digest) ops) :
    SaysDb db (Threading.run (sha1OfString digest) ops) ∧ db.lastThread < 2 ^ 64 := by
  induction h with
  | empty => exact ⟨⟨.nil, rfl, rfl⟩, by decide⟩
  | @added db db' ops E name f p dec e id parents reply st n hh hE hR hA hid hpar hroom hres ih =>
    subst hE
    have hself' : NoLongSelf (sha1OfString E.digest) ops := fun f i rs ho => hself f i rs (by simp [ho])
    obtain ⟨hsay, _⟩ := ih hself'
    have hwf := (Threading.inv2_run (sha_of hR.hash) ops hself').wf
    obtain ⟨id', parents', reply', h1, h2, h3⟩ := indexFile_spec hR hA hsay hwf
    rw [hid] at h1
    cases h1
    rw [hpar] at h2
    cases h2
    rw [hsay.lastThread] at hroom
    obtain ⟨db2, st2, doc, r1, _, _, _, r5, _⟩ := h3 hroom
    rw [hres] at r1
    simp only [Option.some.injEq, Prod.mk.injEq] at r1
    obtain ⟨rfl, -, -⟩ := r1
    have hrun : Threading.run (sha1OfString E.digest) (ops ++ [.add e id (E.keys parents)]) = (Threading.addMessage (sha1OfString E.digest) (Threading.run (sha1OfString E.digest) ops) e id (E.keys parents)).2 := by
      unfold Threading.run; rw [List.foldl_append]; rfl
    rw [hrun]
    refine ⟨r5, ?_⟩
    rw [r5.lastThread]
    exact Nat.lt_of_le_of_lt (addMessage_lastThread _ _ _ _ _) hroom
  | refused hh hr hres ih =>
    rw [C65_refused hr] at hres
    simp only [Option.some.injEq, Prod.mk.injEq] at hres
    obtain ⟨rfl, -, -⟩ := hres
    exact ih hself

/-- C65: after any history of files, every document has one id and one thread, no two have the same id, and two messages are in the same thread exactly if they are connected by
the references of the files (with the message ids and references that C26 finds). -/
theorem C65_threads {digest : Str → Str} (hd : ∀ s, (digest s).length = 40) {db : Db} {ops : List Op} (h : History digest db ops) (hself : NoLongSelf (sha1OfString digest) ops) :
    (∀ d ∈ db.docs, ∃ a t, (∀ x, bs "Q" ++ x ∈ d.terms ↔ x = a) ∧ (∀ x, bs "G" ++ x ∈ d.terms ↔ x = t)) ∧
    (∀ a, Known (sha1OfString digest) ops a ↔ ∃ d ∈ db.docs, bs "Q" ++ a ∈ d.terms) ∧
    (∀ d ∈ db.docs, ∀ d' ∈ db.docs, ∀ a, bs "Q" ++ a ∈ d.terms → bs "Q" ++ a ∈ d'.terms → d = d') ∧
    (∀ d ∈ db.docs, ∀ d' ∈ db.docs, ∀ a b, bs "Q" ++ a ∈ d.terms → bs "Q" ++ b ∈ d'.terms →
      ((∃ t, bs "G" ++ t ∈ d.terms ∧ bs "G" ++ t ∈ d'.terms) ↔ Conn (Mentions (sha1OfString digest) ops) a b)) ∧
    (∀ d ∈ db.docs, ∀ a, bs "Q" ++ a ∈ d.terms → (bs "Tmail" ∈ d.terms ↔ Added (sha1OfString digest) ops a) ∧ (bs "Tghost" ∈ d.terms ↔ ¬ Added (sha1OfString digest) ops a) ∧
      ∀ e, bs "XFDIRENTRY" ++ e ∈ d.terms ↔ ∃ mid refs, Op.add e mid refs ∈ ops ∧ normId (sha1OfString digest) mid = a) := by
  obtain ⟨hsay, hlt⟩ := C65_history hd h hself
  have hadd : OnlyAdds ops := by
    clear hsay hlt hself
    induction h with
    | empty => intro o ho; cases ho
    | added _ _ _ _ _ _ _ _ ih =>
      intro o ho
      rcases List.mem_append.1 ho with h | h
      · exact ih o h
      · exact ⟨_, _, _, List.mem_singleton.1 h⟩
    | refused _ _ _ ih => exact ih
  have hwf := (Threading.inv2_run (sha_of hd) ops hself).wf
  have one := C19_one_document_one_thread (sha1OfString digest) (sha_of hd) ops hadd hself
  rw [hsay.lastThread] at hlt
  refine ⟨?_, ?_, ?_, ?_, ?_⟩
  · intro d hdm
    obtain ⟨a, ha, _, hs⟩ := hsay.docs.left d hdm
    refine ⟨a.mid, Open.hex16 a.thread, hs.id, fun x => ?_⟩
    rw [hs.threads, (hwf.thr a ha).1]; simp
  · intro a
    rw [(one a).1]
    constructor
    · rintro ⟨b, hb, rfl⟩
      obtain ⟨d, hdm, _, hs⟩ := hsay.docs.right b hb
      exact ⟨d, hdm, (hs.id _).2 rfl⟩
    · rintro ⟨d, hdm, hq⟩
      obtain ⟨b, hb, _, hs⟩ := hsay.docs.left d hdm
      exact ⟨b, hb, ((hs.id _).1 hq).symm⟩
  · intro d hdm d' hdm' a hq hq'
    obtain ⟨b, hb, hi, hs⟩ := hsay.docs.left d hdm
    obtain ⟨b', hb', hi', hs'⟩ := hsay.docs.left d' hdm'
    have := (one a).2.1 b hb b' hb' ((hs.id _).1 hq).symm ((hs'.id _).1 hq').symm
    subst this
    exact all2_inj hsay.ids hwf.ids hdm hdm' (hi.trans hi'.symm)
  · intro d hdm d' hdm' a b hq hq'
    obtain ⟨u, hu, _, hs⟩ := hsay.docs.left d hdm
    obtain ⟨u', hu', _, hs'⟩ := hsay.docs.left d' hdm'
    have ha : a = u.mid := (hs.id _).1 hq
    have hb : b = u'.mid := (hs'.id _).1 hq'
    rw [← C19_threads_are_components (sha1OfString digest) (sha_of hd) ops hadd hself a b (((one a).1).2 ⟨u, hu, ha.symm⟩) (((one b).1).2 ⟨u', hu', hb.symm⟩)]
    obtain ⟨t1, t2⟩ := hwf.thr u hu
    obtain ⟨t1', t2'⟩ := hwf.thr u' hu'
    rw [Threading.sameThread_iff hwf]
    constructor
    · rintro ⟨t, h1, h2⟩
      rw [hs.threads, t1] at h1
      rw [hs'.threads, t1'] at h2
      obtain ⟨v, hv, rfl⟩ := h1
      obtain ⟨v', hv', e⟩ := h2
      obtain rfl : v = u.thread := by simpa using hv
      obtain rfl : v' = u'.thread := by simpa using hv'
      exact ⟨u, hu, u', hu', ha.symm, hb.symm, Open.hex16_inj (by omega) (by omega) e⟩
    · rintro ⟨w, hw, w', hw', e1, e2, e3⟩
      obtain rfl := (one a).2.1 w hw u hu e1 ha.symm
      obtain rfl := (one b).2.1 w' hw' u' hu' e2 hb.symm
      refine ⟨Open.hex16 w.thread, ?_, ?_⟩
      · rw [hs.threads, t1]; exact ⟨_, by simp, rfl⟩
      · rw [hs'.threads, t1', ← e3]; exact ⟨_, by simp, rfl⟩
  · intro d hdm a hq
    obtain ⟨u, hu, _, hs⟩ := hsay.docs.left d hdm
    have ha : a = u.mid := (hs.id _).1 hq
    have hk := ((one a).2.2 u hu ha.symm).2
    have km : bs "Tmail" ∈ d.terms ↔ u.kind = .mail := by
      have := hs.kind (bs "mail")
      rw [show bs "Tmail" = bs "T" ++ bs "mail" by decide +kernel, this]
      cases u.kind <;> decide +kernel
    have kg : bs "Tghost" ∈ d.terms ↔ ¬ u.kind = .mail := by
      have := hs.kind (bs "ghost")
      rw [show bs "Tghost" = bs "T" ++ bs "ghost" by decide +kernel, this]
      cases u.kind <;> decide +kernel
    refine ⟨by rw [km, hk], by rw [kg, hk], fun e => ?_⟩
    rw [hs.files, (C19_files_and_references (sha1OfString digest) (sha_of hd) ops hadd hself u hu).1, ha]

/-! ## Examples -/

/-- A mail. -/
def exParsed : Parsed :=
  ⟨[(bs "Received", bs "one"), (bs "FROM", bs "a@b"), (bs "received", bs "two"), (bs "From", bs "no"), (bs "Message-Id", bs "<m@x>"), (bs "References", bs "<r@x> <s@x>"),
    (bs "In-Reply-To", bs "<s@x>"), (bs "Date", bs "now")], false⟩

/-- Its file. -/
def exMailFile : File := ⟨bs "Received: one", fun b => if b then none else some exParsed, some [.data (bs "abc"), .nothing, .data (bs "d"), .eof]⟩

/-- A program with this file. -/
def exAddEnv : Env where
  W := exMsgWorld
  writable := true
  open_ := fun n => if n = bs "/m/a/cur/f:2,S" then some exMailFile else none
  decode := some
  digest := sha0
  date := fun _ => -5
  keys := id
  entry := fun _ => some (bs "2:f:2,S")
  index := fun _ => [.text (bs "hello"), .term (bs "tag") (bs "signed"), .text (bs "XFROMa")]
  indexStatus := fun _ => .success
  begin := .success
  ending := .success

/-- The database with one message that is the parent, and another thread. -/
def exAddDb : Db :=
  ⟨[⟨1, [bs "G0000000000000001", bs "Kinbox", bs "Qr@x", bs "Tmail", bs "XFDIRENTRY2:r"], some ⟨7, bs "r", bs "R"⟩⟩,
    ⟨2, [bs "G0000000000000002", bs "Qs@x", bs "Tmail", bs "XFDIRENTRY2:s"], some ⟨8, bs "s", bs "S"⟩⟩], 2, 2⟩

/-- The file is added: it joins the threads of its two parents. -/
example : indexFile exAddEnv exAddDb (bs "/m/a/cur/f:2,S") =
    some (⟨[⟨1, [bs "G0000000000000001", bs "Kinbox", bs "Qr@x", bs "Tmail", bs "XFDIRENTRY2:r"], some ⟨7, bs "r", bs "R"⟩⟩,
      ⟨2, [bs "G0000000000000001", bs "Qs@x", bs "Tmail", bs "XFDIRENTRY2:s"], some ⟨8, bs "s", bs "S"⟩⟩,
      ⟨3, [bs "G0000000000000001", bs "Ksigned", bs "Pa/cur", bs "Qm@x", bs "Tmail", bs "XFDIRENTRY2:f:2,S", bs "XFOLDER:a/cur", bs "XFROMa", bs "XREFERENCEr@x", bs "XREFERENCEs@x",
        bs "XREPLYTOs@x", bs "hello"], some ⟨0, bs "a@b", []⟩⟩], 2, 3⟩, .success, some 3) := by decide +kernel

example : (getHeader some (bs "ReCeived") (ask some [bs "from", bs "received"] (opened exMailFile))).1 = some (bs "one two") ∧
    (getHeader some (bs "From") (ask some [bs "from", bs "received"] (opened exMailFile))).1 = some (bs "a@b") := by refine ⟨?_, ?_⟩ <;> decide +kernel

/-- If the text cannot be indexed, the caller gets an error and no message, but the threads of its parents have been merged for good. -/
theorem C65_index_failure_counterexample :
    ∃ db', indexFile { exAddEnv with indexStatus := fun _ => .fileError } exAddDb (bs "/m/a/cur/f:2,S") = some (db', .fileError, none) ∧
      (∃ d ∈ exAddDb.docs, bs "Qs@x" ∈ d.terms ∧ bs "G0000000000000002" ∈ d.terms) ∧ (∃ d ∈ db'.docs, bs "Qs@x" ∈ d.terms ∧ bs "G0000000000000001" ∈ d.terms) ∧
      ∀ d ∈ db'.docs, bs "Qm@x" ∉ d.terms := by
  refine ⟨⟨[⟨1, [bs "G0000000000000001", bs "Kinbox", bs "Qr@x", bs "Tmail", bs "XFDIRENTRY2:r"], some ⟨7, bs "r", bs "R"⟩⟩,
    ⟨2, [bs "G0000000000000001", bs "Qs@x", bs "Tmail", bs "XFDIRENTRY2:s"], some ⟨8, bs "s", bs "S"⟩⟩], 2, 3⟩, ?_, ?_, ?_, ?_⟩ <;> decide +kernel

/-- In an empty database, such a failure leaves ghosts of the parents, of which no message is the child. -/
theorem C65_index_failure_ghosts_counterexample :
    indexFile { exAddEnv with indexStatus := fun _ => .fileError } ⟨[], 0, 0⟩ (bs "/m/a/cur/f:2,S") =
      some (⟨[⟨2, [bs "G0000000000000001", bs "Qr@x", bs "Tghost"], none⟩, ⟨3, [bs "G0000000000000001", bs "Qs@x", bs "Tghost"], none⟩], 2, 3⟩, .fileError, none) := by decide +kernel

/-- If the atomic section cannot be ended, the caller gets an error and yet a message. -/
theorem C65_end_counterexample :
    (indexFile { exAddEnv with ending := .xapianException } exAddDb (bs "/m/a/cur/f:2,S")).map (fun r => (r.2.1, r.2.2)) = some (.xapianException, some 3) := by decide +kernel

/-- Nothing hinders adding the file (no header of it contains NUL; so that this holds of the decoder, it drops NULs). -/
theorem exReady : Ready { exAddEnv with decode := fun v => some (v.filter (· ≠ 0)) } (bs "/m/a/cur/f:2,S") exMailFile exParsed (fun v => v.filter (· ≠ 0)) (bs "2:f:2,S") where
  writable := rfl
  opens := by simp [exAddEnv]
  begins := rfl
  ends := rfl
  mail := .inr ⟨by decide +kernel, rfl⟩
  decodes := fun _ => rfl
  noNul := by intro v h; simpa using (List.mem_filter.1 h).2
  reads := ⟨_, _, rfl, .data (.again (.data .eof))⟩
  hash := fun _ => rfl
  keys := fun _ _ => Iff.rfl
  world := exMsgWorld_ok
  entry := rfl
  entryLength := by decide +kernel
  entryDir := ⟨bs "/m/a/cur/f:2,S", 2, bs "f:2,S", bs "a/cur", by decide +kernel, by decide +kernel, by decide +kernel⟩
  props := by intro k v h; simp [exAddEnv] at h
  terms := by
    intro n v h
    simp only [exAddEnv, List.mem_cons, reduceCtorEq, Reindex.Add.term.injEq, List.not_mem_nil, or_false, false_or] at h
    obtain ⟨rfl, rfl⟩ := h
    decide +kernel
  saved := by intro _ k v h; simp [exAddEnv] at h
  quiet := by
    intro a ha
    simp only [exAddEnv, List.mem_cons, List.not_mem_nil, or_false] at ha
    rcases ha with rfl | rfl | rfl <;> intro x hx p hp
    · obtain rfl : x = bs "hello" := hx
      revert p; decide +kernel
    · obtain ⟨rfl, _⟩ : x = Message.prefixOf (bs "tag") ++ bs "signed" ∧ x.length ≤ 245 := hx
      revert p; decide +kernel
    · obtain rfl : x = bs "XFROMa" := hx
      revert p; decide +kernel
  indexed := rfl

example : ∃ db, History sha0 db [.add (bs "2:f:2,S") (bs "m@x") [bs "r@x", bs "s@x", bs "s@x"]] ∧ NoLongSelf (sha1OfString sha0) [.add (bs "2:f:2,S") (bs "m@x") [bs "r@x", bs "s@x", bs "s@x"]] ∧
    db.docs.map (·.docId) = [2, 3, 1] := by
  refine ⟨_, History.added (id := bs "m@x") (parents := [bs "r@x", bs "s@x", bs "s@x"]) (reply := some (bs "s@x")) .empty rfl exReady ?_ ?_ ?_ ?_ rfl, ?_, ?_⟩
  · exact ⟨bs "From", by simp, by decide +kernel⟩
  · decide +kernel
  · decide +kernel
  · decide
  · intro f i rs h; simp only [List.mem_singleton, Op.add.injEq] at h; obtain ⟨rfl, rfl, rfl⟩ := h; decide +kernel
  · decide +kernel

end Notmuch.Props
