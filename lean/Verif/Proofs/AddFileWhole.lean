import Verif.Proofs.AddFileStep

/-! # Adding a file: from the headers to the document -/

namespace Notmuch.AddFile

open Notmuch.TermList
open Notmuch.Message (Handle addTermTo removeTermFrom sync prefixOf)
open Notmuch.Reindex (Adds adds_maybe adds_addTermTo adds_sync)

attribute [local irreducible] Open.hex16

theorem index_spec {E : Env} {name : Str} {f : File} {p : Parsed} {dec : Str → Str} {e : Str} (hR : Ready E name f p dec e) (docId : Nat) (values : Option Values) (dup : Bool) {s : Link}
    (hw : s.h.writable = true) (hm : s.h.modified = true) (hs : Sorted s.h.terms) {q : Str} (hq : q ∈ s.h.terms) :
    ∃ T', indexAndWrite E name docId values dup s = some (putDoc s.db ⟨docId, T', values⟩, if dup then .duplicateMessageId else .success, some docId) ∧ Sorted T' ∧
      ∀ x, x ∈ T' ↔ x ∈ s.h.terms ∨ ∃ a ∈ E.index name, a.gives x := by
  have e1 : ({ s.h with modified := s.h.modified || !dup } : Handle) = s.h := by
    obtain ⟨db, h, t⟩ := s
    cases h
    simp only at hm
    simp [hm]
  obtain ⟨h', g, a, _⟩ := Reindex.adds_addAll (E.index name) hw hR.props
  have hsv := Reindex.addAll_saved hw hR.props hR.terms hm hR.saved g
  have hst : (sync h').stored = h'.terms := by
    by_cases hmod : h'.modified = true
    · rw [sync_modified (a.writable.trans hw) hmod]
    · have hmod : h'.modified = false := by simpa using hmod
      unfold sync
      rw [if_neg (by rw [a.writable, hw]; simp), if_pos hmod]
      exact hsv hmod
  refine ⟨h'.terms, ?_, a.sorted hs, a.mem⟩
  unfold indexAndWrite
  rw [e1, g]
  simp only [hR.indexed, ne_eq, not_true_eq_false, if_false]
  unfold written
  rw [hst, if_neg]
  intro h0
  have : q ∈ h'.terms := by rw [a.mem]; exact .inl hq
  rw [h0] at this; cases this

theorem linkParent_docId (sha : Str → Str) (S : Threading.Link) (r : Str) : (Threading.linkParent sha S r).cur.docId = S.cur.docId ∧ (Threading.linkParent sha S r).cur.mid = S.cur.mid := by
  unfold Threading.linkParent
  simp only
  cases S.tid with
  | none => simp only; split <;> exact ⟨rfl, rfl⟩
  | some t => simp only; split <;> split <;> exact ⟨rfl, rfl⟩

theorem fold_docId (sha : Str → Str) : ∀ (refs : List Str) (S : Threading.Link), (refs.foldl (Threading.linkParent sha) S).cur.docId = S.cur.docId
  | [], _ => rfl
  | r :: refs, S => by rw [List.foldl_cons, fold_docId sha refs, (linkParent_docId sha S r).1]

theorem finish_docId (S : Threading.Link) : (Threading.finishThread S).cur.docId = S.cur.docId := by
  unfold Threading.finishThread
  cases S.tid <;> rfl

theorem put_others {db0 db : Db} (hk : Kept db0 db) (d : Doc) : OthersKept db0 (putDoc db d) d.docId := by
  refine ⟨?_, ?_⟩
  · intro d' hd' hn
    exact hk.back d' ((mem_putDoc_other hn).1 hd')
  · intro d0 hd0 hn
    obtain ⟨d', hd', hs⟩ := hk.forth d0 hd0
    exact ⟨d', (mem_putDoc_other (by rw [hs.docId]; exact hn)).2 hd', hs⟩

theorem headerValues_eq (E : Env) (dec : Str → Str) (p : Parsed) (to : Option Str) (id : Str) :
    headerValues E ⟨some (text dec p (bs "From")), some (text dec p (bs "Subject")), to, some (text dec p (bs "Date")), id⟩ = some (valuesFrom E dec p) := by
  unfold headerValues valuesFrom
  simp only [noText_some, decide_eq_true_eq, Option.getD_some]
  congr 2
  split
  · rfl
  · split <;> omega

/-- Linking and indexing. -/
theorem linkAndIndex_spec {E : Env} {name : Str} {f : File} {p : Parsed} {dec : Str → Str} {e : Str} (hR : Ready E name f p dec e) {docId : Nat} {old : Option Values} {new : Bool}
    {t0 : Option Nat} {to : Option Str} {id : Str} {m : MsgFile} (hm : Asked dec f p m) {db0 db : Db} {h : Handle} {A : Threading.Db} {cur : Threading.Doc}
    (hsay : SaysDb db A) (hcur : Says h.terms cur) (hdoc : cur.docId = docId) {parents : List Str} {reply : Option Str}
    (hpar : MessageId.parents cur.mid (some (text dec p (bs "References"))) (some (text dec p (bs "In-Reply-To"))) = some (parents, reply)) (hself : cur.mid ∉ parents)
    (hroom : Room A ((E.keys parents).length + 1)) (ht0 : ∀ t, t0 = some t → t ≤ A.lastThread ∧ bs "G" ++ Open.hex16 t ∈ h.terms) (hk : Kept db0 db) (hb : ∀ d ∈ db.docs, d.docId ≤ db.lastDoc)
    (hw : h.writable = true) (hmod : h.modified = true) :
    ∃ db' T' thread, linkAndIndex E name docId old new (t0.map Open.hex16)
        ⟨some (text dec p (bs "From")), some (text dec p (bs "Subject")), to, some (text dec p (bs "Date")), id⟩ m db h =
          some (db', if new then .success else .duplicateMessageId, some docId) ∧
      SaysDb db' (Threading.putDoc (Threading.finishThread (Threading.linkParents (sha1OfString E.digest) ⟨A, cur, t0⟩ (E.keys parents))).db
        (Threading.finishThread (Threading.linkParents (sha1OfString E.digest) ⟨A, cur, t0⟩ (E.keys parents))).cur) ∧
      OthersKept db0 db' docId ∧ ⟨docId, T', if new then some (valuesFrom E dec p) else old⟩ ∈ db'.docs ∧
      (∀ x, x ∈ T' ↔ x ∈ h.terms ∨ (∃ r, reply = some r ∧ Term (bs "XREPLYTO") r x) ∨ (∃ r ∈ parents, Term (bs "XREFERENCE") r x) ∨ x = bs "G" ++ thread ∨ ∃ a ∈ E.index name, a.gives x) ∧
      (∀ t, t0 = some t → thread = Open.hex16 t) := by
  obtain ⟨_, _, _, _, _, e6, e7⟩ := text_lower dec p
  obtain ⟨g1, a1⟩ := asked_getHeader hR.decodes hm (bs "references")
  obtain ⟨g2, _⟩ := asked_getHeader hR.decodes a1 (bs "in-reply-to")
  -- the parent replied to
  obtain ⟨h1, hh1, w1, m1, c1, hT1⟩ : ∃ h1, h1 = (match reply with
        | some r => (addTermTo (bs "replyto") r h).getD h
        | none => h) ∧ h1.writable = true ∧ h1.modified = true ∧ Says h1.terms cur ∧
      ∀ x, x ∈ h1.terms ↔ x ∈ h.terms ∨ ∃ r, reply = some r ∧ Term (bs "XREPLYTO") r x := by
    refine ⟨_, rfl, ?_⟩
    cases reply with
    | none => exact ⟨hw, hmod, hcur, by simp⟩
    | some r =>
      obtain ⟨a, mm⟩ := adds_maybe (bs "replyto") r h
      rw [prefix_reply] at a
      refine ⟨a.writable.trans hw, mm hmod, hcur.quiet (a.sorted hcur.sorted) a.mem ?_, ?_⟩
      · rintro x ⟨rfl, _⟩ q hq ⟨y, hy⟩
        simp only [List.mem_cons, List.not_mem_nil, or_false] at hq
        rcases hq with rfl | rfl | rfl | rfl | rfl <;> exact dis (by decide +kernel) _ _ hy
      · intro x; rw [a.mem]; simp [Term]
  have hL : Linked E db0 t0 h1.terms [] (1 + (E.keys parents).length) ⟨db, h1, t0.map Open.hex16⟩ ⟨A, cur, t0⟩ :=
    { says := hsay, cur := c1, tid := rfl, tidBound := fun t e => (ht0 t e).1, first := fun t e => e, room := by rw [Nat.add_comm]; exact hroom, kept := hk, bound := hb,
      writable := w1, modified := m1,
      terms := by
        intro x
        simp only [List.not_mem_nil, false_and, exists_false, false_or]
        constructor
        · exact .inl
        · rintro (h | ⟨t, h1, h2, _⟩)
          · exact h
          · rw [h1] at h2; cases h2 }
  obtain ⟨s', es, hs'⟩ := linkParents_says E (n := 1) (E.keys parents) hL
  rw [List.nil_append] at hs'
  obtain ⟨hF, htid⟩ := finish_says E (n := 0) hs'
  have hfilter : Threading.linkParents (sha1OfString E.digest) ⟨A, cur, t0⟩ (E.keys parents) = (E.keys parents).foldl (Threading.linkParent (sha1OfString E.digest)) ⟨A, cur, t0⟩ := by
    unfold Threading.linkParents
    rw [List.filter_eq_self.2]
    intro r hr
    simp only [decide_eq_true_eq]
    rintro rfl
    exact hself ((hR.keys _ _).1 hr)
  rw [hfilter]
  generalize hS : Threading.finishThread ((E.keys parents).foldl (Threading.linkParent (sha1OfString E.digest)) ⟨A, cur, t0⟩) = S at hF htid
  have hSdoc : S.cur.docId = docId := by rw [← hS, finish_docId, fold_docId]; exact hdoc
  have hlink : (linkToParents E (some (text dec p (bs "References"))) (some (text dec p (bs "In-Reply-To"))) ⟨db, h, t0.map Open.hex16⟩).map finishThread = some (finishThread s') := by
    unfold linkToParents
    simp only [idOf_says hcur, hpar]
    have es' := es
    rw [hh1] at es'
    cases reply <;> (simp only at es' ⊢; rw [es']; rfl)
  obtain ⟨T', eT, sT, mT⟩ := index_spec hR docId (if new then some (valuesFrom E dec p) else old) (!new) hF.writable hF.modified hF.cur.sorted (q := bs "Q" ++ S.cur.mid) ((hF.cur.id _).2 rfl)
  obtain ⟨t, ht⟩ : ∃ t, S.tid = some t := Option.ne_none_iff_exists'.1 htid
  refine ⟨putDoc (finishThread s').db ⟨docId, T', if new then some (valuesFrom E dec p) else old⟩, T', Open.hex16 t, ?_, ?_, ?_, mem_putDoc _ _, ?_, ?_⟩
  · unfold linkAndIndex
    simp only [g1, g2, e6, e7]
    rw [hlink]
    simp only
    cases new with
    | true =>
      simp only [if_true, headerValues_eq, Option.bind_some] at eT ⊢
      exact eT
    | false =>
      simp only [Bool.false_eq_true, if_false] at eT ⊢
      exact eT
  · refine hF.says.put (d := ⟨docId, T', if new then some (valuesFrom E dec p) else old⟩) hSdoc.symm ?_
    refine hF.cur.quiet sT mT ?_
    rintro x ⟨a, ha, hg⟩ q hq
    refine hR.quiet a ha x hg q ?_
    simp only [linking, List.mem_cons, List.not_mem_nil, or_false] at hq ⊢
    rcases hq with rfl | rfl | rfl | rfl | rfl <;> simp
  · exact put_others hF.kept ⟨docId, T', if new then some (valuesFrom E dec p) else old⟩
  · intro x
    rw [mT, hF.terms, hT1, ht]
    simp only [hR.keys]
    constructor
    · rintro (((h1 | h1) | h1 | ⟨t', h1, h2, h3⟩) | h1)
      · exact .inl h1
      · exact .inr (.inl h1)
      · exact .inr (.inr (.inl h1))
      · cases h2; exact .inr (.inr (.inr (.inl h3)))
      · exact .inr (.inr (.inr (.inr h1)))
    · rintro (h1 | h1 | h1 | h1 | h1)
      · exact .inl (.inl (.inl h1))
      · exact .inl (.inl (.inr h1))
      · exact .inl (.inr (.inl h1))
      · left
        cases e0 : t0 with
        | none => exact .inr (.inr ⟨t, rfl, rfl, h1⟩)
        | some u =>
          have := hF.first u e0
          rw [ht] at this
          cases this
          exact .inl (.inl (by rw [h1]; exact (ht0 t e0).2))
      · exact .inr h1
  · intro u e0
    have := hF.first u e0
    rw [ht] at this
    cases this; rfl

theorem putDoc_lastThread (A : Threading.Db) (a : Threading.Doc) : (Threading.putDoc A a).lastThread = A.lastThread := by unfold Threading.putDoc; split <;> rfl

theorem linkParent_lastThread (sha : Str → Str) (S : Threading.Link) (r : Str) : (Threading.linkParent sha S r).db.lastThread ≤ S.db.lastThread + 1 := by
  have hr : (Threading.resolve sha S.db r).2.lastThread ≤ S.db.lastThread + 1 := by
    unfold Threading.resolve
    cases Threading.findMid S.db (Threading.normId sha r) with
    | some d => exact Nat.le_succ _
    | none => simp only [Threading.genDoc, Threading.genThread]; rw [putDoc_lastThread]; exact Nat.le_refl _
  unfold Threading.linkParent
  simp only
  cases S.tid with
  | none => exact hr
  | some t => simp only; split <;> exact hr

theorem fold_lastThread (sha : Str → Str) : ∀ (refs : List Str) (S : Threading.Link), (refs.foldl (Threading.linkParent sha) S).db.lastThread ≤ S.db.lastThread + refs.length
  | [], _ => Nat.le_refl _
  | r :: refs, S => by
    rw [List.foldl_cons, List.length_cons]
    have := fold_lastThread sha refs (Threading.linkParent sha S r)
    have := linkParent_lastThread sha S r
    omega

theorem addMessage_lastThread (sha : Str → Str) (A : Threading.Db) (file mid : Str) (refs : List Str) : (Threading.addMessage sha A file mid refs).2.lastThread ≤ A.lastThread + refs.length + 1 := by
  have hf : ∀ S : Threading.Link, (Threading.finishThread S).db.lastThread ≤ S.db.lastThread + 1 := by
    intro S; unfold Threading.finishThread
    cases S.tid with
    | some t => exact Nat.le_succ _
    | none => exact Nat.le_refl _
  have hl : ∀ S : Threading.Link, (Threading.linkParents sha S refs).db.lastThread ≤ S.db.lastThread + refs.length := by
    intro S; unfold Threading.linkParents
    have := fold_lastThread sha (refs.filter (· ≠ S.cur.mid)) S
    have := List.length_filter_le (· ≠ S.cur.mid) refs
    omega
  unfold Threading.addMessage
  cases Threading.findMid A (Threading.normId sha mid) with
  | none =>
    simp only [Threading.genDoc]
    rw [putDoc_lastThread]
    exact Nat.le_trans (hf _) (Nat.succ_le_succ (hl _))
  | some d =>
    simp only
    rw [putDoc_lastThread]
    exact Nat.le_trans (hf _) (Nat.succ_le_succ (hl _))

theorem all2_inj {db : Db} {A : Threading.Db} (h : db.docs.map (·.docId) = A.docs.map (·.docId)) (hn : (A.docs.map (·.docId)).Nodup) {d d' : Doc} (hd : d ∈ db.docs) (hd' : d' ∈ db.docs)
    (e : d.docId = d'.docId) : d = d' := Threading.nodup_map_inj (h ▸ hn) hd hd' e

/-- Adding a file that nothing hinders. -/
theorem indexFile_spec {E : Env} {name : Str} {f : File} {p : Parsed} {dec : Str → Str} {e : Str} (hR : Ready E name f p dec e) (hA : Addressed dec p) {db : Db} {A : Threading.Db}
    (hsay : SaysDb db A) (hwf : Threading.WF A) :
    ∃ id parents reply, MessageId.messageId (some (text dec p (bs "Message-ID"))) (sha1OfFile E.digest f) = some (some id) ∧
      MessageId.parents (Threading.normId (sha1OfString E.digest) id) (some (text dec p (bs "References"))) (some (text dec p (bs "In-Reply-To"))) = some (parents, reply) ∧
      (A.lastThread + (E.keys parents).length + 1 < 2 ^ 64 →
        ∃ db' st doc, indexFile E db name = some (db', st, some doc.docId) ∧ doc ∈ db'.docs ∧
          Outcome E dec p name e (Threading.normId (sha1OfString E.digest) id) parents reply db doc st ∧ OthersKept db db' doc.docId ∧
          SaysDb db' (Threading.addMessage (sha1OfString E.digest) A e id (E.keys parents)).2 ∧
          (st = .duplicateMessageId ↔ (Threading.addMessage (sha1OfString E.digest) A e id (E.keys parents)).1 = .duplicateMessageId)) := by
  have nonul : ∀ n, 0 ∉ text dec p n := by
    intro n h0
    have hsp : ∀ vs : List Str, (∀ v ∈ vs, 0 ∉ v) → 0 ∉ spaced vs := by
      intro vs
      induction vs with
      | nil => intro _ h; cases h
      | cons v vs ih =>
        intro hv
        cases vs with
        | nil => exact hv v (by simp)
        | cons w ws =>
          unfold spaced
          simp only [List.mem_append, not_or]
          exact ⟨⟨hv v (by simp), by decide⟩, ih (fun x hx => hv x (by simp [hx]))⟩
    have hval : ∀ v ∈ valuesOf dec p n, 0 ∉ v := by
      intro v hv
      unfold valuesOf at hv
      obtain ⟨x, _, rfl⟩ := List.mem_map.1 hv
      exact hR.noNul _
    unfold text at h0
    split at h0
    · exact hsp _ hval h0
    · cases hvs : valuesOf dec p n with
      | nil => rw [hvs] at h0; cases h0
      | cons v vs => rw [hvs] at h0; exact hval v (by rw [hvs]; simp) h0
  obtain ⟨rs, content, hagain, hreads⟩ := hR.reads
  have hsha : sha1OfFile E.digest f = some (E.digest content) := by
    unfold sha1OfFile; rw [hagain, Option.bind_some, readAll_reads hreads]; rfl
  obtain ⟨i, hi, hi2, _⟩ := Props.C26_message_id (some (text dec p (bs "Message-ID"))) (sha1OfFile E.digest f) (by rintro t ⟨⟩; exact nonul _)
  obtain ⟨id, rfl⟩ := hi2 (by rw [hsha]; simp)
  obtain ⟨parents, reply, hpar, hself, _⟩ := Props.C26_parents_total (Threading.normId (sha1OfString E.digest) id) (some (text dec p (bs "References"))) (some (text dec p (bs "In-Reply-To")))
    (by rintro t ⟨⟩; exact nonul _) (by rintro t ⟨⟩; exact nonul _)
  refine ⟨id, parents, reply, hi, hpar, fun hroom => ?_⟩
  have hRoom : Room A ((E.keys parents).length + 1) := ⟨fun a ha => ⟨a.thread, hwf.thr a ha⟩, by omega⟩
  have hb : ∀ d ∈ db.docs, d.docId ≤ db.lastDoc := by
    intro d hd
    obtain ⟨a, ha, h1, _⟩ := hsay.docs.left d hd
    rw [h1, hsay.lastDoc]; exact hwf.bound a ha
  obtain ⟨m, hm, hgh⟩ := getHeaders_mail (digest := E.digest) hR.decodes hR.mail
  rw [if_pos hA, hi] at hgh
  simp only at hgh
  have hidx : ∀ {db' st n}, inside E db name f = some (db', st, some n) → indexFile E db name = some (db', st, some n) := by
    intro db' st n h
    unfold indexFile
    rw [if_neg (by rw [hR.writable]; simp), hR.opens]
    simp only [hR.begins, ne_eq, not_true_eq_false, if_false, h, Option.map_some]
    unfold endStatus
    rw [if_neg (by rw [hR.ends]; simp)]
  rcases find_says E hsay id with ⟨f1, f2⟩ | ⟨d, a, f1, f2, ⟨hid, hs⟩, hd, ha⟩
  · -- a new message
    obtain ⟨h1, en, w1, m1, s1, t1⟩ := addName_spec hR.world hR.entry hR.entryLength hR.entryDir true false (by simp)
      (object [bs "Q" ++ Threading.normId (sha1OfString E.digest) id]) rfl (by simp [object, Message.create, Sorted])
    have hmem : ∀ x, x ∈ h1.terms ↔ x = bs "Q" ++ Threading.normId (sha1OfString E.digest) id ∨ NameTerm E.W e x ∨ x = bs "Tmail" := by
      intro x; rw [t1]; simp [object, Message.create, or_assoc]
    have hcur := named_new hR.entryDir s1 (Threading.normId (sha1OfString E.digest) id) (A.lastDoc + 1) hmem
    have hsay' : SaysDb (genDoc db).2 ⟨A.docs, A.lastThread, A.lastDoc + 1⟩ := ⟨hsay.docs, hsay.lastThread, by unfold genDoc; simp [hsay.lastDoc]⟩
    obtain ⟨db', T', thread, r1, r2, r3, r4, r5, _⟩ := linkAndIndex_spec hR (docId := A.lastDoc + 1) (old := none) (new := true) (t0 := none) (to := some (text dec p (bs "To"))) (id := id) hm
      (db0 := db) hsay' hcur rfl hpar hself ⟨hRoom.one, hRoom.room⟩ (by intro t h; cases h)
      ⟨(Kept.refl db).back, (Kept.refl db).forth, fun h d hd => Nat.le_succ_of_le (h d hd)⟩ (fun d hd => Nat.le_succ_of_le (hb d hd)) w1 m1
    have hin : inside E db name f = some (db', .success, some (A.lastDoc + 1)) := by
      unfold inside
      rw [hgh]
      simp only [f1]
      unfold genDoc
      simp only [en]
      rw [hsay.lastDoc]
      unfold genDoc at r1
      rw [hsay.lastDoc] at r1
      exact r1
    refine ⟨db', .success, ⟨A.lastDoc + 1, T', some (valuesFrom E dec p)⟩, hidx hin, r4, .new thread ?_ ?_ rfl ?_, r3, ?_, ?_⟩
    · intro d hd hq
      have := List.find?_eq_none.1 f1 d hd
      exact this (by simpa using hq)
    · intro d hd h0
      have := hb d hd
      simp only at h0
      rw [hsay.lastDoc] at this; omega
    · intro x
      simp only
      rw [r5, hmem]
      unfold Gives
      constructor
      · rintro ((h | h | h) | h)
        · exact .inl h
        · exact .inr (.inr (.inl h))
        · exact .inr (.inl h)
        · exact .inr (.inr (.inr h))
      · rintro (h | h | h | h)
        · exact .inl (.inl h)
        · exact .inl (.inr (.inr h))
        · exact .inl (.inr (.inl h))
        · exact .inr h
    · unfold Threading.addMessage
      rw [f2]
      exact r2
    · unfold Threading.addMessage
      rw [f2]
      simp
  · -- a message or ghost that is there
    obtain ⟨t, ht, htb⟩ := hRoom.one a ha
    obtain ⟨h1, en, w1, m1, s1, t1⟩ := addName_spec hR.world hR.entry hR.entryLength hR.entryDir (decide (a.kind = .ghost)) (decide (a.kind = .ghost)) (fun h => h) (object d.terms) rfl hs.sorted
    have hmem : ∀ x, x ∈ h1.terms ↔ ((x ∈ d.terms ∨ NameTerm E.W e x) ∧ ¬ (decide (a.kind = .ghost) = true ∧ x = bs "Tghost")) ∨ (decide (a.kind = .ghost) = true ∧ x = bs "Tmail") := t1
    have hcur := named_old hR.entryDir hs s1 rfl hmem
    have hth : threadOf h1.terms = some (Open.hex16 t) := threadOf_says hcur ht
    have hmidq : Threading.normId (sha1OfString E.digest) id = a.mid := by
      unfold Threading.findMid at f2
      have h0 := List.find?_some f2
      simp only [beq_iff_eq] at h0
      exact h0.symm
    obtain ⟨db', T', thread, r1, r2, r3, r4, r5, r6⟩ := linkAndIndex_spec hR (docId := d.docId) (old := d.values) (new := decide (a.kind = .ghost)) (t0 := some t) (to := some (text dec p (bs "To"))) (id := id) hm
      (db0 := db) hsay hcur hid.symm (parents := parents) (reply := reply) (by simp only; rw [← hmidq]; exact hpar) (by simp only; rw [← hmidq]; exact hself) hRoom
      (by rintro u ⟨⟩; exact ⟨htb, (hcur.threads _).2 ⟨t, by simp [ht], rfl⟩⟩) (Kept.refl db) hb w1 m1
    have hthr := r6 t rfl
    subst hthr
    have hin : inside E db name f = some (db', if decide (a.kind = .ghost) then .success else .duplicateMessageId, some d.docId) := by
      unfold inside
      rw [hgh]
      simp only [f1, readGhost_says hs, en, hth]
      exact r1
    have hQ : bs "Q" ++ Threading.normId (sha1OfString E.digest) id ∈ d.terms := by rw [hs.id]; exact hmidq
    have hG : bs "G" ++ Open.hex16 t ∈ d.terms := by rw [hs.threads]; exact ⟨t, by simp [ht], rfl⟩
    have hT : bs "T" ++ kindTerm a.kind ∈ d.terms := by rw [hs.kind]
    have hstat : Threading.addMessage (sha1OfString E.digest) A e id (E.keys parents) = (if a.kind = .ghost then .success else .duplicateMessageId,
        (Threading.putDoc (Threading.finishThread (Threading.linkParents (sha1OfString E.digest) ⟨A, { a with kind := .mail, files := Threading.addTo a.files e }, some t⟩ (E.keys parents))).db
          (Threading.finishThread (Threading.linkParents (sha1OfString E.digest) ⟨A, { a with kind := .mail, files := Threading.addTo a.files e }, some t⟩ (E.keys parents))).cur)) := by
      unfold Threading.addMessage
      rw [f2]
      simp only [Threading.thread_eq ht]
    rw [hstat]
    cases hkind : a.kind with
    | ghost =>
      simp only [hkind, decide_true, if_true] at hin r4
      refine ⟨db', .success, ⟨d.docId, T', some (valuesFrom E dec p)⟩, hidx hin, r4, .ghost d _ hd hQ ?_ hG rfl rfl ?_, r3, ?_, ?_⟩
      · rw [hkind] at hT; exact hT
      · intro x
        simp only
        rw [r5, hmem]
        simp only [hkind, decide_true, true_and]
        unfold Gives
        have nt : NameTerm E.W e x → x ≠ bs "Tghost" := by
          rintro h rfl
          exact nameTerm_not (p := bs "T") (x := bs "ghost") h (by simp)
        constructor
        · rintro ((⟨h | h, h'⟩ | h) | h)
          · exact .inl ⟨h, h'⟩
          · exact .inr (.inr (.inl h))
          · exact .inr (.inl h)
          · exact .inr (.inr (.inr h))
        · rintro (⟨h, h'⟩ | h | h | h)
          · exact .inl (.inl ⟨.inl h, h'⟩)
          · exact .inl (.inr h)
          · exact .inl (.inl ⟨.inr h, nt h⟩)
          · exact .inr h
      · exact r2
      · simp
    | mail =>
      have hd0 : decide (a.kind = Threading.Kind.ghost) = false := by rw [hkind]; decide
      simp only [hd0, Bool.false_eq_true, if_false] at hin r4
      refine ⟨db', .duplicateMessageId, ⟨d.docId, T', d.values⟩, hidx hin, r4, .duplicate d _ hd hQ ?_ hG rfl rfl ?_, r3, ?_, ?_⟩
      · rw [hkind] at hT; exact hT
      · intro x
        simp only
        rw [r5, hmem]
        simp only [hd0, Bool.false_eq_true, false_and, not_false_eq_true, and_true, or_false]
        unfold Gives
        exact or_assoc
      · exact r2
      · simp

end Notmuch.AddFile
