import Verif.Proofs.ThreadAdd

namespace Notmuch.Threading
open Notmuch.ThreadSpec

theorem mem_postings (db : Db) (p : Doc → Bool) (x : Nat) :
    x ∈ postings db p ↔ ∃ d ∈ db.docs, p d = true ∧ d.docId = x := by
  unfold postings
  rw [List.mem_mergeSort, List.mem_map]
  simp only [List.mem_filter, and_assoc]

theorem sorted_postings (db : Db) (p : Doc → Bool) : (postings db p).Pairwise (· ≤ ·) := by
  unfold postings
  have := List.pairwise_mergeSort (le := fun (a b : Nat) => decide (a ≤ b)) (by intro a b c; simp; omega)
    (by intro a b; simp; omega) ((db.docs.filter p).map (·.docId))
  simpa using this

theorem mem_skipTo {l : List Nat} (h : l.Pairwise (· ≤ ·)) (x y : Nat) : y ∈ skipTo l x ↔ y ∈ l ∧ x ≤ y := by
  unfold skipTo
  induction l with
  | nil => simp
  | cons a l ih =>
    rw [List.pairwise_cons] at h
    rw [List.dropWhile_cons]
    split
    · rename_i ha
      have ha : a < x := by simpa using ha
      rw [ih h.2, List.mem_cons]
      constructor
      · rintro ⟨h1, h2⟩; exact ⟨Or.inr h1, h2⟩
      · rintro ⟨rfl | h1, h2⟩
        · omega
        · exact ⟨h1, h2⟩
    · rename_i ha
      have ha : x ≤ a := by simpa using ha
      constructor
      · intro hy
        refine ⟨hy, ?_⟩
        rcases List.mem_cons.1 hy with rfl | hy
        · exact ha
        · exact Nat.le_trans ha (h.1 y hy)
      · exact fun hy => hy.1

theorem sorted_skipTo {l : List Nat} (h : l.Pairwise (· ≤ ·)) (x : Nat) : (skipTo l x).Pairwise (· ≤ ·) :=
  h.sublist (List.dropWhile_sublist _)

theorem head_le {a : Nat} {l : List Nat} (h : (a :: l).Pairwise (· ≤ ·)) {x : Nat} (hx : x ∈ a :: l) : a ≤ x := by
  rcases List.mem_cons.1 hx with rfl | hx
  · exact Nat.le_refl _
  · exact (List.pairwise_cons.1 h).1 x hx

theorem intersects_iff (n : Nat) : ∀ ts ms : List Nat, ts.length + ms.length ≤ n →
    ts.Pairwise (· ≤ ·) → ms.Pairwise (· ≤ ·) → (intersects ts ms = true ↔ ∃ x, x ∈ ts ∧ x ∈ ms) := by
  induction n with
  | zero =>
    intro ts ms hn _ _
    have : ts = [] := List.length_eq_zero_iff.1 (by omega)
    subst this
    simp [intersects]
  | succ n ih =>
    intro ts ms hn hts hms
    cases ts with
    | nil => simp [intersects]
    | cons t ts =>
    cases ms with
    | nil => simp [intersects]
    | cons m ms =>
    rw [intersects.eq_def]
    simp only
    have k1 : ∀ x, x ∈ t :: ts → x ∈ m :: ms → x ∈ skipTo (t :: ts) m := fun x h1 h2 =>
      (mem_skipTo hts m x).2 ⟨h1, head_le hms h2⟩
    split
    · rename_i h
      refine ⟨fun h => by simp at h, ?_⟩
      rintro ⟨x, h1, h2⟩
      have := k1 x h1 h2
      rw [h] at this; simp at this
    · rename_i t' ts' h
      have hs := sorted_skipTo hts m
      rw [h] at hs
      have k2 : ∀ x, x ∈ t :: ts → x ∈ m :: ms → x ∈ skipTo (m :: ms) t' := by
        intro x h1 h2
        have := k1 x h1 h2
        rw [h] at this
        exact (mem_skipTo hms t' x).2 ⟨h2, head_le hs this⟩
      have ht' : t' ∈ t :: ts := ((mem_skipTo hts m t').1 (by rw [h]; simp)).1
      split
      · rename_i e
        exact ⟨fun _ => ⟨t', ht', by simp [e]⟩, fun _ => rfl⟩
      · rename_i hne
        split
        · rename_i h2
          refine ⟨fun h => by simp at h, ?_⟩
          rintro ⟨x, h1, h3⟩
          have := k2 x h1 h3
          rw [h2] at this; simp at this
        · rename_i m' ms' h2
          have hs2 := sorted_skipTo hms t'
          rw [h2] at hs2
          have hm' : m' ∈ m :: ms := ((mem_skipTo hms t' m').1 (by rw [h2]; simp)).1
          split
          · rename_i e
            exact ⟨fun _ => ⟨t', ht', e ▸ hm'⟩, fun _ => rfl⟩
          · have l1 := skipTo_length_le (t :: ts) m
            have l2 : skipTo (m :: ms) t' = skipTo ms t' := by
              have := skipTo_ge h
              unfold skipTo
              rw [List.dropWhile_cons, if_pos (by simp; omega)]
            have l3 := skipTo_length_le ms t'
            rw [h] at l1
            rw [← l2, h2] at l3
            rw [ih (t' :: ts') (m' :: ms') (by simp at hn l1 l3 ⊢; omega) hs hs2]
            constructor
            · rintro ⟨x, h3, h4⟩
              rw [← h] at h3
              rw [← h2] at h4
              exact ⟨x, ((mem_skipTo hts m x).1 h3).1, ((mem_skipTo hms t' x).1 h4).1⟩
            · rintro ⟨x, h3, h4⟩
              exact ⟨x, by rw [← h]; exact k1 x h3 h4, by rw [← h2]; exact k2 x h3 h4⟩

/-- What holds of every database. -/
structure Inv2 (sha1 : Str → Str) (hist : List Op) (db : Db) : Prop where
  wf : WF db
  norm : ∀ d ∈ db.docs, normId sha1 d.mid = d.mid
  ghost : ∀ d ∈ db.docs, d.kind = .ghost → d.refs = [] ∧ d.files = [] ∧ ∃ e ∈ db.docs, e.kind = .mail ∧ e.thread = d.thread
  mail : ∀ d ∈ db.docs, d.kind = .mail → d.files ≠ [] ∧ Added sha1 hist d.mid
  conn : ∀ d ∈ db.docs, ∀ e ∈ db.docs, d.thread = e.thread → Conn (Mentions sha1 hist) d.mid e.mid
  closed : ∀ d ∈ db.docs, ∀ r ∈ d.refs, ∃ e ∈ db.docs, e.mid = normId sha1 r ∧ e.thread = d.thread

theorem filter_len {file : Str} {l : List Str} (hf : file ∈ l) :
    (l.length > 1 ∧ l.filter (· ≠ file) ≠ []) ↔ l.filter (· ≠ file) ≠ [] := by
  refine ⟨fun h => h.2, fun h => ⟨?_, h⟩⟩
  match l, hf, h with
  | [a], hf, h =>
    simp at hf; subst hf
    simp at h
  | _ :: _ :: _, _, _ => simp

/-- What removing a file does. -/
inductive RemoveSpec (sha1 : Str → Str) (db : Db) (file : Str) : Status → Db → Prop
  | absent : (∀ d ∈ db.docs, file ∉ d.files) → RemoveSpec sha1 db file .success db
  | other (d : Doc) (db' : Db) : d ∈ db.docs → file ∈ d.files → (∀ e ∈ db.docs, file ∈ e.files → d.docId ≤ e.docId) →
      d.files.filter (· ≠ file) ≠ [] →
      db'.docs = db.docs.map (fun e => if e.docId = d.docId then { d with files := d.files.filter (· ≠ file) } else e) →
      db'.lastDoc = db.lastDoc → db'.lastThread = db.lastThread →
      RemoveSpec sha1 db file .duplicateMessageId db'
  | ghosted (d : Doc) (db' : Db) : d ∈ db.docs → file ∈ d.files → (∀ e ∈ db.docs, file ∈ e.files → d.docId ≤ e.docId) →
      d.files.filter (· ≠ file) = [] →
      (∃ e ∈ db.docs, e.docId ≠ d.docId ∧ e.kind = .mail ∧ e.thread = d.thread) →
      db'.docs = db.docs.filter (fun e => e.docId ≠ d.docId) ++ [⟨db.lastDoc + 1, d.mid, .ghost, [d.thread], [], []⟩] →
      db'.lastDoc = db.lastDoc + 1 → db'.lastThread = db.lastThread →
      RemoveSpec sha1 db file .success db'
  | gone (d : Doc) (db' : Db) : d ∈ db.docs → file ∈ d.files → (∀ e ∈ db.docs, file ∈ e.files → d.docId ≤ e.docId) →
      d.files.filter (· ≠ file) = [] →
      (∀ e ∈ db.docs, e.kind = .mail → e.thread = d.thread → e = d) →
      db'.docs = db.docs.filter (fun e => e.thread ≠ d.thread) →
      db'.lastDoc = db.lastDoc → db'.lastThread = db.lastThread →
      RemoveSpec sha1 db file .success db'

theorem find_docId {db : Db} (h : WF db) {d : Doc} (hd : d ∈ db.docs) :
    db.docs.find? (fun e => e.docId == d.docId) = some d := by
  rw [List.find?_eq_some_iff_append]
  obtain ⟨as, bs, e⟩ := List.append_of_mem hd
  refine ⟨by simp, as, bs, e, ?_⟩
  intro a ha
  have h1 := h.ids
  rw [e, List.map_append, List.nodup_append] at h1
  have := h1.2.2 a.docId (List.mem_map_of_mem ha) d.docId (by simp)
  simpa using this

theorem removeMessage_spec {sha1 : Str → Str} {hist : List Op} {db : Db} (h : Inv2 sha1 hist db) (file : Str) :
    RemoveSpec sha1 db file (removeMessage sha1 db file).1 (removeMessage sha1 db file).2 := by
  cases hp : postings db (fun e => file ∈ e.files) with
  | nil =>
    have : removeMessage sha1 db file = (.success, db) := by
      unfold removeMessage; rw [hp]; rfl
    rw [this]
    apply RemoveSpec.absent
    intro d hd hf
    have : d.docId ∈ postings db (fun e => file ∈ e.files) := (mem_postings _ _ _).2 ⟨d, hd, by simpa using hf, rfl⟩
    rw [hp] at this; simp at this
  | cons x xs =>
    have hx : x ∈ postings db (fun e => file ∈ e.files) := by rw [hp]; simp
    obtain ⟨d, hd, hf, rfl⟩ := (mem_postings _ _ _).1 hx
    have hf : file ∈ d.files := by simpa using hf
    have hleast : ∀ e ∈ db.docs, file ∈ e.files → d.docId ≤ e.docId := by
      intro e he hfe
      have h1 : e.docId ∈ postings db (fun e => file ∈ e.files) := (mem_postings _ _ _).2 ⟨e, he, by simpa using hfe, rfl⟩
      have hs := sorted_postings db (fun e => file ∈ e.files)
      rw [hp] at h1 hs
      exact head_le hs h1
    have hmail : d.kind = .mail := by
      cases hk : d.kind with
      | mail => rfl
      | ghost => have := (h.ghost d hd hk).2.1; rw [this] at hf; simp at hf
    have hres : removeMessage sha1 db file =
        if d.files.length > 1 ∧ d.files.filter (· ≠ file) ≠ [] then
        (.duplicateMessageId, putDoc db { d with files := d.files.filter (· ≠ file) })
        else (.success, deleteMessage sha1 db d) := by
      unfold removeMessage
      rw [hp]
      simp only [List.head?_cons, find_docId h.wf hd]
    by_cases hother : d.files.filter (· ≠ file) ≠ []
    · rw [hres, if_pos ((filter_len hf).2 hother)]
      rw [putDoc_old db { d with files := d.files.filter (· ≠ file) } (show d.docId ∈ _ from List.mem_map_of_mem hd)]
      exact RemoveSpec.other d _ hd hf hleast hother rfl rfl rfl
    · rw [hres, if_neg (fun hc => hother hc.2)]
      have hnil : d.files.filter (· ≠ file) = [] := by
        cases hq : d.files.filter (· ≠ file) with
        | nil => rfl
        | cons a b => rw [hq] at hother; exact absurd (by simp) hother
      have hmem1 : ∀ e, e ∈ db.docs.filter (fun e => decide (e.docId ≠ d.docId)) ↔ e ∈ db.docs ∧ e.docId ≠ d.docId := by
        intro e; rw [List.mem_filter]; simp
      have hthr : ∀ e ∈ db.docs, ∀ t, t ∈ e.threads ↔ e.thread = t := by
        intro e he t
        have := (h.wf.thr e he).1
        constructor
        · intro ht
          rw [this, List.mem_singleton] at ht
          exact ht.symm
        · intro ht
          rw [this, List.mem_singleton]
          exact ht.symm
      have hint : intersects (postings { db with docs := db.docs.filter (fun e => e.docId ≠ d.docId) } (fun e => d.thread ∈ e.threads))
            (postings { db with docs := db.docs.filter (fun e => e.docId ≠ d.docId) } (fun e => e.kind = .mail)) = true ↔
          ∃ e ∈ db.docs, e.docId ≠ d.docId ∧ e.kind = .mail ∧ e.thread = d.thread := by
        rw [intersects_iff _ _ _ (Nat.le_refl _) (sorted_postings _ _) (sorted_postings _ _)]
        constructor
        · rintro ⟨x, h1, h2⟩
          obtain ⟨e, he, h3, rfl⟩ := (mem_postings _ _ _).1 h1
          obtain ⟨e', he', h4, h5⟩ := (mem_postings _ _ _).1 h2
          rw [hmem1] at he he'
          have := nodup_map_inj h.wf.ids he'.1 he.1 h5
          subst this
          exact ⟨e', he'.1, he'.2, by simpa using h4, (hthr e' he'.1 _).1 (by simpa using h3)⟩
        · rintro ⟨e, he, h1, h2, h3⟩
          exact ⟨e.docId, (mem_postings _ _ _).2 ⟨e, (hmem1 e).2 ⟨he, h1⟩, by simpa using (hthr e he _).2 h3, rfl⟩,
            (mem_postings _ _ _).2 ⟨e, (hmem1 e).2 ⟨he, h1⟩, by simpa using h2, rfl⟩⟩
      have hnone : findMid { db with docs := db.docs.filter (fun e => e.docId ≠ d.docId) } (normId sha1 d.mid) = none := by
        apply (find_none_iff _).2
        rw [h.norm d hd]
        simp only
        rw [List.mem_map]
        rintro ⟨e, he, e1⟩
        rw [hmem1] at he
        exact he.2 (by rw [nodup_map_inj h.wf.mids he.1 hd e1])
      unfold deleteMessage
      simp only
      rw [if_neg (by rw [hmail]; simp)]
      by_cases hi : ∃ e ∈ db.docs, e.docId ≠ d.docId ∧ e.kind = .mail ∧ e.thread = d.thread
      · rw [if_pos (hint.2 hi), hnone]
        simp only [genDoc]
        rw [putDoc_new, h.norm d hd]
        · exact RemoveSpec.ghosted d _ hd hf hleast hnil hi rfl rfl rfl
        · have := fresh_doc h.wf.bound
          simp only
          intro hc
          apply this
          rw [List.mem_map] at hc ⊢
          obtain ⟨e, he, e1⟩ := hc
          exact ⟨e, ((hmem1 e).1 he).1, e1⟩
      · rw [if_neg (fun hc => hi (hint.1 hc))]
        refine RemoveSpec.gone d _ hd hf hleast hnil ?_ ?_ rfl rfl
        · intro e he h1 h2
          by_cases h3 : e.docId = d.docId
          · exact nodup_map_inj h.wf.ids he hd h3
          · exact absurd ⟨e, he, h3, h1, h2⟩ hi
        · simp only
          rw [List.filter_filter]
          apply List.filter_congr
          intro e he
          have := hthr e he d.thread
          by_cases h3 : e.docId = d.docId
          · have := nodup_map_inj h.wf.ids he hd h3
            subst this
            simp [(hthr e he e.thread).2 rfl]
          · simp [this, h3]

theorem retag_kind (L : List Nat) (w : Nat) (d : Doc) : (retag L w d).kind = d.kind := by
  unfold retag; split <;> rfl
theorem retag_refs (L : List Nat) (w : Nat) (d : Doc) : (retag L w d).refs = d.refs := by
  unfold retag; split <;> rfl
theorem retag_files (L : List Nat) (w : Nat) (d : Doc) : (retag L w d).files = d.files := by
  unfold retag; split <;> rfl

theorem inv2_empty (sha1 : Str → Str) : Inv2 sha1 [] empty where
  wf := (inv_empty sha1).wf
  norm := by simp [empty]
  ghost := by simp [empty]
  mail := by simp [empty]
  conn := by simp [empty]
  closed := by simp [empty]

theorem inv2_add {sha1 : Str → Str} (hs : Sha sha1) {hist : List Op} {db0 : Db} (h : Inv2 sha1 hist db0)
    (file mid : Str) (refs : List Str)
    (hself : ∀ r ∈ refs, normId sha1 r = normId sha1 mid → r = normId sha1 mid) :
    Inv2 sha1 (hist ++ [.add file mid refs]) (addMessage sha1 db0 file mid refs).2 := by
  obtain ⟨w, L, cur, ha⟩ := addMessage_spec sha1 db0 file mid refs h.wf hself
  generalize (addMessage sha1 db0 file mid refs).2 = db at ha
  constructor
  · exact ha.wf
  · intro d hd
    rcases ha.cases h.wf hd with ⟨hm, rfl⟩ | ⟨hm, d0, hd0, rfl⟩ | ⟨hm, hn, ⟨r, _, e⟩, hg⟩
    · rw [hm, normId_idem hs]
    · rw [retag_mid, h.norm d0 hd0]
    · rw [e, normId_idem hs]
  · intro d hd hk
    rcases ha.cases h.wf hd with ⟨hm, rfl⟩ | ⟨hm, d0, hd0, rfl⟩ | ⟨hm, hn, ⟨r, _, e⟩, hg⟩
    · rw [ha.cur_kind] at hk; exact absurd hk (by simp)
    · rw [retag_kind] at hk
      obtain ⟨h1, h2, e, he, hek, het⟩ := h.ghost d0 hd0 hk
      refine ⟨by rw [retag_refs, h1], by rw [retag_files, h2], ?_⟩
      rw [retag_thread L w d0 (h.wf.thr d0 hd0).1]
      by_cases hL : d0.thread ∈ L
      · exact ⟨cur, ha.cur_mem, ha.cur_kind, by rw [if_pos hL, thread_eq ha.cur_thr]⟩
      · have hem : e.mid ≠ normId sha1 mid := fun hem => hL (het ▸ ha.m_thread he hem)
        refine ⟨_, ha.old e he hem, by rw [retag_kind, hek], ?_⟩
        rw [retag_thread L w e (h.wf.thr e he).1, het]
    · exact ⟨hg.2.2.1, hg.2.2.2, cur, ha.cur_mem, ha.cur_kind, by rw [thread_eq ha.cur_thr, thread_eq hg.2.1]⟩
  · intro d hd hk
    rw [added_append]
    rcases ha.cases h.wf hd with ⟨hm, rfl⟩ | ⟨hm, d0, hd0, rfl⟩ | ⟨hm, hn, ⟨r, _, e⟩, hg⟩
    · refine ⟨?_, Or.inr hm⟩
      have := (ha.cur_files file).2 (Or.inr rfl)
      intro hc; rw [hc] at this; simp at this
    · rw [retag_kind] at hk
      rw [retag_files, retag_mid]
      exact ⟨(h.mail d0 hd0 hk).1, Or.inl (h.mail d0 hd0 hk).2⟩
    · rw [hg.1] at hk; exact absurd hk (by simp)
  · intro d hd e he hde
    have hj := (ha.join h.wf (List.mem_map_of_mem hd) (List.mem_map_of_mem he)).1
      ((sameThread_iff ha.wf).2 ⟨d, hd, e, he, rfl, rfl, hde⟩)
    refine Conn.congr ?_ hj
    rintro x y (hxy | ⟨rfl, r, hr, rfl⟩)
    · obtain ⟨d1, hd1, e1, he1, rfl, rfl, ht⟩ := (sameThread_iff h.wf).1 hxy
      exact Conn.mono (fun _ _ hm => mentions_append.2 (Or.inl hm)) (h.conn d1 hd1 e1 he1 ht)
    · exact .edge (mentions_append.2 (Or.inr ⟨rfl, r, (List.mem_filter.1 hr).1, rfl⟩))
  · intro d hd r hr
    rcases ha.cases h.wf hd with ⟨hm, rfl⟩ | ⟨hm, d0, hd0, rfl⟩ | ⟨hm, hn, _, hg⟩
    · rw [ha.cur_refs] at hr
      rw [thread_eq ha.cur_thr]
      rcases hr with ⟨d0, hd0, hm0, hr⟩ | ⟨hr, _⟩
      · obtain ⟨e, he, hem, het⟩ := h.closed d0 hd0 r hr
        obtain ⟨e', he', hem', het'⟩ := ha.old_thread h.wf he
        refine ⟨e', he', by rw [hem', hem], ?_⟩
        rw [thread_eq het', het, if_pos (ha.m_thread hd0 hm0)]
      · obtain ⟨e, he, hem, het⟩ := ha.parent_thread h.wf hr
        exact ⟨e, he, hem, het⟩
    · rw [retag_refs] at hr
      obtain ⟨e, he, hem, het⟩ := h.closed d0 hd0 r hr
      obtain ⟨e', he', hem', het'⟩ := ha.old_thread h.wf he
      refine ⟨e', he', by rw [hem', hem], ?_⟩
      rw [thread_eq het', retag_thread L w d0 (h.wf.thr d0 hd0).1, het]
    · rw [hg.2.2.1] at hr; simp at hr

theorem mentions_remove {sha1 : Str → Str} {hist : List Op} {file a b : Str} (h : Mentions sha1 hist a b) :
    Mentions sha1 (hist ++ [.remove file]) a b := by
  obtain ⟨f, i, rs, r, ho, hr⟩ := h
  exact ⟨f, i, rs, r, by simp [ho], hr⟩

theorem added_remove {sha1 : Str → Str} {hist : List Op} {file a : Str} (h : Added sha1 hist a) :
    Added sha1 (hist ++ [.remove file]) a := by
  obtain ⟨f, i, rs, ho, hr⟩ := h
  exact ⟨f, i, rs, by simp [ho], hr⟩

/-- The documents after a removal. -/
theorem wf_sub {db db' : Db} (h : WF db) (p : Doc → Bool) (hd : db'.docs = db.docs.filter p)
    (h1 : db'.lastDoc = db.lastDoc) (h2 : db'.lastThread = db.lastThread) : WF db' := by
  have hsub : db'.docs.Sublist db.docs := by rw [hd]; exact List.filter_sublist
  exact ⟨h.mids.sublist (hsub.map _), h.ids.sublist (hsub.map _),
    fun d hd => by rw [h1]; exact h.bound d (hsub.subset hd), fun d hd => by rw [h2]; exact h.thr d (hsub.subset hd)⟩

theorem inv2_remove {sha1 : Str → Str} {hist : List Op} {db : Db} (h : Inv2 sha1 hist db) (file : Str) :
    Inv2 sha1 (hist ++ [.remove file]) (removeMessage sha1 db file).2 := by
  have hmono : ∀ {a b}, Conn (Mentions sha1 hist) a b → Conn (Mentions sha1 (hist ++ [.remove file])) a b :=
    fun hc => Conn.mono (fun _ _ hm => mentions_remove hm) hc
  have hr := removeMessage_spec h file
  generalize (removeMessage sha1 db file).1 = st at hr
  generalize (removeMessage sha1 db file).2 = db' at hr
  cases hr with
  | absent _ =>
    exact ⟨h.wf, h.norm, h.ghost, fun d hd hk => ⟨(h.mail d hd hk).1, added_remove (h.mail d hd hk).2⟩,
      fun d hd e he ht => hmono (h.conn d hd e he ht), h.closed⟩
  | other d _ hd hf hl hne hdocs h1 h2 =>
    generalize hnew : ({ d with files := d.files.filter (· ≠ file) } : Doc) = new at hdocs
    have n1 : new.docId = d.docId := by rw [← hnew]
    have n2 : new.mid = d.mid := by rw [← hnew]
    have n3 : new.threads = d.threads := by rw [← hnew]
    have n4 : new.kind = d.kind := by rw [← hnew]
    have n5 : new.refs = d.refs := by rw [← hnew]
    have n6 : new.files = d.files.filter (· ≠ file) := by rw [← hnew]
    have n7 : new.thread = d.thread := by unfold Doc.thread; rw [n3]
    have hmail : d.kind = .mail := by
      cases hk : d.kind with
      | mail => rfl
      | ghost => have := (h.ghost d hd hk).2.1; rw [this] at hf; simp at hf
    have hfwd : ∀ e ∈ db.docs, ∃ e' ∈ db'.docs, e'.mid = e.mid ∧ e'.thread = e.thread ∧ e'.kind = e.kind := by
      intro e he
      rw [hdocs]
      by_cases hc : e.docId = d.docId
      · have := nodup_map_inj h.wf.ids he hd hc
        subst this
        exact ⟨new, List.mem_map.2 ⟨e, he, if_pos rfl⟩, n2, n7, n4⟩
      · exact ⟨e, List.mem_map.2 ⟨e, he, if_neg hc⟩, rfl, rfl, rfl⟩
    have hbwd : ∀ e' ∈ db'.docs, e' ∈ db.docs ∨ e' = new := by
      intro e' he'
      rw [hdocs, List.mem_map] at he'
      obtain ⟨e, he, rfl⟩ := he'
      split
      · exact Or.inr rfl
      · exact Or.inl he
    have hbwd2 : ∀ e' ∈ db'.docs, ∃ e ∈ db.docs, e.mid = e'.mid ∧ e.thread = e'.thread ∧ e.kind = e'.kind ∧ e.refs = e'.refs ∧ e.threads = e'.threads ∧ e.docId = e'.docId := by
      intro e' he'
      rcases hbwd e' he' with he | rfl
      · exact ⟨e', he, rfl, rfl, rfl, rfl, rfl, rfl⟩
      · exact ⟨d, hd, n2.symm, n7.symm, n4.symm, n5.symm, n3.symm, n1.symm⟩
    have hids : db'.docs.map (·.docId) = db.docs.map (·.docId) := by
      rw [hdocs, List.map_map]
      apply List.map_congr_left
      intro e he
      simp only [Function.comp]
      split
      · rename_i hc; rw [n1, hc]
      · rfl
    have hmids : db'.docs.map (·.mid) = db.docs.map (·.mid) := by
      rw [hdocs, List.map_map]
      apply List.map_congr_left
      intro e he
      simp only [Function.comp]
      split
      · rename_i hc; rw [n2, nodup_map_inj h.wf.ids he hd hc]
      · rfl
    constructor
    · constructor
      · rw [hmids]; exact h.wf.mids
      · rw [hids]; exact h.wf.ids
      · intro e' he'
        obtain ⟨e, he, _, _, _, _, _, h8⟩ := hbwd2 e' he'
        rw [h1, ← h8]; exact h.wf.bound e he
      · intro e' he'
        obtain ⟨e, he, _, h7, _, _, h8, _⟩ := hbwd2 e' he'
        rw [h2, ← h8, ← h7]; exact h.wf.thr e he
    · intro e' he'
      obtain ⟨e, he, h3, _⟩ := hbwd2 e' he'
      rw [← h3]; exact h.norm e he
    · intro e' he' hk
      rcases hbwd e' he' with he | rfl
      · obtain ⟨g1, g2, e2, he2, hk2, ht2⟩ := h.ghost e' he hk
        obtain ⟨e3, he3, _, ht3, hk3⟩ := hfwd e2 he2
        exact ⟨g1, g2, e3, he3, by rw [hk3, hk2], by rw [ht3, ht2]⟩
      · rw [n4, hmail] at hk; exact absurd hk (by simp)
    · intro e' he' hk
      rcases hbwd e' he' with he | rfl
      · exact ⟨(h.mail e' he hk).1, added_remove (h.mail e' he hk).2⟩
      · rw [n2, n6]; exact ⟨hne, added_remove (h.mail d hd hmail).2⟩
    · intro d1 hd1 e1 he1 ht
      obtain ⟨d2, hd2, hm2, ht2, _⟩ := hbwd2 d1 hd1
      obtain ⟨e2, he2, hm3, ht3, _⟩ := hbwd2 e1 he1
      rw [← hm2, ← hm3]
      exact hmono (h.conn d2 hd2 e2 he2 (by rw [ht2, ht3, ht]))
    · intro e' he' r hr
      obtain ⟨e, he, _, ht, _, hrf, _⟩ := hbwd2 e' he'
      rw [← hrf] at hr
      obtain ⟨e2, he2, hm2, ht2⟩ := h.closed e he r hr
      obtain ⟨e3, he3, hm3, ht3, _⟩ := hfwd e2 he2
      exact ⟨e3, he3, by rw [hm3, hm2], by rw [ht3, ht2, ht]⟩
  | ghosted d _ hd hf hl hnil hi hdocs h1 h2 =>
    have hmem : ∀ e, e ∈ db'.docs ↔ (e ∈ db.docs ∧ e.docId ≠ d.docId) ∨ e = ⟨db.lastDoc + 1, d.mid, .ghost, [d.thread], [], []⟩ := by
      intro e; rw [hdocs, List.mem_append, List.mem_filter, List.mem_singleton]; simp
    have hfwd : ∀ e ∈ db.docs, ∃ e' ∈ db'.docs, e'.mid = e.mid ∧ e'.thread = e.thread ∧ (e.docId ≠ d.docId → e' = e) := by
      intro e he
      by_cases hc : e.docId = d.docId
      · have := nodup_map_inj h.wf.ids he hd hc
        subst this
        exact ⟨_, (hmem _).2 (Or.inr rfl), rfl, rfl, fun hc => absurd rfl hc⟩
      · exact ⟨e, (hmem _).2 (Or.inl ⟨he, hc⟩), rfl, rfl, fun _ => rfl⟩
    have hbwd2 : ∀ e' ∈ db'.docs, ∃ e ∈ db.docs, e.mid = e'.mid ∧ e.thread = e'.thread := by
      intro e' he'
      rcases (hmem e').1 he' with he | rfl
      · exact ⟨e', he.1, rfl, rfl⟩
      · exact ⟨d, hd, rfl, rfl⟩
    obtain ⟨ml, hml, hml1, hml2, hml3⟩ := hi
    constructor
    · have hsub : (db.docs.filter (fun e => decide (e.docId ≠ d.docId))).Sublist db.docs := List.filter_sublist
      constructor
      · rw [hdocs, List.map_append, List.nodup_append]
        refine ⟨h.wf.mids.sublist (hsub.map _), by simp, ?_⟩
        rintro a ha b hb rfl
        simp only [List.map_cons, List.map_nil, List.mem_singleton] at hb
        subst hb
        rw [List.mem_map] at ha
        obtain ⟨e, he, e1⟩ := ha
        rw [List.mem_filter] at he
        have := nodup_map_inj h.wf.mids he.1 hd e1
        subst this
        simp at he
      · rw [hdocs, List.map_append, List.nodup_append]
        refine ⟨h.wf.ids.sublist (hsub.map _), by simp, ?_⟩
        rintro a ha b hb rfl
        simp only [List.map_cons, List.map_nil, List.mem_singleton] at hb
        subst hb
        rw [List.mem_map] at ha
        obtain ⟨e, he, e1⟩ := ha
        have := h.wf.bound e (hsub.subset he)
        omega
      · intro e he
        rw [h1]
        rcases (hmem e).1 he with he | rfl
        · exact Nat.le_succ_of_le (h.wf.bound e he.1)
        · exact Nat.le_refl _
      · intro e he
        rw [h2]
        rcases (hmem e).1 he with he | rfl
        · exact h.wf.thr e he.1
        · exact ⟨rfl, (h.wf.thr d hd).2⟩
    · intro e' he'
      obtain ⟨e, he, h3, _⟩ := hbwd2 e' he'
      rw [← h3]; exact h.norm e he
    · intro e' he' hk
      rcases (hmem e').1 he' with he | rfl
      · obtain ⟨g1, g2, e2, he2, hk2, ht2⟩ := h.ghost e' he.1 hk
        refine ⟨g1, g2, ?_⟩
        by_cases hc : e2.docId = d.docId
        · have := nodup_map_inj h.wf.ids he2 hd hc
          subst this
          exact ⟨ml, (hmem _).2 (Or.inl ⟨hml, hml1⟩), hml2, by rw [hml3, ht2]⟩
        · exact ⟨e2, (hmem _).2 (Or.inl ⟨he2, hc⟩), hk2, ht2⟩
      · exact ⟨rfl, rfl, ml, (hmem _).2 (Or.inl ⟨hml, hml1⟩), hml2, hml3⟩
    · intro e' he' hk
      rcases (hmem e').1 he' with he | rfl
      · exact ⟨(h.mail e' he.1 hk).1, added_remove (h.mail e' he.1 hk).2⟩
      · exact absurd hk (by simp)
    · intro d1 hd1 e1 he1 ht
      obtain ⟨d2, hd2, hm2, ht2⟩ := hbwd2 d1 hd1
      obtain ⟨e2, he2, hm3, ht3⟩ := hbwd2 e1 he1
      rw [← hm2, ← hm3]
      exact hmono (h.conn d2 hd2 e2 he2 (by rw [ht2, ht3, ht]))
    · intro e' he' r hr
      rcases (hmem e').1 he' with he | rfl
      · obtain ⟨e2, he2, hm2, ht2⟩ := h.closed e' he.1 r hr
        obtain ⟨e3, he3, hm3, ht3, _⟩ := hfwd e2 he2
        exact ⟨e3, he3, by rw [hm3, hm2], by rw [ht3, ht2]⟩
      · simp at hr
  | gone d _ hd hf hl hnil hi hdocs h1 h2 =>
    have hmem : ∀ e, e ∈ db'.docs ↔ e ∈ db.docs ∧ e.thread ≠ d.thread := by
      intro e; rw [hdocs, List.mem_filter]; simp
    constructor
    · exact wf_sub h.wf _ hdocs h1 h2
    · intro e he; exact h.norm e ((hmem e).1 he).1
    · intro e he hk
      obtain ⟨g1, g2, e2, he2, hk2, ht2⟩ := h.ghost e ((hmem e).1 he).1 hk
      exact ⟨g1, g2, e2, (hmem e2).2 ⟨he2, by rw [ht2]; exact ((hmem e).1 he).2⟩, hk2, ht2⟩
    · intro e he hk
      have := h.mail e ((hmem e).1 he).1 hk
      exact ⟨this.1, added_remove this.2⟩
    · intro d1 hd1 e1 he1 ht
      exact hmono (h.conn d1 ((hmem d1).1 hd1).1 e1 ((hmem e1).1 he1).1 ht)
    · intro e he r hr
      obtain ⟨e2, he2, hm2, ht2⟩ := h.closed e ((hmem e).1 he).1 r hr
      exact ⟨e2, (hmem e2).2 ⟨he2, by rw [ht2]; exact ((hmem e).1 he).2⟩, hm2, ht2⟩

theorem inv2_run {sha1 : Str → Str} (hs : Sha sha1) (ops : List Op) (hself : NoLongSelf sha1 ops) :
    Inv2 sha1 ops (run sha1 ops) := by
  have gen : ∀ (l hist : List Op) (db : Db), Inv2 sha1 hist db → NoLongSelf sha1 l →
      Inv2 sha1 (hist ++ l) (l.foldl (step sha1) db) := by
    intro l
    induction l with
    | nil => intro hist db h _; simpa using h
    | cons o l ih =>
      intro hist db h hn
      have h1 : Inv2 sha1 (hist ++ [o]) (step sha1 db o) := by
        cases o with
        | add f i rs => exact inv2_add hs h f i rs (hn f i rs (by simp))
        | remove f => exact inv2_remove h f
      have h2 := ih (hist ++ [o]) _ h1 (fun f i rs ho => hn f i rs (by simp [ho]))
      simpa using h2
  simpa [run] using gen ops [] empty (inv2_empty sha1) hself

end Notmuch.Threading
