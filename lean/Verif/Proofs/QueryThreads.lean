import Verif.Proofs.Query

/-! # Proofs about thread searches -/

namespace Notmuch.Query
open Notmuch.QuerySpec Notmuch.DocIdSet

/-- The message is not left out of its thread. -/
def kept (q : Query) (d : Doc) : Bool := !(messageExcluded q d && q.omitExcluded = .all)

theorem setMatch_append (ms : List TMsg) (m : TMsg) :
    setMatch (ms ++ [m]) m.doc.mid = some (ms ++ [{ m with isMatch := true }], m.author) := by
  induction ms with
  | nil => simp [setMatch]
  | cons a ms ih => rw [List.cons_append, setMatch, ih]; rfl

theorem setSubject_some (s : Str) (d : Doc) : ∃ s', setSubject (some s) d = some s' := by
  unfold setSubject
  cases d.subject with
  | none => exact ⟨s, rfl⟩
  | some t =>
    simp only
    repeat' split
    all_goals exact ⟨_, rfl⟩

/-- What a round of the loop does to the thread. -/
def stepThread (q : Query) (p : Nat → Bool) (th : Thread) (d : Doc) : Thread :=
  if p d.id then (addMatchedMessage q.sort (addMessage q th d) d (messageExcluded q d)).getD th
  else addMessage q th d

theorem addMessage_kept {q : Query} {d : Doc} (h : kept q d = true) (th : Thread) :
    addMessage q th d = { th with
      messages := th.messages ++ [⟨d, messageExcluded q d, false, docAuthor d⟩]
      totalMessages := th.totalMessages + 1
      totalFiles := th.totalFiles + d.files
      authors := addAuthor th.authors (docAuthor d)
      subject := match th.subject with
        | none => some (d.subject.getD [])
        | some s => some s
      tags := (tags d).foldl addTag th.tags } := by
  unfold addMessage
  unfold kept at h
  simp only [Bool.not_eq_true', ] at h
  simp only [h]
  rfl

theorem addMessage_not_kept {q : Query} {d : Doc} (h : kept q d = false) (th : Thread) : addMessage q th d = th := by
  unfold addMessage
  unfold kept at h
  simp only [Bool.not_eq_false'] at h
  simp only [h, if_true]

theorem addMatched_some {q : Query} {d : Doc} (h : kept q d = true) (th : Thread) :
    ∃ s2, addMatchedMessage q.sort (addMessage q th d) d (messageExcluded q d) = some { addMessage q th d with
      oldest := if decide (d.date < th.oldest) || th.matchedMessages == 0 then d.date else th.oldest
      newest := if decide (d.date > th.newest) || th.matchedMessages == 0 then d.date else th.newest
      subject := some s2
      matchedMessages := if messageExcluded q d then th.matchedMessages else th.matchedMessages + 1
      messages := th.messages ++ [⟨d, messageExcluded q d, true, docAuthor d⟩]
      matchedAuthors := addAuthor th.matchedAuthors (docAuthor d) } := by
  rw [addMessage_kept h]
  unfold addMatchedMessage
  have hsub : ∃ s0, (match th.subject with
        | none => some (d.subject.getD [])
        | some s => some s) = some s0 := by
    cases th.subject <;> exact ⟨_, rfl⟩
  obtain ⟨s0, hs0⟩ := hsub
  simp only [hs0]
  have hm := setMatch_append th.messages ⟨d, messageExcluded q d, false, docAuthor d⟩
  simp only at hm
  rw [hm]
  simp only
  have h1 : ∃ s1, (if (decide (d.date < th.oldest) || th.matchedMessages == 0) && q.sort == .oldestFirst then setSubject (some s0) d else some s0) = some s1 := by
    split
    · exact setSubject_some _ _
    · exact ⟨_, rfl⟩
  obtain ⟨s1, hs1⟩ := h1
  rw [hs1]
  simp only
  have h2 : ∃ s2, (if (decide (d.date > th.newest) || th.matchedMessages == 0) && (decide (q.sort ≠ .oldestFirst) || s1 == []) then setSubject (some s1) d else some s1) = some s2 := by
    split
    · exact setSubject_some _ _
    · exact ⟨_, rfl⟩
  obtain ⟨s2, hs2⟩ := h2
  rw [hs2]
  exact ⟨s2, rfl⟩

theorem excl_arg {q : Query} {d : Doc} (h : kept q d = true) :
    (messageExcluded q d && decide (q.omitExcluded ≠ .all)) = messageExcluded q d := by
  unfold kept at h
  by_cases ha : q.omitExcluded = .all
  · simp [ha] at h ⊢; exact h
  · simp [ha]

theorem threadLoop_spec (q : Query) (p : Nat → Bool) : ∀ (ds : List Doc) (th : Thread) (s : DocIdSet) (pc : Nat → Prop),
    Represents s pc → (ds.map (·.id)).Nodup → (∀ d ∈ ds, pc d.id ↔ p d.id = true) →
    (∀ d ∈ ds, p d.id = true → kept q d = true) →
    ∃ s', threadLoop q ds th s = some (ds.foldl (stepThread q p) th, s') ∧
      Represents s' (fun x => pc x ∧ x ∉ ds.map (·.id))
  | [], th, s, pc, hr, _, _, _ => ⟨s, rfl, by simpa using hr⟩
  | d :: ds, th, s, pc, hr, hn, hp, hk => by
    rw [List.map_cons, List.nodup_cons] at hn
    obtain ⟨b, hb, hb'⟩ := contains_represents hr d.id
    rw [threadLoop, List.foldl_cons]
    simp only [hb]
    cases b with
    | false =>
      have hpd : p d.id = false := by
        have := (hp d (by simp)).2
        cases hh : p d.id
        · rfl
        · simp [this hh] at hb'
      obtain ⟨s', h1, h2⟩ := threadLoop_spec q p ds (addMessage q th d) s pc hr hn.2 (fun e he => hp e (by simp [he])) (fun e he => hk e (by simp [he]))
      refine ⟨s', ?_, h2.covers, fun x => ?_⟩
      · simp only [stepThread, hpd]
        exact h1
      · rw [h2.iff]
        have : pc x → x ≠ d.id := by
          rintro hx rfl
          simp [hx] at hb'
        simp only [List.map_cons, List.mem_cons, not_or]
        constructor
        · rintro ⟨a, b⟩; exact ⟨a, this a, b⟩
        · rintro ⟨a, _, b⟩; exact ⟨a, b⟩
    | true =>
      have hpd : p d.id = true := (hp d (by simp)).1 (hb'.1 rfl)
      have hkd := hk d (by simp) hpd
      obtain ⟨s1, h1, h2⟩ := remove_represents hr d.id
      obtain ⟨s2, h3⟩ := addMatched_some hkd th
      simp only [h1]
      rw [excl_arg hkd, h3]
      simp only
      have hstep : stepThread q p th d = (addMatchedMessage q.sort (addMessage q th d) d (messageExcluded q d)).getD th := by
        unfold stepThread
        rw [if_pos hpd]
      rw [hstep]
      obtain ⟨s', h4, h5⟩ := threadLoop_spec q p ds ((addMatchedMessage q.sort (addMessage q th d) d (messageExcluded q d)).getD th) s1 _ h2 hn.2 (by
        intro e he
        rw [← hp e (by simp [he])]
        have : e.id ≠ d.id := by
          intro hh
          exact hn.1 (by rw [← hh]; exact List.mem_map_of_mem he)
        simp [this]) (fun e he => hk e (by simp [he]))
      rw [h3] at h4 ⊢
      refine ⟨s', h4, h5.covers, fun x => ?_⟩
      rw [h5.iff]
      simp only [List.map_cons, List.mem_cons, not_or]
      constructor
      · rintro ⟨⟨a, b⟩, c⟩; exact ⟨b, a, c⟩
      · rintro ⟨b, a, c⟩; exact ⟨⟨a, b⟩, c⟩

theorem stepThread_fields (q : Query) (p : Nat → Bool) (d : Doc) (hk : p d.id = true → kept q d = true) (th : Thread) :
    let r := stepThread q p th d
    r.threadId = th.threadId ∧
    r.messages = th.messages ++ (if kept q d then [⟨d, messageExcluded q d, p d.id, docAuthor d⟩] else []) ∧
    r.totalMessages = th.totalMessages + (if kept q d then 1 else 0) ∧
    r.totalFiles = th.totalFiles + (if kept q d then d.files else 0) ∧
    r.authors = (if kept q d then addAuthor th.authors (docAuthor d) else th.authors) ∧
    r.tags = (if kept q d then (tags d).foldl addTag th.tags else th.tags) ∧
    r.matchedAuthors = (if p d.id then addAuthor th.matchedAuthors (docAuthor d) else th.matchedAuthors) ∧
    r.matchedMessages = th.matchedMessages + (if p d.id && !messageExcluded q d then 1 else 0) ∧
    r.oldest = (if p d.id && (decide (d.date < th.oldest) || th.matchedMessages == 0) then d.date else th.oldest) ∧
    r.newest = (if p d.id && (decide (d.date > th.newest) || th.matchedMessages == 0) then d.date else th.newest) := by
  simp only
  by_cases hp : p d.id = true
  · have hkd := hk hp
    obtain ⟨s2, h3⟩ := addMatched_some hkd th
    have hstep : stepThread q p th d = (addMatchedMessage q.sort (addMessage q th d) d (messageExcluded q d)).getD th := by
      unfold stepThread
      rw [if_pos hp]
    rw [hstep, h3]
    simp only [Option.getD_some, addMessage_kept hkd, hkd, hp, if_true, Bool.true_and, true_and]
    cases messageExcluded q d <;> simp
  · have hpf : p d.id = false := by simpa using hp
    have hstep : stepThread q p th d = addMessage q th d := by
      unfold stepThread
      rw [if_neg hp]
    rw [hstep]
    by_cases hkd : kept q d = true
    · simp [addMessage_kept hkd, hkd, hpf]
    · have hkf : kept q d = false := by simpa using hkd
      simp [addMessage_not_kept hkf, hkf, hpf]

/-- The fields of a thread after the loop. -/
theorem foldl_fields (q : Query) (p : Nat → Bool) : ∀ (ds : List Doc), (∀ d ∈ ds, p d.id = true → kept q d = true) → ∀ (th : Thread),
    let r := ds.foldl (stepThread q p) th
    r.threadId = th.threadId ∧
    r.messages = th.messages ++ (ds.filter (kept q)).map (fun d => ⟨d, messageExcluded q d, p d.id, docAuthor d⟩) ∧
    r.totalMessages = th.totalMessages + (ds.filter (kept q)).length ∧
    r.totalFiles = th.totalFiles + ((ds.filter (kept q)).map (·.files)).sum ∧
    r.authors = ((ds.filter (kept q)).map docAuthor).foldl addAuthor th.authors ∧
    r.tags = ((ds.filter (kept q)).flatMap tags).foldl addTag th.tags ∧
    r.matchedAuthors = ((ds.filter (fun d => p d.id)).map docAuthor).foldl addAuthor th.matchedAuthors ∧
    r.matchedMessages = th.matchedMessages + (ds.filter (fun d => p d.id && !messageExcluded q d)).length
  | [], _, th => by simp
  | d :: ds, hk, th => by
    simp only [List.foldl_cons]
    obtain ⟨h1, h2, h3, h4, h5, h6, h7, h8, _⟩ := stepThread_fields q p d (hk d (by simp)) th
    obtain ⟨i1, i2, i3, i4, i5, i6, i7, i8⟩ := foldl_fields q p ds (fun e he => hk e (by simp [he])) (stepThread q p th d)
    refine ⟨by rw [i1, h1], ?_, ?_, ?_, ?_, ?_, ?_, ?_⟩
    · rw [i2, h2]; by_cases hkd : kept q d = true <;> simp [hkd]
    · rw [i3, h3]; by_cases hkd : kept q d = true
      · simp [hkd]; omega
      · simp [hkd]
    · rw [i4, h4]; by_cases hkd : kept q d = true
      · simp [hkd]; omega
      · simp [hkd]
    · rw [i5, h5]; by_cases hkd : kept q d = true <;> simp [hkd]
    · rw [i6, h6]; by_cases hkd : kept q d = true <;> simp [hkd]
    · rw [i7, h7]; by_cases hp : p d.id = true <;> simp [hp]
    · rw [i8, h8]; by_cases hp : p d.id = true
      · cases hx : messageExcluded q d
        · simp [hp, hx]; omega
        · simp [hp, hx]
      · simp [hp]

/-- The dates of a thread in which no matching message is excluded. -/
theorem foldl_dates (q : Query) (p : Nat → Bool) : ∀ (ds : List Doc), (∀ d ∈ ds, p d.id = true → kept q d = true ∧ messageExcluded q d = false) →
    ∀ (th : Thread) (D : List Int), th.matchedMessages = D.length →
    (D ≠ [] → th.oldest ∈ D ∧ th.newest ∈ D ∧ ∀ x ∈ D, th.oldest ≤ x ∧ x ≤ th.newest) →
    let r := ds.foldl (stepThread q p) th
    let D' := D ++ (ds.filter (fun d => p d.id)).map (·.date)
    D' ≠ [] → r.oldest ∈ D' ∧ r.newest ∈ D' ∧ ∀ x ∈ D', r.oldest ≤ x ∧ x ≤ r.newest
  | [], _, th, D, hl, hD => by simpa using hD
  | d :: ds, hk, th, D, hl, hD => by
    simp only [List.foldl_cons]
    obtain ⟨_, _, _, _, _, _, _, h8, h9, h10⟩ := stepThread_fields q p d (fun h => (hk d (by simp) h).1) th
    by_cases hp : p d.id = true
    · have ih := foldl_dates q p ds (fun e he => hk e (by simp [he])) (stepThread q p th d) (D ++ [d.date]) (by
        rw [h8, hl]; simp [hp, (hk d (by simp) hp).2]) (by
        intro _
        rw [h9, h10]
        simp only [hp, Bool.true_and, hl]
        by_cases hnil : D = []
        · subst hnil
          simp
        · obtain ⟨a, b, c⟩ := hD hnil
          have hz : (D.length == 0) = false := by
            cases D
            · exact absurd rfl hnil
            · simp
          rw [hz]
          simp only [Bool.or_false]
          refine ⟨?_, ?_, ?_⟩
          · split <;> simp [a]
          · split <;> simp [b]
          · intro x hx
            rcases List.mem_append.1 hx with hx | hx
            · have := c x hx
              constructor
              · split
                · rename_i h; simp at h; omega
                · omega
              · split
                · rename_i h; simp at h; omega
                · omega
            · have : x = d.date := by simpa using hx
              subst this
              constructor
              · split
                · omega
                · rename_i h; simp at h; omega
              · split
                · omega
                · rename_i h; simp at h; omega)
      simp only at ih ⊢
      rw [List.filter_cons_of_pos (p := fun d : Doc => p d.id) hp, List.map_cons]
      rw [List.append_assoc] at ih
      exact ih
    · rw [List.filter_cons_of_neg (p := fun d : Doc => p d.id) (by simpa using hp)]
      exact foldl_dates q p ds (fun e he => hk e (by simp [he])) (stepThread q p th d) D (by rw [h8, hl]; simp [hp]) (by
        intro h
        rw [h9, h10]
        simpa [hp] using hD h)

theorem mem_termsWithPrefix (p : UInt8) (d : Doc) (t : Str) : t ∈ termsWithPrefix p d ↔ p :: t ∈ d.terms := by
  unfold termsWithPrefix
  rw [List.mem_filterMap]
  constructor
  · rintro ⟨a, ha, h⟩
    cases a with
    | nil => simp at h
    | cons c rest =>
      simp only at h
      split at h
      · rename_i hc
        simp only [Option.some.injEq] at h
        rw [← hc, ← h]; exact ha
      · simp at h
  · intro h
    exact ⟨_, h, by simp⟩

theorem messageExcluded_iff (x : XQuery) (ex : List Str) (o : Exclude) (s : SortOrder) (d : Doc) :
    messageExcluded (build x ex o s) d = true ↔ o ≠ .no ∧ IsExcluded x ex d := by
  unfold messageExcluded
  have hoo : (build x ex o s).omitExcluded = o := rfl
  rw [hoo, build_excludeTerms]
  simp only [Bool.and_eq_true, decide_eq_true_eq, List.any_eq_true, List.mem_map, List.mem_filter]
  apply and_congr Iff.rfl
  constructor
  · rintro ⟨tag, h1, term, ⟨t, ⟨h2, h3⟩, rfl⟩, h4⟩
    have : tag = t := by simpa [tagTerm] using h4
    subst this
    exact ⟨tag, h2, by simpa using h3, (mem_termsWithPrefix _ _ _).1 h1⟩
  · rintro ⟨t, h1, h2, h3⟩
    exact ⟨t, (mem_termsWithPrefix _ _ _).2 h3, tagTerm t, ⟨t, ⟨h1, by simpa using h2⟩, rfl⟩, by simp [tagTerm]⟩

/-- The thread of a document. -/
def tid (d : Doc) : Str := (threadId d).getD []

theorem threadId_spec {db : List Doc} (h : GoodDb db) {d : Doc} (hd : d ∈ db) (hm : IsMail d) :
    threadId d = some (tid d) ∧ ∀ t, InThread d t ↔ t = tid d := by
  obtain ⟨t, ht⟩ := h.thread d hd hm
  have hmem : t ∈ termsWithPrefix 71 d := (mem_termsWithPrefix _ _ _).2 ((ht t).2 rfl)
  have : threadId d = some t := by
    unfold threadId
    cases hl : termsWithPrefix 71 d with
    | nil => rw [hl] at hmem; simp at hmem
    | cons a l =>
      have : a ∈ termsWithPrefix 71 d := by rw [hl]; simp
      rw [mem_termsWithPrefix] at this
      rw [List.head?_cons, (ht a).1 this]
  unfold tid
  rw [this]
  exact ⟨rfl, ht⟩

/-- The messages of a thread, oldest first. -/
def threadDocs (ord : SortOrder → List Doc → List Doc) (db : List Doc) (t : Str) : List Doc :=
  hits ord db { mkQuery (.term (threadTerm t)) with sort := .oldestFirst }

theorem mem_threadDocs {ord : SortOrder → List Doc → List Doc} (ho : Orders ord) {db : List Doc} (hdb : GoodDb db) (t : Str) (d : Doc) :
    d ∈ threadDocs ord db t ↔ d ∈ db ∧ IsMail d ∧ tid d = t := by
  have := mem_hits ho db (.term (threadTerm t)) [] .yes .oldestFirst d
  have e : build (.term (threadTerm t)) [] .yes .oldestFirst = { mkQuery (.term (threadTerm t)) with sort := .oldestFirst } := rfl
  rw [e] at this
  unfold threadDocs
  rw [this]
  constructor
  · rintro ⟨h1, ⟨h2, h3⟩, _⟩
    refine ⟨h1, h2, ?_⟩
    have h4 : InThread d t := by simpa [XQuery.eval, InThread] using h3
    exact (((threadId_spec hdb h1 h2).2 t).1 h4).symm
  · rintro ⟨h1, h2, rfl⟩
    refine ⟨h1, ⟨h2, ?_⟩, fun _ => by rintro ⟨_, h, _⟩; simp at h⟩
    have : InThread d (tid d) := ((threadId_spec hdb h1 h2).2 _).2 rfl
    simpa [XQuery.eval, InThread] using this

theorem threadDocs_ids {ord : SortOrder → List Doc → List Doc} (ho : Orders ord) {db : List Doc} (hdb : GoodDb db) (t : Str) :
    ((threadDocs ord db t).map (·.id)).Nodup := hits_ids ho hdb _

/-- The empty thread. -/
def noThread (t : Str) : Thread := ⟨t, none, [], [], [], [], 0, 0, 0, 0, 0⟩

/-- The thread that is made if the matching documents are `R`. -/
def summary (ord : SortOrder → List Doc → List Doc) (db : List Doc) (q : Query) (R : List Nat) (t : Str) : Thread :=
  (threadDocs ord db t).foldl (stepThread q (fun i => decide (i ∈ R))) (noThread t)

theorem threadCreate_spec {ord : SortOrder → List Doc → List Doc} (ho : Orders ord) {db : List Doc} (hdb : GoodDb db) (q : Query)
    (R : List Nat) (sd : Doc) (hsd : sd ∈ db) (hm : IsMail sd) (s : DocIdSet) (pc : Nat → Prop) (hr : Represents s pc)
    (hpc : ∀ d ∈ db, IsMail d → tid d = tid sd → (pc d.id ↔ d.id ∈ R))
    (hk : ∀ d ∈ db, IsMail d → d.id ∈ R → kept q d = true) :
    ∃ s', threadCreate ord db q sd.id s = some (summary ord db q R (tid sd), s') ∧
      Represents s' (fun x => pc x ∧ ∀ d ∈ db, IsMail d → d.id = x → tid d ≠ tid sd) := by
  unfold threadCreate
  have hfind : db.find? (fun d => decide (d.id = sd.id)) = some sd := by
    cases hf : db.find? (fun d => decide (d.id = sd.id)) with
    | none =>
      rw [List.find?_eq_none] at hf
      exact absurd (hf sd hsd) (by simp)
    | some e =>
      have h1 := List.mem_of_find?_eq_some hf
      have h2 := List.find?_some hf
      rw [id_inj hdb h1 hsd (by simpa using h2)]
  rw [hfind]
  simp only
  rw [(threadId_spec hdb hsd hm).1]
  simp only
  obtain ⟨e, h1, _, _⟩ := searchDocuments_spec ho hdb { mkQuery (.term (threadTerm (tid sd))) with sort := .oldestFirst }
  rw [h1]
  simp only
  obtain ⟨s', h2, h3⟩ := threadLoop_spec q (fun i => decide (i ∈ R)) (threadDocs ord db (tid sd)) (noThread (tid sd)) s pc hr
    (threadDocs_ids ho hdb _)
    (by
      intro d hd
      obtain ⟨a, b, c⟩ := (mem_threadDocs ho hdb _ _).1 hd
      simpa using hpc d a b c)
    (by
      intro d hd hp
      obtain ⟨a, b, c⟩ := (mem_threadDocs ho hdb _ _).1 hd
      exact hk d a b (by simpa using hp))
  refine ⟨s', h2, h3.covers, fun x => ?_⟩
  rw [h3.iff]
  apply and_congr Iff.rfl
  constructor
  · intro h d hd hm' he ht
    exact h (by rw [← he]; exact List.mem_map_of_mem ((mem_threadDocs ho hdb _ _).2 ⟨hd, hm', ht⟩))
  · intro h hx
    obtain ⟨d, hd, rfl⟩ := List.mem_map.1 hx
    obtain ⟨a, b, c⟩ := (mem_threadDocs ho hdb _ _).1 hd
    exact h d a b rfl c

theorem skip_spec {s : DocIdSet} {pc : Nat → Prop} (hr : Represents s pc) : ∀ (l : List Nat) (pos : Nat),
    ∃ pre post, l = pre ++ post ∧ skip s l pos = some (pos + pre.length) ∧ (∀ x ∈ pre, ¬ pc x) ∧ (∀ x, post.head? = some x → pc x)
  | [], pos => ⟨[], [], rfl, rfl, by simp, by simp⟩
  | d :: ds, pos => by
    obtain ⟨b, hb, hb'⟩ := contains_represents hr d
    rw [skip, hb]
    cases b with
    | true => exact ⟨[], d :: ds, rfl, rfl, by simp, by simpa using hb'⟩
    | false =>
      obtain ⟨pre, post, h1, h2, h3, h4⟩ := skip_spec hr ds (pos + 1)
      refine ⟨d :: pre, post, by rw [h1]; rfl, ?_, ?_, h4⟩
      · simp only; rw [h2]; simp; omega
      · intro x hx
        rcases List.mem_cons.1 hx with rfl | hx
        · simpa using hb'
        · exact h3 x hx

theorem firsts_cons_filter (t : Str) (l : List Str) : firsts (t :: l) = t :: firsts (l.filter (· ≠ t)) := by
  rw [firsts]
  congr 1
  induction l with
  | nil => rfl
  | cons a l ih =>
    by_cases ha : a = t
    · subst ha
      rw [firsts, List.filter_cons_of_neg (by simp), List.filter_filter, List.filter_cons_of_neg (by simp), ← ih]
      congr 1
      funext x
      simp
    · rw [firsts, List.filter_cons_of_pos (by simpa using ha), List.filter_cons_of_pos (by simpa using ha), firsts, ← ih]
      rw [List.filter_filter, List.filter_filter]
      congr 1
      apply List.filter_congr
      intro x _
      exact Bool.and_comm _ _

/-- The loop over the threads. -/
theorem allThreads_spec {ord : SortOrder → List Doc → List Doc} (ho : Orders ord) {db : List Doc} (hdb : GoodDb db) (q : Query)
    (R : List Doc) (hR : ∀ d ∈ R, d ∈ db ∧ IsMail d) (hk : ∀ d ∈ R, kept q d = true) :
    ∀ (n : Nat) (rest : List Doc) (t : Threads) (seen : List Str), rest.length < n → (∀ d ∈ rest, d ∈ R) →
      t.docIds.drop t.pos = rest.map (·.id) → t.pos + rest.length = t.docIds.length →
      Represents t.matchSet (fun x => ∃ d ∈ R, d.id = x ∧ tid d ∉ seen) →
      (∀ d ∈ R, tid d ∉ seen → d ∈ rest) →
      allThreads ord db q n t = some ((firsts ((rest.filter (fun d => tid d ∉ seen)).map tid)).map (summary ord db q (R.map (·.id)))) := by
  intro n
  induction n with
  | zero => intro rest t seen h; omega
  | succ n ih =>
    intro rest t seen hn hrest hdrop hlen hr hcov
    rw [allThreads]
    unfold threadsValid
    obtain ⟨pre, post, h1, h2, h3, h4⟩ := skip_spec hr (t.docIds.drop t.pos) t.pos
    rw [h2]
    simp only
    rw [hdrop] at h1
    obtain ⟨r1, r2, hr12, hr1, hr2⟩ := List.map_eq_append_iff.1 h1
    subst hr1; subst hr2
    have hrl : rest.length = r1.length + r2.length := by rw [hr12]; simp
    have hpre : ∀ d ∈ r1, ¬ tid d ∉ seen := by
      intro d hd hs
      exact h3 d.id (List.mem_map_of_mem hd) ⟨d, hrest d (by rw [hr12]; simp [hd]), rfl, hs⟩
    have hf1 : rest.filter (fun d => decide (tid d ∉ seen)) = r2.filter (fun d => decide (tid d ∉ seen)) := by
      rw [hr12, List.filter_append, List.filter_eq_nil_iff.2]
      · rfl
      · intro d hd; simpa using hpre d hd
    rw [hf1]
    cases r2 with
    | nil =>
      have : decide (t.pos + (r1.map (·.id)).length < t.docIds.length) = false := by
        simp at hrl ⊢; omega
      rw [this]
      simp [firsts]
    | cons sd r2 =>
      have : decide (t.pos + (r1.map (·.id)).length < t.docIds.length) = true := by
        simp at hrl ⊢; omega
      rw [this]
      simp only
      have hdrop' : t.docIds.drop (t.pos + r1.length) = (sd :: r2).map (·.id) := by
        rw [← List.drop_drop, hdrop, hr12, List.map_append, List.drop_left' (by simp)]
      obtain ⟨d', hd'1, hd'2, hd'3⟩ := h4 sd.id (by simp)
      have hsdR : sd ∈ R := hrest sd (by rw [hr12]; simp)
      have hsd := hR sd hsdR
      have hdd : d' = sd := id_inj hdb (hR d' hd'1).1 hsd.1 hd'2
      subst hdd
      obtain ⟨s', h5, h6⟩ := threadCreate_spec ho hdb q (R.map (·.id)) d' hsd.1 hsd.2 t.matchSet _ hr (by
        intro d hd hm ht
        rw [List.mem_map]
        constructor
        · rintro ⟨e, he, he', _⟩; exact ⟨e, he, he'⟩
        · rintro ⟨e, he, he'⟩
          refine ⟨e, he, he', ?_⟩
          rw [id_inj hdb (hR e he).1 hd he', ht]
          exact hd'3) (by
        intro d hd hm hdR
        obtain ⟨e, he, he'⟩ := List.mem_map.1 hdR
        rw [← id_inj hdb (hR e he).1 hd he']
        exact hk e he)
      have hget : threadsGet ord db q { t with pos := t.pos + (r1.map (·.id)).length } =
          some (some (summary ord db q (R.map (·.id)) (tid d')), { t with pos := t.pos + (r1.map (·.id)).length, matchSet := s' }) := by
        unfold threadsGet threadsValid
        simp only [List.length_map]
        have hskip : skip t.matchSet (t.docIds.drop (t.pos + r1.length)) (t.pos + r1.length) = some (t.pos + r1.length) := by
          rw [hdrop', List.map_cons, skip]
          obtain ⟨b, hb, hb'⟩ := contains_represents hr d'.id
          rw [hb]
          have : b = true := hb'.2 ⟨d', hd'1, rfl, hd'3⟩
          rw [this]
        rw [hskip]
        simp only
        have : decide (t.pos + r1.length < t.docIds.length) = true := by simp at hrl ⊢; omega
        rw [this]
        simp only
        have hidx : t.docIds[t.pos + r1.length]? = some d'.id := by
          have := congrArg List.head? hdrop'
          rw [List.head?_drop] at this
          simpa using this
        rw [hidx]
        simp only
        rw [h5]
      rw [hget]
      simp only
      rw [List.filter_cons_of_pos (by simpa using hd'3), List.map_cons, firsts_cons_filter, List.map_cons]
      rw [ih r2 (threadsNext { t with pos := t.pos + (r1.map (·.id)).length, matchSet := s' }) (tid d' :: seen)
        (by simp at hrl; omega) (fun d hd => hrest d (by rw [hr12]; simp [hd]))]
      · rw [Option.map_some]
        congr 3
        rw [List.filter_map, List.filter_filter]
        congr 2
        apply List.filter_congr
        intro d _
        simp only [List.mem_cons, not_or, Function.comp_apply]
        by_cases h : tid d = tid d' <;> simp [h]
      · simp only [threadsNext, List.length_map]
        rw [show t.pos + r1.length + 1 = (t.pos + r1.length) + 1 from rfl, ← List.drop_drop, hdrop']
        simp
      · simp only [threadsNext, List.length_map]
        simp at hrl; omega
      · simp only [threadsNext]
        refine ⟨h6.covers, fun x => ?_⟩
        rw [h6.iff]
        constructor
        · rintro ⟨⟨d, hd, rfl, hs⟩, h⟩
          refine ⟨d, hd, rfl, ?_⟩
          rw [List.mem_cons, not_or]
          exact ⟨h d (hR d hd).1 (hR d hd).2 rfl, hs⟩
        · rintro ⟨d, hd, rfl, hs⟩
          rw [List.mem_cons, not_or] at hs
          refine ⟨⟨d, hd, rfl, hs.2⟩, fun e he hme hide => ?_⟩
          rw [id_inj hdb he (hR d hd).1 hide]
          exact hs.1
      · intro d hd hs
        rw [List.mem_cons, not_or] at hs
        have := hcov d hd hs.2
        rw [hr12, List.mem_append] at this
        rcases this with h | h
        · exact absurd hs.2 (hpre d h)
        · rcases List.mem_cons.1 h with rfl | h
          · exact absurd rfl hs.1
          · exact h

end Notmuch.Query
