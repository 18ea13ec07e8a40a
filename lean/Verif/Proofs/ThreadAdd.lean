import Verif.Proofs.Threading

namespace Notmuch.Threading
open Notmuch.ThreadSpec

theorem thread_eq {d : Doc} {t : Nat} (h : d.threads = [t]) : d.thread = t := by
  unfold Doc.thread; rw [h]; rfl

theorem normId_length {sha1 : Str → Str} (hs : Sha sha1) (x : Str) : (normId sha1 x).length ≤ idMax := by
  unfold normId
  split
  · rw [List.length_append, hs]; decide
  · omega

theorem normId_of_le {sha1 : Str → Str} {x : Str} (h : x.length ≤ idMax) : normId sha1 x = x := by
  unfold normId; rw [if_neg (by omega)]

theorem normId_idem {sha1 : Str → Str} (hs : Sha sha1) (x : Str) : normId sha1 (normId sha1 x) = normId sha1 x :=
  normId_of_le (normId_length hs x)

section
variable {sha1 : Str → Str} {db0 : Db} {file m : Str} {P : List Str} {db : Db} {w : Nat} {L : List Nat} {cur : Doc}

theorem AddSpec.m_thread (h : AddSpec sha1 db0 file m P db w L cur) {d : Doc} (hd : d ∈ db0.docs) (hm : d.mid = m) :
    d.thread ∈ L := (h.lmem _).2 ⟨d, hd, Or.inl hm, rfl⟩

/-- Where the threads of old documents go. -/
theorem AddSpec.old_thread (h : AddSpec sha1 db0 file m P db w L cur) (h0 : WF db0) {d : Doc} (hd : d ∈ db0.docs) :
    ∃ d' ∈ db.docs, d'.mid = d.mid ∧ d'.threads = [if d.thread ∈ L then w else d.thread] := by
  by_cases hm : d.mid = m
  · refine ⟨cur, h.cur_mem, by rw [h.cur_mid, hm], ?_⟩
    rw [if_pos (h.m_thread hd hm), h.cur_thr]
  · exact ⟨_, h.old d hd hm, retag_mid _ _ _, retag_threads _ _ _ (h0.thr d hd).1⟩

/-- Where new documents come from. -/
theorem AddSpec.cases (h : AddSpec sha1 db0 file m P db w L cur) (_ : WF db0) {d' : Doc} (hd' : d' ∈ db.docs) :
    (d'.mid = m ∧ d' = cur) ∨ (d'.mid ≠ m ∧ ∃ d ∈ db0.docs, d' = retag L w d) ∨
      (d'.mid ≠ m ∧ d'.mid ∉ db0.docs.map (·.mid) ∧ (∃ r ∈ P, d'.mid = normId sha1 r) ∧ IsGhost w d') := by
  have key : ∀ e ∈ db.docs, e.mid = d'.mid → e = d' := fun e he e' => nodup_map_inj h.wf.mids he hd' e'
  by_cases hm : d'.mid = m
  · exact Or.inl ⟨hm, (key cur h.cur_mem (by rw [h.cur_mid, hm])).symm⟩
  · by_cases h1 : d'.mid ∈ db0.docs.map (·.mid)
    · rw [List.mem_map] at h1
      obtain ⟨d, hd, e⟩ := h1
      have hdm : d.mid ≠ m := by rw [e]; exact hm
      exact Or.inr (Or.inl ⟨hm, d, hd, (key _ (h.old d hd hdm) (by rw [retag_mid, e])).symm⟩)
    · have h2 := (h.mids d'.mid).1 (List.mem_map_of_mem hd')
      rcases h2 with h2 | h2 | ⟨r, hr, e⟩
      · exact absurd h2 h1
      · exact absurd h2 hm
      · obtain ⟨g, hg, hgm, hgg⟩ := h.ghost r hr (by rw [← e]; exact h1)
        have := key g hg (by rw [hgm, e])
        rw [← this]
        exact Or.inr (Or.inr ⟨by rw [this]; exact hm, by rw [this]; exact h1, ⟨r, hr, hgm⟩, hgg⟩)

/-- The thread of a document: the thread of the message, or an old thread without any link to it. -/
theorem AddSpec.thread_cases (h : AddSpec sha1 db0 file m P db w L cur) (h0 : WF db0) {d' : Doc} (hd' : d' ∈ db.docs) :
    (d'.thread = w ∧ (d'.mid = m ∨ (∃ r ∈ P, d'.mid = normId sha1 r) ∨ ∃ d ∈ db0.docs, d.mid = d'.mid ∧ d.thread ∈ L)) ∨
      (d'.thread ≠ w ∧ ∃ d ∈ db0.docs, d.mid = d'.mid ∧ d.thread ∉ L ∧ d.thread = d'.thread) := by
  rcases h.cases h0 hd' with ⟨hm, rfl⟩ | ⟨_, d, hd, rfl⟩ | ⟨_, _, hr, hg⟩
  · exact Or.inl ⟨thread_eq h.cur_thr, Or.inl hm⟩
  · have ht := retag_thread L w d (h0.thr d hd).1
    by_cases hL : d.thread ∈ L
    · rw [if_pos hL] at ht
      exact Or.inl ⟨ht, Or.inr (Or.inr ⟨d, hd, (retag_mid _ _ _).symm, hL⟩)⟩
    · rw [if_neg hL] at ht
      refine Or.inr ⟨?_, d, hd, (retag_mid _ _ _).symm, hL, ht.symm⟩
      rw [ht]
      rintro rfl
      rcases h.wcase with h1 | h1
      · exact hL h1
      · have := (h0.thr d hd).2; omega
  · exact Or.inl ⟨thread_eq hg.2.1, Or.inr (Or.inl hr)⟩

/-- Parents get the thread of the message. -/
theorem AddSpec.parent_thread (h : AddSpec sha1 db0 file m P db w L cur) (h0 : WF db0) {r : Str} (hr : r ∈ P) :
    ∃ d' ∈ db.docs, d'.mid = normId sha1 r ∧ d'.thread = w := by
  by_cases h1 : normId sha1 r ∈ db0.docs.map (·.mid)
  · rw [List.mem_map] at h1
    obtain ⟨d, hd, e⟩ := h1
    obtain ⟨d', hd', hm', ht'⟩ := h.old_thread h0 hd
    refine ⟨d', hd', by rw [hm', e], ?_⟩
    rw [thread_eq ht', if_pos ((h.lmem _).2 ⟨d, hd, Or.inr ⟨r, hr, e⟩, rfl⟩)]
  · obtain ⟨g, hg, hgm, hgg⟩ := h.ghost r hr h1
    exact ⟨g, hg, hgm, thread_eq hgg.2.1⟩

end

theorem Conn.mono {E F : Str → Str → Prop} (h : ∀ a b, E a b → F a b) {a b : Str} (hc : Conn E a b) : Conn F a b := by
  induction hc with
  | refl a => exact .refl a
  | edge e => exact .edge (h _ _ e)
  | symm _ ih => exact .symm ih
  | trans _ _ ih1 ih2 => exact .trans ih1 ih2

theorem sameThread_iff {db : Db} (h : WF db) {a b : Str} :
    SameThread db a b ↔ ∃ d ∈ db.docs, ∃ e ∈ db.docs, d.mid = a ∧ e.mid = b ∧ d.thread = e.thread := by
  constructor
  · rintro ⟨t, ⟨d, hd, ha, hdt⟩, e, he, hb, het⟩
    exact ⟨d, hd, e, he, ha, hb, by rw [thread_eq hdt, thread_eq het]⟩
  · rintro ⟨d, hd, e, he, ha, hb, ht⟩
    exact ⟨d.thread, ⟨d, hd, ha, (h.thr d hd).1⟩, e, he, hb, by rw [ht]; exact (h.thr e he).1⟩

/-- One message joins the threads it connects and no others: in terms of the thread relation. -/
theorem AddSpec.join {sha1 : Str → Str} {db0 : Db} {file m : Str} {P : List Str} {db : Db} {w : Nat} {L : List Nat}
    {cur : Doc} (h : AddSpec sha1 db0 file m P db w L cur) (h0 : WF db0) {a b : Str}
    (ha : a ∈ db.docs.map (·.mid)) (_ : b ∈ db.docs.map (·.mid)) :
    SameThread db a b ↔ Conn (fun x y => SameThread db0 x y ∨ (x = m ∧ ∃ r ∈ P, y = normId sha1 r)) a b := by
  constructor
  · rw [sameThread_iff h.wf]
    rintro ⟨d, hd, e, he, rfl, rfl, ht⟩
    have toM : ∀ d' ∈ db.docs, d'.thread = w →
        Conn (fun x y => SameThread db0 x y ∨ (x = m ∧ ∃ r ∈ P, y = normId sha1 r)) d'.mid m := by
      intro d' hd' hw
      rcases h.thread_cases h0 hd' with ⟨_, hm | hr | ⟨d1, hd1, e1, hL⟩⟩ | ⟨hn, _⟩
      · rw [hm]; exact .refl _
      · exact .symm (.edge (Or.inr ⟨rfl, hr⟩))
      · obtain ⟨d2, hd2, hc, ht2⟩ := (h.lmem _).1 hL
        have s1 : SameThread db0 d'.mid d2.mid := (sameThread_iff h0).2 ⟨d1, hd1, d2, hd2, e1, rfl, ht2.symm⟩
        refine .trans (.edge (Or.inl s1)) ?_
        rcases hc with hc | ⟨r, hr, hc⟩
        · rw [hc]; exact .refl _
        · exact .symm (.edge (Or.inr ⟨rfl, r, hr, hc⟩))
      · exact absurd hw hn
    by_cases hw : d.thread = w
    · exact .trans (toM d hd hw) (.symm (toM e he (ht ▸ hw)))
    · rcases h.thread_cases h0 hd with ⟨hn, _⟩ | ⟨_, d1, hd1, e1, _, t1⟩
      · exact absurd hn hw
      rcases h.thread_cases h0 he with ⟨hn, _⟩ | ⟨_, d2, hd2, e2, _, t2⟩
      · exact absurd (ht.trans hn) hw
      exact .edge (Or.inl ((sameThread_iff h0).2 ⟨d1, hd1, d2, hd2, e1, e2, by rw [t1, t2, ht]⟩))
  · intro hc
    have gen : ∀ a b, Conn (fun x y => SameThread db0 x y ∨ (x = m ∧ ∃ r ∈ P, y = normId sha1 r)) a b →
        a = b ∨ SameThread db a b := by
      intro a b hc
      induction hc with
      | refl a => exact Or.inl rfl
      | edge e =>
        rcases e with e | ⟨e, r, hr, hb⟩
        · right
          obtain ⟨d, hd, e, he, ha, hb, ht⟩ := (sameThread_iff h0).1 e
          obtain ⟨d', hd', hm', ht'⟩ := h.old_thread h0 hd
          obtain ⟨e', he', hme', hte'⟩ := h.old_thread h0 he
          refine (sameThread_iff h.wf).2 ⟨d', hd', e', he', by rw [hm', ha], by rw [hme', hb], ?_⟩
          rw [thread_eq ht', thread_eq hte', ht]
        · right
          obtain ⟨d', hd', hm', ht'⟩ := h.parent_thread h0 hr
          exact (sameThread_iff h.wf).2 ⟨cur, h.cur_mem, d', hd', by rw [h.cur_mid, e], by rw [hm', hb],
            by rw [ht', thread_eq h.cur_thr]⟩
      | symm _ ih =>
        rcases ih with rfl | ⟨t, h1, h2⟩
        · exact Or.inl rfl
        · exact Or.inr ⟨t, h2, h1⟩
      | trans _ _ ih1 ih2 =>
        rcases ih1 with rfl | h1
        · exact ih2
        · rcases ih2 with rfl | h2
          · exact Or.inr h1
          · right
            obtain ⟨t, ha, d, hd, hdm, hdt⟩ := h1
            obtain ⟨t', ⟨d', hd', hdm', hdt'⟩, hb⟩ := h2
            have := nodup_map_inj h.wf.mids hd hd' (by rw [hdm, hdm'])
            subst this
            rw [hdt] at hdt'
            have : t = t' := by simpa using hdt'
            subst this
            exact ⟨t, ha, hb⟩
    rcases gen a b hc with rfl | h'
    · rw [List.mem_map] at ha
      obtain ⟨d, hd, rfl⟩ := ha
      exact ⟨_, ⟨d, hd, rfl, (h.wf.thr d hd).1⟩, d, hd, rfl, (h.wf.thr d hd).1⟩
    · exact h'

/-- The invariant of histories of additions. -/
structure Inv (sha1 : Str → Str) (hist : List Op) (db : Db) : Prop where
  wf : WF db
  mids : ∀ x, x ∈ db.docs.map (·.mid) ↔ Known sha1 hist x
  kind : ∀ d ∈ db.docs, d.kind = .mail ↔ Added sha1 hist d.mid
  conn : ∀ a b, a ∈ db.docs.map (·.mid) → b ∈ db.docs.map (·.mid) → (SameThread db a b ↔ Conn (Mentions sha1 hist) a b)
  refs : ∀ d ∈ db.docs, ∀ x, x ∈ d.refs ↔
    ∃ file mid refs, Op.add file mid refs ∈ hist ∧ normId sha1 mid = d.mid ∧ x ∈ refs ∧ x ≠ d.mid ∧ x.length ≤ refMax
  files : ∀ d ∈ db.docs, ∀ x, x ∈ d.files ↔ ∃ mid refs, Op.add x mid refs ∈ hist ∧ normId sha1 mid = d.mid

theorem inv_empty (sha1 : Str → Str) : Inv sha1 [] empty where
  wf := ⟨by simp [empty], by simp [empty], by simp [empty], by simp [empty]⟩
  mids := by simp [empty, Known, Added, Mentions]
  kind := by simp [empty]
  conn := by simp [empty]
  refs := by simp [empty]
  files := by simp [empty]

theorem mentions_append {sha1 : Str → Str} {hist : List Op} {file mid : Str} {refs : List Str} {a b : Str} :
    Mentions sha1 (hist ++ [.add file mid refs]) a b ↔
      Mentions sha1 hist a b ∨ (a = normId sha1 mid ∧ ∃ r ∈ refs, b = normId sha1 r) := by
  unfold Mentions
  constructor
  · rintro ⟨f, i, rs, r, ho, hr, ha, hb⟩
    rw [List.mem_append, List.mem_singleton] at ho
    rcases ho with ho | ho
    · exact Or.inl ⟨f, i, rs, r, ho, hr, ha, hb⟩
    · cases ho; exact Or.inr ⟨ha, r, hr, hb⟩
  · rintro (⟨f, i, rs, r, ho, hr, ha, hb⟩ | ⟨ha, r, hr, hb⟩)
    · exact ⟨f, i, rs, r, by simp [ho], hr, ha, hb⟩
    · exact ⟨file, mid, refs, r, by simp, hr, ha, hb⟩

theorem added_append {sha1 : Str → Str} {hist : List Op} {file mid : Str} {refs : List Str} {a : Str} :
    Added sha1 (hist ++ [.add file mid refs]) a ↔ Added sha1 hist a ∨ a = normId sha1 mid := by
  unfold Added
  constructor
  · rintro ⟨f, i, rs, ho, ha⟩
    rw [List.mem_append, List.mem_singleton] at ho
    rcases ho with ho | ho
    · exact Or.inl ⟨f, i, rs, ho, ha⟩
    · cases ho; exact Or.inr ha
  · rintro (⟨f, i, rs, ho, ha⟩ | ha)
    · exact ⟨f, i, rs, by simp [ho], ha⟩
    · exact ⟨file, mid, refs, by simp, ha⟩

theorem known_append {sha1 : Str → Str} {hist : List Op} {file mid : Str} {refs : List Str} {a : Str} :
    Known sha1 (hist ++ [.add file mid refs]) a ↔
      Known sha1 hist a ∨ a = normId sha1 mid ∨ ∃ r ∈ refs, a = normId sha1 r := by
  unfold Known
  rw [added_append]
  constructor
  · rintro ((h | h) | ⟨b, h⟩)
    · exact Or.inl (Or.inl h)
    · exact Or.inr (Or.inl h)
    · rcases mentions_append.1 h with h | ⟨_, h⟩
      · exact Or.inl (Or.inr ⟨b, h⟩)
      · exact Or.inr (Or.inr h)
  · rintro ((h | ⟨b, h⟩) | h | h)
    · exact Or.inl (Or.inl h)
    · exact Or.inr ⟨b, mentions_append.2 (Or.inl h)⟩
    · exact Or.inl (Or.inr h)
    · exact Or.inr ⟨_, mentions_append.2 (Or.inr ⟨rfl, h⟩)⟩

/-- A graph lemma: old links and new links generate the same relation as the old components and new links. -/
theorem conn_join {E : Str → Str → Prop} {S : Str → Str → Prop} {N : Str → Str → Prop} {V : Str → Prop}
    (hS : ∀ x y, S x y → Conn E x y) (hE : ∀ x y, E x y → V x ∧ V y)
    (hSE : ∀ x y, V x → V y → Conn E x y → S x y) {a b : Str} :
    Conn (fun x y => S x y ∨ N x y) a b ↔ Conn (fun x y => E x y ∨ N x y) a b := by
  constructor
  · intro h
    induction h with
    | refl a => exact .refl a
    | edge e =>
      rcases e with e | e
      · exact Conn.mono (fun _ _ => Or.inl) (hS _ _ e)
      · exact .edge (Or.inr e)
    | symm _ ih => exact .symm ih
    | trans _ _ i1 i2 => exact .trans i1 i2
  · apply Conn.mono
    rintro x y (h | h)
    · exact Or.inl (hSE x y (hE x y h).1 (hE x y h).2 (.edge h))
    · exact Or.inr h

theorem Conn.congr {E F : Str → Str → Prop} (h : ∀ a b, E a b → Conn F a b) {a b : Str} (hc : Conn E a b) : Conn F a b := by
  induction hc with
  | refl a => exact .refl a
  | edge e => exact h _ _ e
  | symm _ ih => exact .symm ih
  | trans _ _ ih1 ih2 => exact .trans ih1 ih2

theorem inv_step {sha1 : Str → Str} (hs : Sha sha1) {hist : List Op} {db0 : Db} (h : Inv sha1 hist db0)
    (file mid : Str) (refs : List Str)
    (hself : ∀ r ∈ refs, normId sha1 r = normId sha1 mid → r = normId sha1 mid) :
    Inv sha1 (hist ++ [.add file mid refs]) (addMessage sha1 db0 file mid refs).2 := by
  obtain ⟨w, L, cur, ha⟩ := addMessage_spec sha1 db0 file mid refs h.wf hself
  generalize (addMessage sha1 db0 file mid refs).2 = db at ha
  have hfil : ∀ x, (∃ r ∈ refs, x = normId sha1 r) ↔
      (∃ r ∈ refs.filter (· ≠ normId sha1 mid), x = normId sha1 r) ∨ (x = normId sha1 mid ∧ normId sha1 mid ∈ refs) := by
    intro x
    constructor
    · rintro ⟨r, hr, rfl⟩
      by_cases e : r = normId sha1 mid
      · right; subst e; exact ⟨normId_idem hs mid, hr⟩
      · exact Or.inl ⟨r, by simp [hr, e], rfl⟩
    · rintro (⟨r, hr, rfl⟩ | ⟨rfl, hm⟩)
      · exact ⟨r, (List.mem_filter.1 hr).1, rfl⟩
      · exact ⟨_, hm, (normId_idem hs mid).symm⟩
  have hmids : ∀ x, x ∈ db.docs.map (·.mid) ↔ Known sha1 (hist ++ [.add file mid refs]) x := by
    intro x
    rw [ha.mids, known_append, h.mids, hfil]
    constructor
    · rintro (h1 | h1 | h1)
      · exact Or.inl h1
      · exact Or.inr (Or.inl h1)
      · exact Or.inr (Or.inr (Or.inl h1))
    · rintro (h1 | h1 | h1 | h1)
      · exact Or.inl h1
      · exact Or.inr (Or.inl h1)
      · exact Or.inr (Or.inr h1)
      · exact Or.inr (Or.inl h1.1)
  refine ⟨ha.wf, hmids, ?_, ?_, ?_, ?_⟩
  · intro d hd
    rw [added_append]
    rcases ha.cases h.wf hd with ⟨hm, rfl⟩ | ⟨hm, d0, hd0, rfl⟩ | ⟨hm, hn, _, hg⟩
    · simp [ha.cur_kind, hm]
    · rw [retag_mid] at hm ⊢
      have : (retag L w d0).kind = d0.kind := by unfold retag; split <;> rfl
      rw [this, h.kind d0 hd0]
      simp [hm]
    · rw [hg.1]
      have : ¬ Added sha1 hist d.mid := fun hA => hn ((h.mids _).2 (Or.inl hA))
      simp [this, hm]
  · intro a b hka hkb
    rw [ha.join h.wf hka hkb]
    have e1 : Conn (fun x y => SameThread db0 x y ∨ (x = normId sha1 mid ∧ ∃ r ∈ refs.filter (· ≠ normId sha1 mid), y = normId sha1 r)) a b ↔
        Conn (fun x y => Mentions sha1 hist x y ∨ (x = normId sha1 mid ∧ ∃ r ∈ refs.filter (· ≠ normId sha1 mid), y = normId sha1 r)) a b := by
      apply conn_join (V := fun x => x ∈ db0.docs.map (·.mid))
      · rintro x y hxy
        obtain ⟨d, hd, e, he, rfl, rfl, _⟩ := (sameThread_iff h.wf).1 hxy
        exact (h.conn _ _ (List.mem_map_of_mem hd) (List.mem_map_of_mem he)).1 hxy
      · rintro x y hxy
        refine ⟨(h.mids x).2 (Or.inl ?_), (h.mids y).2 (Or.inr ⟨x, hxy⟩)⟩
        obtain ⟨f, i, rs, r, ho, hr, h1, h2⟩ := hxy
        exact ⟨f, i, rs, ho, h1⟩
      · intro x y hx hy hc
        exact (h.conn x y hx hy).2 hc
    refine e1.trans ⟨Conn.congr ?_, Conn.congr ?_⟩
    · rintro x y (hxy | ⟨rfl, r, hr, rfl⟩)
      · exact .edge (mentions_append.2 (Or.inl hxy))
      · exact .edge (mentions_append.2 (Or.inr ⟨rfl, r, (List.mem_filter.1 hr).1, rfl⟩))
    · intro x y hxy
      rcases mentions_append.1 hxy with hxy | ⟨rfl, hr⟩
      · exact .edge (Or.inl hxy)
      · rcases (hfil y).1 hr with hr | ⟨rfl, _⟩
        · exact .edge (Or.inr ⟨rfl, hr⟩)
        · exact .refl _
  · intro d hd x
    have split_hist : (∃ f i rs, Op.add f i rs ∈ hist ++ [.add file mid refs] ∧ normId sha1 i = d.mid ∧ x ∈ rs ∧ x ≠ d.mid ∧ x.length ≤ refMax) ↔
        (∃ f i rs, Op.add f i rs ∈ hist ∧ normId sha1 i = d.mid ∧ x ∈ rs ∧ x ≠ d.mid ∧ x.length ≤ refMax) ∨
        (normId sha1 mid = d.mid ∧ x ∈ refs ∧ x ≠ d.mid ∧ x.length ≤ refMax) := by
      constructor
      · rintro ⟨f, i, rs, ho, hr⟩
        rw [List.mem_append, List.mem_singleton] at ho
        rcases ho with ho | ho
        · exact Or.inl ⟨f, i, rs, ho, hr⟩
        · cases ho; exact Or.inr hr
      · rintro (⟨f, i, rs, ho, hr⟩ | hr)
        · exact ⟨f, i, rs, by simp [ho], hr⟩
        · exact ⟨file, mid, refs, by simp, hr⟩
    rw [split_hist]
    rcases ha.cases h.wf hd with ⟨hm, rfl⟩ | ⟨hm, d0, hd0, rfl⟩ | ⟨hm, hn, _, hg⟩
    · rw [ha.cur_refs, hm]
      apply or_congr
      · constructor
        · rintro ⟨d0, hd0, e, hx⟩
          have := (h.refs d0 hd0 x).1 hx
          rw [e] at this; exact this
        · rintro ⟨f, i, rs, ho, hi, hx⟩
          have : normId sha1 mid ∈ db0.docs.map (·.mid) := (h.mids _).2 (Or.inl ⟨f, i, rs, ho, hi.symm⟩)
          rw [List.mem_map] at this
          obtain ⟨d0, hd0, e⟩ := this
          exact ⟨d0, hd0, e, (h.refs d0 hd0 x).2 ⟨f, i, rs, ho, by rw [hi, e], by rw [e]; exact hx⟩⟩
      · simp [and_assoc]
    · have : (retag L w d0).refs = d0.refs := by unfold retag; split <;> rfl
      rw [retag_mid] at hm ⊢
      rw [this, h.refs d0 hd0 x]
      have : normId sha1 mid ≠ d0.mid := fun e => hm e.symm
      simp [this]
    · rw [hg.2.2.1]
      constructor
      · intro hx; simp at hx
      · rintro (⟨f, i, rs, ho, hi, _⟩ | ⟨e, _⟩)
        · exact absurd ((h.mids _).2 (Or.inl ⟨f, i, rs, ho, hi.symm⟩)) hn
        · exact absurd e.symm hm
  · intro d hd x
    have split_hist : (∃ i rs, Op.add x i rs ∈ hist ++ [.add file mid refs] ∧ normId sha1 i = d.mid) ↔
        (∃ i rs, Op.add x i rs ∈ hist ∧ normId sha1 i = d.mid) ∨ (x = file ∧ normId sha1 mid = d.mid) := by
      constructor
      · rintro ⟨i, rs, ho, hr⟩
        rw [List.mem_append, List.mem_singleton] at ho
        rcases ho with ho | ho
        · exact Or.inl ⟨i, rs, ho, hr⟩
        · cases ho; exact Or.inr ⟨rfl, hr⟩
      · rintro (⟨i, rs, ho, hr⟩ | ⟨rfl, hr⟩)
        · exact ⟨i, rs, by simp [ho], hr⟩
        · exact ⟨mid, refs, by simp, hr⟩
    rw [split_hist]
    rcases ha.cases h.wf hd with ⟨hm, rfl⟩ | ⟨hm, d0, hd0, rfl⟩ | ⟨hm, hn, _, hg⟩
    · rw [ha.cur_files, hm]
      apply or_congr
      · constructor
        · rintro ⟨d0, hd0, e, hx⟩
          have := (h.files d0 hd0 x).1 hx
          rw [e] at this; exact this
        · rintro ⟨i, rs, ho, hi⟩
          have : normId sha1 mid ∈ db0.docs.map (·.mid) := (h.mids _).2 (Or.inl ⟨x, i, rs, ho, hi.symm⟩)
          rw [List.mem_map] at this
          obtain ⟨d0, hd0, e⟩ := this
          exact ⟨d0, hd0, e, (h.files d0 hd0 x).2 ⟨i, rs, ho, by rw [hi, e]⟩⟩
      · simp
    · have : (retag L w d0).files = d0.files := by unfold retag; split <;> rfl
      rw [retag_mid] at hm ⊢
      rw [this, h.files d0 hd0 x]
      have : normId sha1 mid ≠ d0.mid := fun e => hm e.symm
      simp [this]
    · rw [hg.2.2.2]
      constructor
      · intro hx; simp at hx
      · rintro (⟨i, rs, ho, hi⟩ | ⟨_, e⟩)
        · exact absurd ((h.mids _).2 (Or.inl ⟨x, i, rs, ho, hi.symm⟩)) hn
        · exact absurd e.symm hm

theorem inv_run {sha1 : Str → Str} (hs : Sha sha1) (ops : List Op) (hadd : ∀ o ∈ ops, ∃ f i rs, o = .add f i rs)
    (hself : NoLongSelf sha1 ops) : Inv sha1 ops (run sha1 ops) := by
  have gen : ∀ (l hist : List Op) (db : Db), Inv sha1 hist db → (∀ o ∈ l, ∃ f i rs, o = .add f i rs) →
      NoLongSelf sha1 l → Inv sha1 (hist ++ l) (l.foldl (step sha1) db) := by
    intro l
    induction l with
    | nil => intro hist db h _ _; simpa using h
    | cons o l ih =>
      intro hist db h ha hn
      obtain ⟨f, i, rs, rfl⟩ := ha o (by simp)
      have h1 := inv_step hs h f i rs (hn f i rs (by simp))
      have h2 := ih (hist ++ [.add f i rs]) _ h1 (fun o ho => ha o (by simp [ho]))
        (fun f i rs ho => hn f i rs (by simp [ho]))
      simpa [step] using h2
  simpa [run] using gen ops [] empty (inv_empty sha1) hadd hself

end Notmuch.Threading
