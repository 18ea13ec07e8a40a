import Verif.Proofs.GitIndex

/-! # notmuch-git: the status and the commit -/

namespace Notmuch.GitProof
open Notmuch.Git Notmuch.GitSpec

theorem slash_false {s : Str} (h : ∀ d ∈ s, d ≠ 47 ∧ 32 < d ∧ d < 127 ∧ d ≠ 34 ∧ d ≠ 92) : ∀ c ∈ s, (c == 47) = false := by
  intro c hc
  simpa using (h c hc).1

theorem unpackPath_tagPath {E : Env} (hE : Sane E) (id t : Str) : unpackPath E (tagPath E id t) = some (some (id, t)) := by
  have e1 : (bs "tags/" : Str) = bs "tags" ++ 47 :: [] := by decide +kernel
  have e2 : (bs "/" : Str) = 47 :: [] := by decide +kernel
  have ht : ∀ c ∈ bs "tags", (c == 47) = false := by decide +kernel
  have hid := slash_false (hexQuote_chars id)
  have htg := slash_false (hexQuote_chars t)
  cases hv : E.v1 with
  | true =>
    have e : pieces (· == 47) (tagPath E id t) = [bs "tags", (E.hash (hexQuote id)).1, (E.hash (hexQuote id)).2, hexQuote id, hexQuote t] := by
      unfold tagPath idPath
      simp only [hv, if_true, e1, e2, List.append_assoc, List.cons_append, List.nil_append]
      rw [pieces_cons ht (by decide), pieces_cons (slash_false (hexDir_chars (hE.hash _).1).2) (by decide),
        pieces_cons (slash_false (hexDir_chars (hE.hash _).2).2) (by decide), pieces_cons hid (by decide), pieces_one htg]
    unfold unpackPath
    rw [e]
    simp [hv, hE.hash, unquote_hexQuote]
  | false =>
    have e : pieces (· == 47) (tagPath E id t) = [bs "tags", hexQuote id, hexQuote t] := by
      unfold tagPath idPath
      simp only [hv, Bool.false_eq_true, if_false, e1, e2, List.append_assoc, List.cons_append, List.nil_append]
      rw [pieces_cons ht (by decide), pieces_cons hid (by decide), pieces_one htg]
    unfold unpackPath
    rw [e]
    simp [hv, unquote_hexQuote]

theorem unpackPath_other (E : Env) {p d : Str} (h1 : 47 ∉ d) (h2 : d ≠ bs "tags") (h3 : p = d ∨ ∃ r, p = d ++ 47 :: r) : unpackPath E p = some none := by
  have hd : ∀ c ∈ d, (c == 47) = false := by
    intro c hc
    simp only [beq_eq_false_iff_ne]
    rintro rfl
    exact h1 hc
  unfold unpackPath
  rcases h3 with rfl | ⟨r, rfl⟩
  · rw [pieces_one hd]
  · rw [pieces_cons hd (by decide)]
    split
    · rename_i hp
      simp only [List.cons.injEq] at hp
      rw [if_neg (by rw [← hp.1]; exact h2)]
    · rename_i hp
      simp only [List.cons.injEq] at hp
      rw [if_neg (by rw [← hp.1]; exact h2)]
    · rfl

theorem unpack_canonical {E : Env} (hE : Sane E) {ps : List Str} (h : Canonical E ps) :
    ∃ l, unpack E ps = some l ∧ ∀ id t, (id, t) ∈ l ↔ tagPath E id t ∈ ps := by
  induction ps with
  | nil => exact ⟨[], rfl, by simp⟩
  | cons p ps ih =>
    obtain ⟨l, hl, hm⟩ := ih (fun q hq => h q (by simp [hq]))
    rcases h p (by simp) with ⟨id, t, rfl⟩ | ⟨d, h1, h2, h3⟩
    · refine ⟨(id, t) :: l, by rw [unpack, unpackPath_tagPath hE, hl]; rfl, fun i u => ?_⟩
      simp only [List.mem_cons, Prod.mk.injEq, hm]
      constructor
      · rintro (⟨rfl, rfl⟩ | h)
        · exact Or.inl rfl
        · exact Or.inr h
      · rintro (h | h)
        · exact Or.inl (tagPath_injective hE h)
        · exact Or.inr h
    · refine ⟨l, by rw [unpack, unpackPath_other E h1 h2 h3, hl], fun i u => ?_⟩
      rw [hm]
      simp only [List.mem_cons]
      constructor
      · exact Or.inr
      · rintro (h | h)
        · have := unpackPath_other E h1 h2 h3
          rw [← h, unpackPath_tagPath hE] at this
          simp at this
        · exact h

theorem known_iff {E : Env} (h : E.module2 = true) (db : Db) (id : Str) : known E db id = true ↔ Known db id := by
  unfold known Known
  rw [if_pos h, List.any_eq_true]
  simp

theorem later_refl (d : Db) : Later d d := ⟨rfl, Nat.le_refl _, fun m hm => ⟨m, hm, rfl⟩, fun m hm _ => hm⟩

theorem later_trans {a b c : Db} (h : Later a b) (h' : Later b c) : Later a c where
  uuid := by rw [h'.uuid, h.uuid]
  rev := Nat.le_trans h.rev h'.rev
  keeps := fun m hm => by
    obtain ⟨m', hm', e⟩ := h.keeps m hm
    obtain ⟨m'', hm'', e'⟩ := h'.keeps m' hm'
    exact ⟨m'', hm'', by rw [e', e]⟩
  touched := fun m hm hl => h.touched m (h'.touched m hm (Nat.le_trans hl h.rev)) hl

theorem honest_later {E : Env} {c : Option Cache} {a b : Db} (h : Honest E c a) (hab : Later a b) : Honest E c b := by
  intro x hx
  obtain ⟨i, d, h1, h2, h3, h4, h5, h6⟩ := h x hx
  exact ⟨i, d, h1, h2, h3, h4, h5, later_trans h6 hab⟩

theorem represents_path {E : Env} (hE : Sane E) {pre : Str} {idx : List Str} {db : Db} (h : Represents E pre idx db) (id t : Str) :
    tagPath E id t ∈ idx ↔ Has db id (pre ++ t) := by
  rw [h]
  constructor
  · rintro ⟨i, u, hh, e⟩
    obtain ⟨rfl, rfl⟩ := tagPath_injective hE e
    exact hh
  · intro hh; exact ⟨id, t, hh, rfl⟩

theorem represents_canonical {E : Env} {pre : Str} {idx : List Str} {db : Db} (h : Represents E pre idx db) : Canonical E idx := by
  intro p hp
  obtain ⟨id, t, _, e⟩ := (h p).mp hp
  exact Or.inl ⟨id, t, e⟩

/-- **The status is right**, after any history. -/
theorem getStatus_right {E : Env} (hE : Sane E) (hp : 126 ∉ E.pre) (hm : E.module2 = true) {r : Repo} {db : Db} (hdb : Regular E db)
    (hc : Honest E r.cache db) (ht : Canonical E (E.tree r.head)) :
    ∃ idx st, getStatus E r db db = some ({ r with idx := some idx, cache := some ⟨E.pre, db.uuid, db.rev, some (E.sum idx)⟩ }, st) ∧
      Represents E E.pre idx db ∧ Right E (E.tree r.head) db st := by
  obtain ⟨idx, hi, hr⟩ := indexTags_exact hE hp hdb hc r.idx
  obtain ⟨d, hd, md⟩ := unpack_canonical hE (ps := diffDeleted idx (E.tree r.head)) (fun p hp => ht p (List.mem_filter.mp hp).1)
  obtain ⟨a, ha, ma⟩ := unpack_canonical hE (ps := diffAdded idx (E.tree r.head)) (fun p hp => represents_canonical hr p (List.mem_filter.mp hp).1)
  refine ⟨idx, _, by unfold getStatus; rw [hi]; simp only [hd, ha]; rfl, hr, ?_⟩
  have hkn : ∀ id t, Has db id t → Known db id := fun id t ⟨m, h, e, _⟩ => ⟨m, h, e⟩
  refine ⟨fun id t => ?_, fun id t => ?_, fun id t => ?_⟩
  · rw [ma]
    unfold diffAdded InTree
    simp only [List.mem_filter, represents_path hE hr]
    simp
  · simp only [List.mem_filter, md, known_iff hm]
    unfold diffDeleted InTree
    simp only [List.mem_filter, Bool.not_eq_true', List.contains_eq_mem, decide_eq_false_iff_not, represents_path hE hr]
    grind
  · simp only [List.mem_filter, md, Bool.not_eq_true']
    rw [← Bool.not_eq_true, known_iff hm]
    unfold diffDeleted InTree
    simp only [List.mem_filter, Bool.not_eq_true', List.contains_eq_mem, decide_eq_false_iff_not, represents_path hE hr]
    grind

/-! ## Commit -/

theorem readTree_mem {E : Env} (hE : Sane E) {r : Repo} (h : HonestMain E r.mcache) (p : Str) : p ∈ readTree E r ↔ p ∈ E.tree r.head := by
  unfold readTree
  split
  · rename_i hh s idx h1 h2
    split
    · rename_i hc
      obtain ⟨hs, e⟩ := hc
      obtain ⟨i, hi, hm⟩ := h hh s h1
      have := hE.sum _ _ (hs.symm.trans hi)
      subst this
      rw [hm, e]
    · rfl
  · rfl

theorem commitStatus_right {E : Env} (hE : Sane E) {r : Repo} {db : Db} {st : Status} (hdb : Regular E db) (hst : Right E (E.tree r.head) db st)
    (hm : HonestMain E r.mcache) :
    ∃ r', commitStatus E r st = (r', .done) ∧ HonestMain E r'.mcache ∧ r'.idx = r.idx ∧ r'.cache = r.cache ∧
      (∀ id t, InTree E (E.tree r'.head) id t ↔ (Known db id ∧ Has db id (E.pre ++ t)) ∨ (¬ Known db id ∧ InTree E (E.tree r.head) id t)) ∧
      (∀ p, (∀ id t, p ≠ tagPath E id t) → (p ∈ E.tree r'.head ↔ p ∈ E.tree r.head)) ∧
      r'.head = E.commitTree (E.tree r'.head) r.head := by
  obtain ⟨r1, h1, m1⟩ := updateIndex_dels E (st.deleted.map (fun x => tagPath E x.1 x.2)) (readTree E r)
  obtain ⟨r2, h2, m2⟩ := updateIndex_adds E (st.added.map (fun x => tagPath E x.1 x.2)) (by
    intro p hp
    simp only [List.mem_map] at hp
    obtain ⟨⟨id, t⟩, hx, rfl⟩ := hp
    obtain ⟨m, hm, rfl, ht⟩ := ((hst.added id t).mp hx).1
    exact hdb.paths m hm t ht) r1
  have hu : updateIndex E (updateLines E st) (readTree E r) = some r2 := by
    unfold updateLines
    rw [updateIndex_append]
    have e1 : st.deleted.map (fun x => Upd.del (tagPath E x.1 x.2)) = (st.deleted.map (fun x => tagPath E x.1 x.2)).map .del := by simp
    have e2 : st.added.map (fun x => Upd.add (tagPath E x.1 x.2)) = (st.added.map (fun x => tagPath E x.1 x.2)).map .add := by simp
    rw [e1, e2, h1]
    exact h2
  have hh : ∀ p, p ∈ r2 ↔ (p ∈ E.tree r.head ∧ p ∉ st.deleted.map (fun x => tagPath E x.1 x.2)) ∨ p ∈ st.added.map (fun x => tagPath E x.1 x.2) := by
    intro p; rw [m2, m1, readTree_mem hE hm]
  refine ⟨{ r with main := some r2, mcache := some (E.commitTree r2 r.head, some (E.sum r2)), head := E.commitTree r2 r.head },
    by unfold commitStatus; rw [hu], ?_, rfl, rfl, ?_, ?_, ?_⟩
  · intro h s e
    simp only [Option.some.injEq, Prod.mk.injEq] at e
    obtain ⟨rfl, rfl⟩ := e
    exact ⟨r2, rfl, fun p => by rw [hE.tree]⟩
  · intro id t
    simp only [InTree, hE.tree]
    rw [hh]
    have k1 : ∀ (l : List (Str × Str)), tagPath E id t ∈ l.map (fun x => tagPath E x.1 x.2) ↔ (id, t) ∈ l := by
      intro l
      simp only [List.mem_map]
      constructor
      · rintro ⟨⟨i, u⟩, hx, e⟩
        obtain ⟨rfl, rfl⟩ := tagPath_injective hE e
        exact hx
      · intro hx; exact ⟨_, hx, rfl⟩
    rw [k1, k1, hst.added, hst.deleted]
    have hkn : Has db id (E.pre ++ t) → Known db id := fun ⟨m, h, e, _⟩ => ⟨m, h, e⟩
    unfold InTree
    grind
  · intro p hp
    simp only [hE.tree]
    rw [hh]
    have k : ∀ (l : List (Str × Str)), p ∉ l.map (fun x => tagPath E x.1 x.2) := by
      intro l hx
      simp only [List.mem_map] at hx
      obtain ⟨x, _, e⟩ := hx
      exact hp _ _ e.symm
    simp [k]
  · simp only [hE.tree]

theorem right_committed {E : Env} {tree : List Str} {db : Db} {st : Status} (h : Right E tree db st) :
    isCommitted st = true ↔ ∀ id t, Known db id → (InTree E tree id t ↔ Has db id (E.pre ++ t)) := by
  unfold isCommitted
  simp only [Bool.and_eq_true, List.isEmpty_iff]
  constructor
  · rintro ⟨h1, h2⟩ id t hk
    have a := h.added id t
    have d := h.deleted id t
    rw [h1] at a
    rw [h2] at d
    simp only [List.not_mem_nil, false_iff] at a d
    grind
  · intro hh
    constructor
    · rw [List.eq_nil_iff_forall_not_mem]
      rintro ⟨id, t⟩ hx
      have := (h.added id t).mp hx
      obtain ⟨m, hm, e, _⟩ := this.1
      exact this.2 ((hh id t ⟨m, hm, e⟩).mpr this.1)
    · rw [List.eq_nil_iff_forall_not_mem]
      rintro ⟨id, t⟩ hx
      have := (h.deleted id t).mp hx
      exact this.2.2 ((hh id t this.2.1).mp this.1)

end Notmuch.GitProof
