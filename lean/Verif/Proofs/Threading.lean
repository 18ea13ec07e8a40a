import Verif.Spec.Threading

namespace Notmuch.Threading
open Notmuch.ThreadSpec

/-- Well-formed databases. -/
structure WF (db : Db) : Prop where
  mids : (db.docs.map (·.mid)).Nodup
  ids : (db.docs.map (·.docId)).Nodup
  bound : ∀ d ∈ db.docs, d.docId ≤ db.lastDoc
  thr : ∀ d ∈ db.docs, d.threads = [d.thread] ∧ d.thread ≤ db.lastThread

theorem find_some_iff {l : List Doc} (h : (l.map (·.mid)).Nodup) (x : Str) (d : Doc) :
    l.find? (fun d => d.mid == x) = some d ↔ d ∈ l ∧ d.mid = x := by
  constructor
  · intro hf
    exact ⟨List.mem_of_find?_eq_some hf, by simpa using List.find?_some hf⟩
  · rintro ⟨hm, rfl⟩
    induction l with
    | nil => simp at hm
    | cons a l ih =>
      rw [List.map_cons, List.nodup_cons] at h
      rw [List.find?_cons]
      by_cases e : a.mid = d.mid
      · simp only [e, beq_self_eq_true]
        rcases List.mem_cons.1 hm with rfl | hm
        · rfl
        · exact absurd (e ▸ List.mem_map_of_mem hm) h.1
      · simp only [beq_eq_false_iff_ne.2 e]
        rcases List.mem_cons.1 hm with rfl | hm
        · exact absurd rfl e
        · exact ih h.2 hm

theorem nodup_map_inj {α β : Type} {f : α → β} {l : List α} (h : (l.map f).Nodup) {a b : α} (ha : a ∈ l) (hb : b ∈ l)
    (e : f a = f b) : a = b := by
  induction l with
  | nil => simp at ha
  | cons x l ih =>
    rw [List.map_cons, List.nodup_cons] at h
    rcases List.mem_cons.1 ha with ha' | ha' <;> rcases List.mem_cons.1 hb with hb' | hb'
    · rw [ha', hb']
    · exact absurd (by rw [← ha', e]; exact List.mem_map_of_mem hb') h.1
    · exact absurd (by rw [← hb', ← e]; exact List.mem_map_of_mem ha') h.1
    · exact ih h.2 ha' hb'

theorem find_none_iff {l : List Doc} (x : Str) :
    l.find? (fun d => d.mid == x) = none ↔ x ∉ l.map (·.mid) := by
  rw [List.find?_eq_none]
  simp

/-- The effect of merging on one document. -/
theorem merge_doc (d : Doc) (h : d.threads = [d.thread]) (w l : Nat) :
    (if l ∈ d.threads then { d with threads := addTo (d.threads.filter (· ≠ l)) w } else d) =
      if d.thread = l then { d with threads := [w] } else d := by
  rw [h]
  by_cases e : d.thread = l
  · subst e
    simp [addTo]
  · simp [e, Ne.symm e]

/-- Documents of the threads `L` now have thread `w`. -/
def retag (L : List Nat) (w : Nat) (d : Doc) : Doc :=
  if d.thread ∈ L then { d with threads := [w] } else d

theorem retag_mid (L : List Nat) (w : Nat) (d : Doc) : (retag L w d).mid = d.mid := by
  unfold retag; split <;> rfl
theorem retag_docId (L : List Nat) (w : Nat) (d : Doc) : (retag L w d).docId = d.docId := by
  unfold retag; split <;> rfl
theorem retag_threads (L : List Nat) (w : Nat) (d : Doc) (h : d.threads = [d.thread]) :
    (retag L w d).threads = [if d.thread ∈ L then w else d.thread] := by
  unfold retag; split
  · rfl
  · exact h
theorem retag_thread (L : List Nat) (w : Nat) (d : Doc) (h : d.threads = [d.thread]) :
    (retag L w d).thread = if d.thread ∈ L then w else d.thread := by
  unfold Doc.thread; rw [retag_threads L w d h]; rfl

theorem map_retag_mid (L : List Nat) (w : Nat) (l : List Doc) :
    (l.map (retag L w)).map (·.mid) = l.map (·.mid) := by
  rw [List.map_map]; exact List.map_congr_left (fun d _ => retag_mid L w d)
theorem map_retag_docId (L : List Nat) (w : Nat) (l : List Doc) :
    (l.map (retag L w)).map (·.docId) = l.map (·.docId) := by
  rw [List.map_map]; exact List.map_congr_left (fun d _ => retag_docId L w d)

theorem map_retag_self (t : Nat) (l : List Doc) (h : ∀ d ∈ l, d.threads = [d.thread]) :
    l.map (retag [t] t) = l := by
  conv => rhs; rw [← List.map_id l]
  apply List.map_congr_left
  intro d hd
  unfold retag
  split
  · rename_i hm
    have hm : d.thread = t := by simpa using hm
    have := h d hd
    rw [hm] at this
    cases d; simp at this ⊢; exact this.symm
  · rfl

theorem map_retag_nil (w : Nat) (l : List Doc) : l.map (retag [] w) = l := by
  conv => rhs; rw [← List.map_id l]
  apply List.map_congr_left
  intro e _
  simp [retag]

/-- A ghost document of thread `w`. -/
def IsGhost (w : Nat) (g : Doc) : Prop := g.kind = .ghost ∧ g.threads = [w] ∧ g.refs = [] ∧ g.files = []

/-- The state of `*thread_id` and of the database, while parents `P` have been processed. -/
structure Threads (sha1 : Str → Str) (db0 : Db) (m : Str) (P : List Str) (db : Db) (w : Nat)
    (L : List Nat) (gs : List Doc) : Prop where
  docs : db.docs = db0.docs.map (retag L w) ++ gs
  ghost : ∀ g ∈ gs, IsGhost w g
  gmids : (gs.map (·.mid)).Nodup
  gmem : ∀ x, x ∈ gs.map (·.mid) ↔ x ∉ db0.docs.map (·.mid) ∧ ∃ r ∈ P, x = normId sha1 r
  gids : (gs.map (·.docId)).Nodup
  gbound : ∀ g ∈ gs, db0.lastDoc < g.docId ∧ g.docId ≤ db.lastDoc
  lmem : ∀ t, t ∈ L ↔ ∃ d ∈ db0.docs, (d.mid = m ∨ ∃ r ∈ P, d.mid = normId sha1 r) ∧ d.thread = t
  wcase : w ∈ L ∨ (db0.lastThread < w ∧ w ≤ db.lastThread)
  tmono : db0.lastThread ≤ db.lastThread
  dmono : db0.lastDoc ≤ db.lastDoc

theorem Threads.wbound {sha1 db0 m P db w L gs} (h : Threads sha1 db0 m P db w L gs) (h0 : WF db0) :
    w ≤ db.lastThread := by
  rcases h.wcase with hw | hw
  · obtain ⟨d, hd, _, rfl⟩ := (h.lmem w).1 hw
    exact Nat.le_trans (h0.thr d hd).2 h.tmono
  · exact hw.2

theorem Threads.wf {sha1 db0 m P db w L gs} (h : Threads sha1 db0 m P db w L gs) (h0 : WF db0) : WF db := by
  have hw := h.wbound h0
  constructor
  · rw [h.docs, List.map_append, map_retag_mid, List.nodup_append]
    refine ⟨h0.mids, h.gmids, ?_⟩
    rintro a ha b hb rfl
    exact ((h.gmem a).1 hb).1 ha
  · rw [h.docs, List.map_append, map_retag_docId, List.nodup_append]
    refine ⟨h0.ids, h.gids, ?_⟩
    rintro a ha b hb rfl
    rw [List.mem_map] at ha hb
    obtain ⟨d, hd, rfl⟩ := ha
    obtain ⟨g, hg, e⟩ := hb
    have := h0.bound d hd
    have := (h.gbound g hg).1
    omega
  · intro d hd
    rw [h.docs, List.mem_append, List.mem_map] at hd
    rcases hd with ⟨d', hd', rfl⟩ | hd
    · rw [retag_docId]; exact Nat.le_trans (h0.bound d' hd') h.dmono
    · exact (h.gbound d hd).2
  · intro d hd
    rw [h.docs, List.mem_append, List.mem_map] at hd
    rcases hd with ⟨d', hd', rfl⟩ | hd
    · have ht := (h0.thr d' hd').1
      rw [retag_threads L w d' ht, retag_thread L w d' ht]
      refine ⟨rfl, ?_⟩
      split
      · exact hw
      · exact Nat.le_trans (h0.thr d' hd').2 h.tmono
    · obtain ⟨_, hg, _⟩ := h.ghost d hd
      have : d.thread = w := by unfold Doc.thread; rw [hg]; rfl
      rw [this]; exact ⟨hg, hw⟩

theorem putDoc_new (db : Db) (d : Doc) (h : d.docId ∉ db.docs.map (·.docId)) :
    putDoc db d = { db with docs := db.docs ++ [d] } := by
  unfold putDoc
  split
  · contradiction
  · rfl

theorem putDoc_old (db : Db) (d : Doc) (h : d.docId ∈ db.docs.map (·.docId)) :
    putDoc db d = { db with docs := db.docs.map (fun e => if e.docId = d.docId then d else e) } := by
  unfold putDoc
  split
  · rfl
  · contradiction

theorem fresh_doc {db : Db} (h : ∀ d ∈ db.docs, d.docId ≤ db.lastDoc) : db.lastDoc + 1 ∉ db.docs.map (·.docId) := by
  intro hm
  rw [List.mem_map] at hm
  obtain ⟨d, hd, e⟩ := hm
  have := h d hd
  omega

/-- Adding a fresh ghost. -/
theorem resolve_new {sha1 : Str → Str} {db : Db} (h : WF db) (r : Str)
    (hr : findMid db (normId sha1 r) = none) :
    resolve sha1 db r = (db.lastThread + 1,
      { docs := db.docs ++ [⟨db.lastDoc + 1, normId sha1 r, .ghost, [db.lastThread + 1], [], []⟩]
        lastThread := db.lastThread + 1, lastDoc := db.lastDoc + 1 }) := by
  unfold resolve
  rw [hr]
  simp only [genDoc, genThread]
  rw [putDoc_new]
  exact fresh_doc h.bound

theorem resolve_old {sha1 : Str → Str} {db : Db} (r : Str) (d : Doc)
    (hr : findMid db (normId sha1 r) = some d) : resolve sha1 db r = (d.thread, db) := by
  unfold resolve
  rw [hr]

/-- One parent, when the message has a thread already. -/
theorem threads_step {sha1 : Str → Str} {db0 : Db} {m : Str} {P : List Str} {db : Db} {w : Nat} {L : List Nat}
    {gs : List Doc} (h0 : WF db0) (h : Threads sha1 db0 m P db w L gs) (r : Str) :
    ∃ L' gs', Threads sha1 db0 m (P ++ [r])
      (if w = (resolve sha1 db r).1 then (resolve sha1 db r).2
       else merge (resolve sha1 db r).2 w (resolve sha1 db r).1) w L' gs' := by
  have hwf := h.wf h0
  have hw := h.wbound h0
  cases hf : findMid db (normId sha1 r) with
  | some d =>
    rw [resolve_old r d hf]
    obtain ⟨hd, hdm⟩ := (find_some_iff hwf.mids _ _).1 hf
    simp only
    rw [h.docs, List.mem_append] at hd
    by_cases hdb : ∃ d0 ∈ db0.docs, d0.mid = normId sha1 r
    · -- a document of the old database
      obtain ⟨d0, hd0, hm0⟩ := hdb
      have hd_eq : d = retag L w d0 := by
        have h1 : findMid db (normId sha1 r) = some (retag L w d0) := by
          apply (find_some_iff hwf.mids _ _).2
          refine ⟨?_, by rw [retag_mid, hm0]⟩
          rw [h.docs, List.mem_append]; exact Or.inl (List.mem_map_of_mem hd0)
        rw [hf] at h1; exact Option.some.inj h1
      have hth0 := (h0.thr d0 hd0).1
      have hdt : d.thread = if d0.thread ∈ L then w else d0.thread := by
        rw [hd_eq, retag_thread L w d0 hth0]
      -- the new gs and membership facts
      have gmem' : ∀ x, x ∈ gs.map (·.mid) ↔ x ∉ db0.docs.map (·.mid) ∧ ∃ r' ∈ P ++ [r], x = normId sha1 r' := by
        intro x
        rw [h.gmem]
        constructor
        · rintro ⟨a, r', hr', e⟩; exact ⟨a, r', by simp [hr'], e⟩
        · rintro ⟨a, r', hr', e⟩
          rw [List.mem_append, List.mem_singleton] at hr'
          rcases hr' with hr' | rfl
          · exact ⟨a, r', hr', e⟩
          · exact absurd (by rw [e, ← hm0]; exact List.mem_map_of_mem hd0) a
      by_cases hL : d0.thread ∈ L
      · rw [hdt, if_pos hL, if_pos rfl]
        refine ⟨L, gs, { h with gmem := gmem', lmem := ?_ }⟩
        intro t
        rw [h.lmem]
        constructor
        · rintro ⟨e, he, hc, rfl⟩
          refine ⟨e, he, ?_, rfl⟩
          rcases hc with hc | ⟨r', hr', hc⟩
          · exact Or.inl hc
          · exact Or.inr ⟨r', by simp [hr'], hc⟩
        · rintro ⟨e, he, hc, rfl⟩
          rcases hc with hc | ⟨r', hr', hc⟩
          · exact ⟨e, he, Or.inl hc, rfl⟩
          · rw [List.mem_append, List.mem_singleton] at hr'
            rcases hr' with hr' | rfl
            · exact ⟨e, he, Or.inr ⟨r', hr', hc⟩, rfl⟩
            · have : e = d0 := by
                have a1 := (find_some_iff h0.mids _ _).2 ⟨he, hc⟩
                have a2 := (find_some_iff h0.mids _ _).2 ⟨hd0, hm0⟩
                rw [a1] at a2; exact Option.some.inj a2
              rw [this]
              exact (h.lmem _).1 hL
      · have hne : w ≠ d0.thread := by
          rintro rfl
          rcases h.wcase with hw' | hw'
          · exact hL hw'
          · have := (h0.thr d0 hd0).2; omega
        rw [hdt, if_neg hL, if_neg hne]
        refine ⟨d0.thread :: L, gs, { h with docs := ?_, gmem := gmem', lmem := ?_, wcase := ?_ }⟩
        · unfold merge
          simp only
          rw [h.docs, List.map_append, List.map_map]
          congr 1
          · apply List.map_congr_left
            intro e he
            have hte := (h0.thr e he).1
            simp only [Function.comp]
            rw [merge_doc _ (by rw [retag_threads L w e hte, retag_thread L w e hte])]
            rw [retag_thread L w e hte]
            unfold retag
            by_cases he1 : e.thread ∈ L
            · simp [he1, hne]
            · simp only [he1, if_false, List.mem_cons, or_false]
          · conv => rhs; rw [← List.map_id gs]
            apply List.map_congr_left
            intro g hg
            obtain ⟨_, hg', _⟩ := h.ghost g hg
            have hgt : g.thread = w := by unfold Doc.thread; rw [hg']; rfl
            rw [merge_doc _ (by rw [hg', hgt]), if_neg (by rw [hgt]; exact hne)]
            rfl
        · intro t
          rw [List.mem_cons, h.lmem]
          constructor
          · rintro (rfl | ⟨e, he, hc, rfl⟩)
            · exact ⟨d0, hd0, Or.inr ⟨r, by simp, hm0⟩, rfl⟩
            · refine ⟨e, he, ?_, rfl⟩
              rcases hc with hc | ⟨r', hr', hc⟩
              · exact Or.inl hc
              · exact Or.inr ⟨r', by simp [hr'], hc⟩
          · rintro ⟨e, he, hc, rfl⟩
            rcases hc with hc | ⟨r', hr', hc⟩
            · exact Or.inr ⟨e, he, Or.inl hc, rfl⟩
            · rw [List.mem_append, List.mem_singleton] at hr'
              rcases hr' with hr' | rfl
              · exact Or.inr ⟨e, he, Or.inr ⟨r', hr', hc⟩, rfl⟩
              · have : e = d0 := by
                  have a1 := (find_some_iff h0.mids _ _).2 ⟨he, hc⟩
                  have a2 := (find_some_iff h0.mids _ _).2 ⟨hd0, hm0⟩
                  rw [a1] at a2; exact Option.some.inj a2
                exact Or.inl (by rw [this])
        · rcases h.wcase with hw' | hw'
          · exact Or.inl (by simp [hw'])
          · exact Or.inr hw'
    · -- one of the new ghosts
      have hdg : d ∈ gs := by
        rcases hd with hd | hd
        · rw [List.mem_map] at hd
          obtain ⟨d0, hd0, rfl⟩ := hd
          exact absurd ⟨d0, hd0, by rw [← hdm, retag_mid]⟩ hdb
        · exact hd
      obtain ⟨_, hg', _⟩ := h.ghost d hdg
      have hgt : d.thread = w := by unfold Doc.thread; rw [hg']; rfl
      rw [hgt, if_pos rfl]
      refine ⟨L, gs, { h with gmem := ?_, lmem := ?_ }⟩
      · intro x
        rw [h.gmem]
        constructor
        · rintro ⟨a, r', hr', e⟩; exact ⟨a, r', by simp [hr'], e⟩
        · rintro ⟨a, r', hr', e⟩
          rw [List.mem_append, List.mem_singleton] at hr'
          rcases hr' with hr' | rfl
          · exact ⟨a, r', hr', e⟩
          · have := (h.gmem x).1 (by rw [e, ← hdm]; exact List.mem_map_of_mem hdg)
            exact this
      · intro t
        rw [h.lmem]
        constructor
        · rintro ⟨e, he, hc, rfl⟩
          refine ⟨e, he, ?_, rfl⟩
          rcases hc with hc | ⟨r', hr', hc⟩
          · exact Or.inl hc
          · exact Or.inr ⟨r', by simp [hr'], hc⟩
        · rintro ⟨e, he, hc, rfl⟩
          rcases hc with hc | ⟨r', hr', hc⟩
          · exact ⟨e, he, Or.inl hc, rfl⟩
          · rw [List.mem_append, List.mem_singleton] at hr'
            rcases hr' with hr' | rfl
            · exact ⟨e, he, Or.inr ⟨r', hr', hc⟩, rfl⟩
            · exact absurd ⟨e, he, hc⟩ hdb
  | none =>
    rw [resolve_new hwf r hf]
    have hnot : normId sha1 r ∉ db.docs.map (·.mid) := (find_none_iff _).1 hf
    have hnot0 : normId sha1 r ∉ db0.docs.map (·.mid) := by
      intro hm; apply hnot; rw [h.docs, List.map_append, map_retag_mid]; simp [hm]
    have hnotg : normId sha1 r ∉ gs.map (·.mid) := by
      intro hm; apply hnot; rw [h.docs, List.map_append]; exact List.mem_append_right _ hm
    simp only
    rw [if_neg (by omega)]
    refine ⟨L, gs ++ [⟨db.lastDoc + 1, normId sha1 r, .ghost, [w], [], []⟩], ?_, ?_, ?_, ?_, ?_, ?_, ?_, ?_, ?_, ?_⟩
    · unfold merge
      simp only
      rw [h.docs, List.map_append, List.map_append, List.append_assoc]
      congr 1
      · conv => rhs; rw [← List.map_id (db0.docs.map (retag L w))]
        apply List.map_congr_left
        intro e he
        have hb := hwf.thr e (by rw [h.docs]; simp [he])
        rw [merge_doc _ hb.1, if_neg (by omega)]; rfl
      · congr 1
        · conv => rhs; rw [← List.map_id gs]
          apply List.map_congr_left
          intro e he
          have hb := hwf.thr e (by rw [h.docs]; simp [he])
          rw [merge_doc _ hb.1, if_neg (by omega)]; rfl
        · simp [addTo]
    · intro g hg
      rw [List.mem_append, List.mem_singleton] at hg
      rcases hg with hg | rfl
      · exact h.ghost g hg
      · exact ⟨rfl, rfl, rfl, rfl⟩
    · rw [List.map_append, List.nodup_append]
      refine ⟨h.gmids, by simp, ?_⟩
      rintro a ha b hb rfl
      simp at hb; subst hb
      exact hnotg ha
    · intro x
      rw [List.map_append, List.mem_append, h.gmem]
      constructor
      · rintro (⟨a, r', hr', e⟩ | hx)
        · exact ⟨a, r', by simp [hr'], e⟩
        · simp at hx; subst hx; exact ⟨hnot0, r, by simp, rfl⟩
      · rintro ⟨a, r', hr', e⟩
        rw [List.mem_append, List.mem_singleton] at hr'
        rcases hr' with hr' | rfl
        · exact Or.inl ⟨a, r', hr', e⟩
        · exact Or.inr (by simp [e])
    · rw [List.map_append, List.nodup_append]
      refine ⟨h.gids, by simp, ?_⟩
      rintro a ha b hb rfl
      simp at hb; subst hb
      rw [List.mem_map] at ha
      obtain ⟨g, hg, e⟩ := ha
      have := (h.gbound g hg).2
      omega
    · intro g hg
      rw [List.mem_append, List.mem_singleton] at hg
      simp only [merge]
      rcases hg with hg | rfl
      · have := h.gbound g hg; omega
      · have := h.dmono; simp only; omega
    · intro t
      rw [h.lmem]
      constructor
      · rintro ⟨e, he, hc, rfl⟩
        refine ⟨e, he, ?_, rfl⟩
        rcases hc with hc | ⟨r', hr', hc⟩
        · exact Or.inl hc
        · exact Or.inr ⟨r', by simp [hr'], hc⟩
      · rintro ⟨e, he, hc, rfl⟩
        rcases hc with hc | ⟨r', hr', hc⟩
        · exact ⟨e, he, Or.inl hc, rfl⟩
        · rw [List.mem_append, List.mem_singleton] at hr'
          rcases hr' with hr' | rfl
          · exact ⟨e, he, Or.inr ⟨r', hr', hc⟩, rfl⟩
          · exact absurd (hc ▸ List.mem_map_of_mem he) hnot0
    · simp only [merge]
      rcases h.wcase with hw' | hw'
      · exact Or.inl hw'
      · exact Or.inr ⟨hw'.1, by omega⟩
    · simp only [merge]; have := h.tmono; omega
    · simp only [merge]; have := h.dmono; omega

/-- The first parent of a new message. -/
theorem threads_first {sha1 : Str → Str} {db0 : Db} {m : Str} (h0 : WF db0)
    (hm : m ∉ db0.docs.map (·.mid)) (r : Str) :
    ∃ L gs, Threads sha1 db0 m [r] (resolve sha1 db0 r).2 (resolve sha1 db0 r).1 L gs := by
  cases hf : findMid db0 (normId sha1 r) with
  | some d =>
    rw [resolve_old r d hf]
    obtain ⟨hd, hdm⟩ := (find_some_iff h0.mids _ _).1 hf
    refine ⟨[d.thread], [], ?_, by simp, by simp, ?_, by simp, by simp, ?_, by simp, Nat.le_refl _, Nat.le_refl _⟩
    · rw [List.append_nil, map_retag_self _ _ (fun e he => (h0.thr e he).1)]
    · intro x
      simp only [List.map_nil, List.not_mem_nil, false_iff]
      rintro ⟨a, r', hr', e⟩
      simp at hr'; subst hr'
      exact a (by rw [e, ← hdm]; exact List.mem_map_of_mem hd)
    · intro t
      rw [List.mem_singleton]
      constructor
      · rintro rfl; exact ⟨d, hd, Or.inr ⟨r, by simp, hdm⟩, rfl⟩
      · rintro ⟨e, he, hc, rfl⟩
        rcases hc with hc | ⟨r', hr', hc⟩
        · exact absurd (hc ▸ List.mem_map_of_mem he) hm
        · simp at hr'; subst hr'
          have a1 := (find_some_iff h0.mids _ _).2 ⟨he, hc⟩
          have a2 := (find_some_iff h0.mids _ _).2 ⟨hd, hdm⟩
          rw [a1] at a2; rw [Option.some.inj a2]
  | none =>
    rw [resolve_new h0 r hf]
    have hnot : normId sha1 r ∉ db0.docs.map (·.mid) := (find_none_iff _).1 hf
    refine ⟨[], [⟨db0.lastDoc + 1, normId sha1 r, .ghost, [db0.lastThread + 1], [], []⟩], ?_, ?_, by simp, ?_, by simp, by simp, ?_, ?_, by simp, by simp⟩
    · simp only [map_retag_nil]
    · intro g hg; simp at hg; subst hg; exact ⟨rfl, rfl, rfl, rfl⟩
    · intro x
      simp only [List.map_cons, List.map_nil, List.mem_singleton]
      constructor
      · rintro rfl; exact ⟨hnot, r, rfl, rfl⟩
      · rintro ⟨_, r', rfl, e⟩; exact e
    · intro t
      simp only [List.not_mem_nil, false_iff]
      rintro ⟨e, he, hc, rfl⟩
      rcases hc with hc | ⟨r', hr', hc⟩
      · exact hm (hc ▸ List.mem_map_of_mem he)
      · simp at hr'; subst hr'
        exact hnot (hc ▸ List.mem_map_of_mem he)
    · exact Or.inr ⟨by simp, by simp⟩

/-- The references recorded in the document. -/
def addRefs (s : List Str) (P : List Str) : List Str :=
  P.foldl (fun s r => if r.length > refMax then s else addTo s r) s

theorem mem_addTo {α} [DecidableEq α] (s : List α) (x y : α) : y ∈ addTo s x ↔ y ∈ s ∨ y = x := by
  unfold addTo
  split
  · constructor
    · exact Or.inl
    · rintro (h | rfl) <;> assumption
  · simp

theorem mem_addRefs (P : List Str) (s : List Str) (x : Str) :
    x ∈ addRefs s P ↔ x ∈ s ∨ (x ∈ P ∧ x.length ≤ refMax) := by
  unfold addRefs
  induction P generalizing s with
  | nil => simp
  | cons r P ih =>
    rw [List.foldl_cons, ih]
    by_cases h : r.length > refMax
    · rw [if_pos h]
      constructor
      · rintro (h' | h')
        · exact Or.inl h'
        · exact Or.inr ⟨by simp [h'.1], h'.2⟩
      · rintro (h' | ⟨h1, h2⟩)
        · exact Or.inl h'
        · rcases List.mem_cons.1 h1 with rfl | h1
          · omega
          · exact Or.inr ⟨h1, h2⟩
    · rw [if_neg h, mem_addTo]
      constructor
      · rintro ((h' | rfl) | h')
        · exact Or.inl h'
        · exact Or.inr ⟨by simp, by omega⟩
        · exact Or.inr ⟨by simp [h'.1], h'.2⟩
      · rintro (h' | ⟨h1, h2⟩)
        · exact Or.inl (Or.inl h')
        · rcases List.mem_cons.1 h1 with rfl | h1
          · exact Or.inl (Or.inr rfl)
          · exact Or.inr ⟨h1, h2⟩

/-- The loop over the parents, once there is a thread. -/
theorem fold_some {sha1 : Str → Str} {db0 : Db} {m : Str} (h0 : WF db0) (Q : List Str) :
    ∀ (P : List Str) (db : Db) (cur : Doc) (w : Nat) (L : List Nat) (gs : List Doc),
      Threads sha1 db0 m P db w L gs →
      ∃ db' L' gs', Q.foldl (linkParent sha1) ⟨db, cur, some w⟩ =
          ⟨db', { cur with refs := addRefs cur.refs Q }, some w⟩ ∧
        Threads sha1 db0 m (P ++ Q) db' w L' gs' := by
  induction Q with
  | nil => intro P db cur w L gs h; exact ⟨db, L, gs, rfl, by rw [List.append_nil]; exact h⟩
  | cons r Q ih =>
    intro P db cur w L gs h
    obtain ⟨L1, gs1, h1⟩ := threads_step h0 h r
    obtain ⟨db', L', gs', he, ht⟩ := ih (P ++ [r]) _
      (if r.length > refMax then cur else { cur with refs := addTo cur.refs r }) w L1 gs1 h1
    refine ⟨db', L', gs', ?_, by simpa using ht⟩
    rw [List.foldl_cons]
    have : linkParent sha1 ⟨db, cur, some w⟩ r =
        ⟨(if w = (resolve sha1 db r).1 then (resolve sha1 db r).2
          else merge (resolve sha1 db r).2 w (resolve sha1 db r).1),
         (if r.length > refMax then cur else { cur with refs := addTo cur.refs r }), some w⟩ := by
      unfold linkParent
      simp only
      split <;> rfl
    rw [this, he]
    congr 1
    unfold addRefs
    rw [List.foldl_cons]
    split <;> rfl

theorem link_new {sha1 : Str → Str} {db0 : Db} {m : Str} (h0 : WF db0)
    (hm : m ∉ db0.docs.map (·.mid)) (cur : Doc) (P : List Str) :
    ∃ db' w L gs, finishThread (P.foldl (linkParent sha1) ⟨db0, cur, none⟩) =
        ⟨db', { cur with threads := addTo cur.threads w, refs := addRefs cur.refs P }, some w⟩ ∧
      Threads sha1 db0 m P db' w L gs := by
  cases P with
  | nil =>
    refine ⟨{ db0 with lastThread := db0.lastThread + 1 }, db0.lastThread + 1, [], [], rfl, ?_⟩
    refine ⟨?_, by simp, by simp, by simp, by simp, by simp, ?_, Or.inr ⟨by simp, by simp⟩, by simp, by simp⟩
    · rw [map_retag_nil, List.append_nil]
    · intro t
      simp only [List.not_mem_nil, false_iff]
      rintro ⟨e, he, hc, rfl⟩
      rcases hc with hc | ⟨r', hr', hc⟩
      · exact hm (hc ▸ List.mem_map_of_mem he)
      · exact hr'.elim
  | cons r Q =>
    obtain ⟨L, gs, h1⟩ := threads_first (sha1 := sha1) h0 hm r
    obtain ⟨db', L', gs', he, ht⟩ := fold_some h0 Q [r] _
      { (if r.length > refMax then cur else { cur with refs := addTo cur.refs r }) with
        threads := addTo cur.threads (resolve sha1 db0 r).1 } _ L gs h1
    refine ⟨db', (resolve sha1 db0 r).1, L', gs', ?_, by simpa using ht⟩
    rw [List.foldl_cons]
    have : linkParent sha1 ⟨db0, cur, none⟩ r =
        ⟨(resolve sha1 db0 r).2,
         { (if r.length > refMax then cur else { cur with refs := addTo cur.refs r }) with
           threads := addTo cur.threads (resolve sha1 db0 r).1 }, some (resolve sha1 db0 r).1⟩ := by
      unfold linkParent
      simp only
      split <;> rfl
    rw [this, he]
    unfold finishThread
    simp only
    congr 1
    unfold addRefs
    rw [List.foldl_cons]
    split <;> rfl

theorem link_old {sha1 : Str → Str} {db0 : Db} (h0 : WF db0) (d : Doc) (hd : d ∈ db0.docs) (cur : Doc)
    (P : List Str) :
    ∃ db' L gs, finishThread (P.foldl (linkParent sha1) ⟨db0, cur, some d.thread⟩) =
        ⟨db', { cur with refs := addRefs cur.refs P }, some d.thread⟩ ∧
      Threads sha1 db0 d.mid P db' d.thread L gs := by
  have h1 : Threads sha1 db0 d.mid [] db0 d.thread [d.thread] [] := by
    refine ⟨?_, by simp, by simp, by simp, by simp, by simp, ?_, Or.inl (by simp), Nat.le_refl _, Nat.le_refl _⟩
    · rw [List.append_nil, map_retag_self _ _ (fun e he => (h0.thr e he).1)]
    · intro t
      rw [List.mem_singleton]
      constructor
      · rintro rfl; exact ⟨d, hd, Or.inl rfl, rfl⟩
      · rintro ⟨e, he, hc, rfl⟩
        rcases hc with hc | ⟨r', hr', hc⟩
        · have a1 := (find_some_iff h0.mids _ _).2 ⟨he, hc⟩
          have a2 := (find_some_iff h0.mids _ _).2 ⟨hd, rfl⟩
          rw [a1] at a2; rw [Option.some.inj a2]
        · exact absurd hr' (by simp)
  obtain ⟨db', L', gs', he, ht⟩ := fold_some h0 P [] _ cur _ _ _ h1
  exact ⟨db', L', gs', by rw [he]; rfl, by simpa using ht⟩

/-- What adding a message with (normalised) id `m` and parents `P` does. -/
structure AddSpec (sha1 : Str → Str) (db0 : Db) (file m : Str) (P : List Str) (db : Db) (w : Nat)
    (L : List Nat) (cur : Doc) : Prop where
  wf : WF db
  mids : ∀ x, x ∈ db.docs.map (·.mid) ↔ x ∈ db0.docs.map (·.mid) ∨ x = m ∨ ∃ r ∈ P, x = normId sha1 r
  old : ∀ d ∈ db0.docs, d.mid ≠ m → retag L w d ∈ db.docs
  ghost : ∀ r ∈ P, normId sha1 r ∉ db0.docs.map (·.mid) → ∃ g ∈ db.docs, g.mid = normId sha1 r ∧ IsGhost w g
  cur_mem : cur ∈ db.docs
  cur_mid : cur.mid = m
  cur_kind : cur.kind = .mail
  cur_thr : cur.threads = [w]
  cur_refs : ∀ x, x ∈ cur.refs ↔ (∃ d ∈ db0.docs, d.mid = m ∧ x ∈ d.refs) ∨ (x ∈ P ∧ x.length ≤ refMax)
  cur_files : ∀ x, x ∈ cur.files ↔ (∃ d ∈ db0.docs, d.mid = m ∧ x ∈ d.files) ∨ x = file
  lmem : ∀ t, t ∈ L ↔ ∃ d ∈ db0.docs, (d.mid = m ∨ ∃ r ∈ P, d.mid = normId sha1 r) ∧ d.thread = t
  wcase : w ∈ L ∨ db0.lastThread < w
  same_id : ∀ d ∈ db0.docs, d.mid = m → cur.docId = d.docId
  new_id : m ∉ db0.docs.map (·.mid) → db0.lastDoc < cur.docId

theorem addMessage_spec (sha1 : Str → Str) (db0 : Db) (file mid : Str) (refs : List Str) (h0 : WF db0)
    (hself : ∀ r ∈ refs, normId sha1 r = normId sha1 mid → r = normId sha1 mid) :
    ∃ w L cur, AddSpec sha1 db0 file (normId sha1 mid) (refs.filter (· ≠ normId sha1 mid))
      (addMessage sha1 db0 file mid refs).2 w L cur := by
  generalize hP : refs.filter (· ≠ normId sha1 mid) = P
  have hPm : ∀ r ∈ P, normId sha1 r ≠ normId sha1 mid := by
    intro r hr e
    rw [← hP, List.mem_filter] at hr
    have := hself r hr.1 e
    simp [this] at hr
  cases hf : findMid db0 (normId sha1 mid) with
  | none =>
    have hm : normId sha1 mid ∉ db0.docs.map (·.mid) := (find_none_iff _).1 hf
    unfold addMessage
    rw [hf]
    simp only [genDoc, linkParents, hP]
    have h0' : WF { db0 with lastDoc := db0.lastDoc + 1 } :=
      ⟨h0.mids, h0.ids, fun d hd => Nat.le_succ_of_le (h0.bound d hd), h0.thr⟩
    obtain ⟨db', w, L, gs, he, ht⟩ := link_new (sha1 := sha1) h0' hm
      ⟨db0.lastDoc + 1, normId sha1 mid, .mail, [], [], [file]⟩ P
    rw [he]
    simp only
    have hfresh : db0.lastDoc + 1 ∉ db'.docs.map (·.docId) := by
      rw [ht.docs, List.map_append, map_retag_docId]
      simp only [List.mem_append, not_or]
      refine ⟨fresh_doc h0.bound, ?_⟩
      rw [List.mem_map]
      rintro ⟨g, hg, e⟩
      have := (ht.gbound g hg).1
      simp at this; omega
    have hnew : normId sha1 mid ∉ db'.docs.map (·.mid) := by
      rw [ht.docs, List.map_append, map_retag_mid]
      simp only [List.mem_append, not_or]
      refine ⟨hm, ?_⟩
      rw [ht.gmem]
      rintro ⟨_, r, hr, e⟩
      exact hPm r hr e.symm
    rw [putDoc_new _ _ hfresh]
    have hwf' := ht.wf h0'
    have hwb := ht.wbound h0'
    refine ⟨w, L, ⟨db0.lastDoc + 1, normId sha1 mid, .mail, [w], addRefs [] P, [file]⟩, ?_⟩
    have hadd : addTo ([] : List Nat) w = [w] := by simp [addTo]
    rw [hadd]
    constructor
    · constructor
      · rw [List.map_append, List.nodup_append]
        refine ⟨hwf'.mids, by simp, ?_⟩
        rintro a ha b hb rfl
        simp at hb; subst hb; exact hnew ha
      · rw [List.map_append, List.nodup_append]
        refine ⟨hwf'.ids, by simp, ?_⟩
        rintro a ha b hb rfl
        simp at hb; subst hb; exact hfresh ha
      · intro d hd
        rw [List.mem_append, List.mem_singleton] at hd
        rcases hd with hd | rfl
        · exact hwf'.bound d hd
        · have := ht.dmono; simpa using this
      · intro d hd
        rw [List.mem_append, List.mem_singleton] at hd
        rcases hd with hd | rfl
        · exact hwf'.thr d hd
        · exact ⟨rfl, hwb⟩
    · intro x
      rw [ht.docs, List.map_append, List.map_append, map_retag_mid, List.mem_append, List.mem_append, ht.gmem]
      simp only [List.map_cons, List.map_nil, List.mem_singleton]
      constructor
      · rintro ((h | ⟨_, h⟩) | h)
        · exact Or.inl h
        · exact Or.inr (Or.inr h)
        · exact Or.inr (Or.inl h)
      · rintro (h | h | h)
        · exact Or.inl (Or.inl h)
        · exact Or.inr h
        · by_cases hx : x ∈ db0.docs.map (·.mid)
          · exact Or.inl (Or.inl hx)
          · exact Or.inl (Or.inr ⟨hx, h⟩)
    · intro d hd _
      rw [ht.docs]
      simp only [List.mem_append]
      exact Or.inl (Or.inl (List.mem_map_of_mem hd))
    · intro r hr hn
      have := (ht.gmem (normId sha1 r)).2 ⟨hn, r, hr, rfl⟩
      rw [List.mem_map] at this
      obtain ⟨g, hg, e⟩ := this
      refine ⟨g, ?_, e, ht.ghost g hg⟩
      rw [ht.docs]
      simp [hg]
    · simp
    · rfl
    · rfl
    · rfl
    · intro x
      simp only
      rw [mem_addRefs]
      constructor
      · rintro (h | h)
        · simp at h
        · exact Or.inr h
      · rintro (⟨d, hd, e, _⟩ | h)
        · exact absurd (e ▸ List.mem_map_of_mem hd) hm
        · exact Or.inr h
    · intro x
      simp only [List.mem_singleton]
      constructor
      · exact Or.inr
      · rintro (⟨d, hd, e, _⟩ | h)
        · exact absurd (e ▸ List.mem_map_of_mem hd) hm
        · exact h
    · exact ht.lmem
    · rcases ht.wcase with h | h
      · exact Or.inl h
      · exact Or.inr h.1
    · intro d hd e
      exact absurd (e ▸ List.mem_map_of_mem hd) hm
    · intro _; simp
  | some d =>
    obtain ⟨hd, hdm⟩ := (find_some_iff h0.mids _ _).1 hf
    unfold addMessage
    rw [hf]
    simp only [linkParents, hdm, hP]
    obtain ⟨db', L, gs, he, ht⟩ := link_old (sha1 := sha1) h0 d hd
      { d with kind := .mail, files := addTo d.files file } P
    rw [hdm] at he
    rw [he]
    simp only
    rw [hdm] at ht
    have hwf' := ht.wf h0
    have huniq : ∀ e ∈ db'.docs, e.docId = d.docId → e = retag L d.thread d := by
      intro e he1 he2
      have : retag L d.thread d ∈ db'.docs := by
        rw [ht.docs]; simp only [List.mem_append]; exact Or.inl (List.mem_map_of_mem hd)
      exact nodup_map_inj hwf'.ids he1 this (by rw [he2, retag_docId])
    have hmem : d.docId ∈ db'.docs.map (·.docId) := by
      rw [ht.docs, List.map_append, map_retag_docId, List.mem_append]
      exact Or.inl (List.mem_map_of_mem hd)
    have hdt := (h0.thr d hd).1
    generalize hcur : Doc.mk d.docId (normId sha1 mid) .mail d.threads (addRefs d.refs P) (addTo d.files file) = cur
    have hc1 : cur.docId = d.docId := by rw [← hcur]
    have hc2 : cur.mid = normId sha1 mid := by rw [← hcur]
    have hc3 : cur.threads = [d.thread] := by rw [← hcur]; exact hdt
    rw [putDoc_old _ _ (by rw [hc1]; exact hmem), hc1]
    have hmidmap : (db'.docs.map (fun e => if e.docId = d.docId then cur else e)).map (·.mid) = db'.docs.map (·.mid) := by
      rw [List.map_map]
      apply List.map_congr_left
      intro e he1
      simp only [Function.comp]
      split
      · rename_i h
        rw [huniq e he1 h, retag_mid, hc2, hdm]
      · rfl
    have hidmap : (db'.docs.map (fun e => if e.docId = d.docId then cur else e)).map (·.docId) = db'.docs.map (·.docId) := by
      rw [List.map_map]
      apply List.map_congr_left
      intro e he1
      simp only [Function.comp]
      split
      · rename_i h
        rw [h, hc1]
      · rfl
    have hdL : d.thread ∈ L := (ht.lmem _).2 ⟨d, hd, Or.inl hdm, rfl⟩
    have hone : ∀ e ∈ db0.docs, e.mid = normId sha1 mid → e = d := fun e he1 he2 =>
      nodup_map_inj h0.mids he1 hd (by rw [he2, hdm])
    have hkeep : ∀ e ∈ db'.docs, e.docId ≠ d.docId →
        e ∈ db'.docs.map (fun e => if e.docId = d.docId then cur else e) := by
      intro e he1 he2
      rw [List.mem_map]
      exact ⟨e, he1, if_neg he2⟩
    have hcurmem : cur ∈ db'.docs.map (fun e => if e.docId = d.docId then cur else e) := by
      rw [List.mem_map] at hmem ⊢
      obtain ⟨e, he1, he2⟩ := hmem
      exact ⟨e, he1, if_pos he2⟩
    refine ⟨d.thread, L, cur, ?_⟩
    constructor
    · constructor
      · simp only; rw [hmidmap]; exact hwf'.mids
      · simp only; rw [hidmap]; exact hwf'.ids
      · intro e he1
        rw [List.mem_map] at he1
        obtain ⟨e', he2, rfl⟩ := he1
        split
        · rw [hc1]; exact Nat.le_trans (h0.bound d hd) ht.dmono
        · exact hwf'.bound e' he2
      · intro e he1
        rw [List.mem_map] at he1
        obtain ⟨e', he2, rfl⟩ := he1
        split
        · have : cur.thread = d.thread := by unfold Doc.thread; rw [hc3]; rfl
          rw [this]
          exact ⟨hc3, ht.wbound h0⟩
        · exact hwf'.thr e' he2
    · intro x
      simp only
      rw [hmidmap, ht.docs, List.map_append, map_retag_mid, List.mem_append, ht.gmem]
      constructor
      · rintro (h | ⟨_, h⟩)
        · exact Or.inl h
        · exact Or.inr (Or.inr h)
      · rintro (h | rfl | h)
        · exact Or.inl h
        · exact Or.inl (hdm ▸ List.mem_map_of_mem hd)
        · by_cases hx : x ∈ db0.docs.map (·.mid)
          · exact Or.inl hx
          · exact Or.inr ⟨hx, h⟩
    · intro e he1 he2
      apply hkeep
      · rw [ht.docs]
        simp only [List.mem_append]
        exact Or.inl (List.mem_map_of_mem he1)
      · rw [retag_docId]
        intro e3
        have := nodup_map_inj h0.ids he1 hd e3
        exact he2 (by rw [this, hdm])
    · intro r hr hn
      have := (ht.gmem (normId sha1 r)).2 ⟨hn, r, hr, rfl⟩
      rw [List.mem_map] at this
      obtain ⟨g, hg, e⟩ := this
      refine ⟨g, hkeep g ?_ ?_, e, ht.ghost g hg⟩
      · rw [ht.docs]
        simp [hg]
      · have := (ht.gbound g hg).1
        have := h0.bound d hd
        omega
    · exact hcurmem
    · exact hc2
    · rw [← hcur]
    · exact hc3
    · intro x
      rw [← hcur]
      simp only
      rw [mem_addRefs]
      constructor
      · rintro (h | h)
        · exact Or.inl ⟨d, hd, hdm, h⟩
        · exact Or.inr h
      · rintro (⟨e, he1, he2, h⟩ | h)
        · rw [hone e he1 he2] at h; exact Or.inl h
        · exact Or.inr h
    · intro x
      rw [← hcur]
      simp only
      rw [mem_addTo]
      constructor
      · rintro (h | h)
        · exact Or.inl ⟨d, hd, hdm, h⟩
        · exact Or.inr h
      · rintro (⟨e, he1, he2, h⟩ | h)
        · rw [hone e he1 he2] at h; exact Or.inl h
        · exact Or.inr h
    · exact ht.lmem
    · exact Or.inl hdL
    · intro e he1 he2
      rw [hone e he1 he2, hc1]
    · intro h
      exact absurd (hdm ▸ List.mem_map_of_mem hd) h

end Notmuch.Threading
