import Verif.Proofs.ThreadRemove

namespace Notmuch.Threading
open Notmuch.ThreadSpec

theorem present_append {sha1 : Str → Str} {hist : List Op} {o : Op} {f a : Str} :
    Present sha1 (hist ++ [o]) f a ↔
      (∃ mid refs, o = .add f mid refs ∧ a = normId sha1 mid) ∨ (o ≠ .remove f ∧ Present sha1 hist f a) := by
  constructor
  · rintro ⟨pre, mid, refs, post, he, hn, ha⟩
    rcases List.eq_nil_or_concat post with rfl | ⟨post', o', rfl⟩
    · have := List.append_inj' he (by simp)
      exact Or.inl ⟨mid, refs, by simpa using this.2, ha⟩
    · right
      have h2 : hist ++ [o] = (pre ++ Op.add f mid refs :: post') ++ [o'] := by rw [he]; simp
      obtain ⟨h3, h4⟩ := List.append_inj' h2 rfl
      have h5 : o = o' := by simpa using h4
      subst h5
      refine ⟨?_, pre, mid, refs, post', h3, ?_, ha⟩
      · rintro rfl; exact hn (by simp)
      · intro hc; exact hn (by simp [hc])
  · rintro (⟨mid, refs, rfl, ha⟩ | ⟨ho, pre, mid, refs, post, rfl, hn, ha⟩)
    · exact ⟨hist, mid, refs, [], rfl, by simp, ha⟩
    · exact ⟨pre, mid, refs, post ++ [o], by simp, by simp [hn, Ne.symm ho], ha⟩

theorem present_mem {sha1 : Str → Str} {hist : List Op} {f a : Str} (h : Present sha1 hist f a) :
    ∃ mid refs, Op.add f mid refs ∈ hist ∧ a = normId sha1 mid := by
  obtain ⟨pre, mid, refs, post, rfl, _, ha⟩ := h
  exact ⟨mid, refs, by simp, ha⟩

def FilesInv (sha1 : Str → Str) (hist : List Op) (db : Db) : Prop :=
  ∀ f a, (∃ d ∈ db.docs, d.mid = a ∧ f ∈ d.files) ↔ Present sha1 hist f a

theorem files_add {sha1 : Str → Str} {hist : List Op} {db0 : Db} (h : Inv2 sha1 hist db0)
    (hf : FilesInv sha1 hist db0) (file mid : Str) (refs : List Str)
    (hself : ∀ r ∈ refs, normId sha1 r = normId sha1 mid → r = normId sha1 mid)
    (hst : StableIds sha1 (hist ++ [.add file mid refs])) :
    FilesInv sha1 (hist ++ [.add file mid refs]) (addMessage sha1 db0 file mid refs).2 := by
  obtain ⟨w, L, cur, ha⟩ := addMessage_spec sha1 db0 file mid refs h.wf hself
  generalize (addMessage sha1 db0 file mid refs).2 = db at ha
  intro f a
  rw [present_append]
  constructor
  · rintro ⟨d, hd, rfl, hfd⟩
    rcases ha.cases h.wf hd with ⟨hm, rfl⟩ | ⟨hm, d0, hd0, rfl⟩ | ⟨hm, hn, _, hg⟩
    · rw [ha.cur_files] at hfd
      rcases hfd with ⟨d0, hd0, hm0, hf0⟩ | rfl
      · exact Or.inr ⟨by simp, (hf f _).1 ⟨d0, hd0, by rw [hm0, hm], hf0⟩⟩
      · exact Or.inl ⟨mid, refs, rfl, hm⟩
    · rw [retag_files] at hfd
      rw [retag_mid]
      exact Or.inr ⟨by simp, (hf f _).1 ⟨d0, hd0, rfl, hfd⟩⟩
    · rw [hg.2.2.2] at hfd; simp at hfd
  · rintro (⟨mid', refs', ho, rfl⟩ | ⟨_, hp⟩)
    · cases ho
      exact ⟨cur, ha.cur_mem, ha.cur_mid, (ha.cur_files _).2 (Or.inr rfl)⟩
    · obtain ⟨d, hd, rfl, hfd⟩ := (hf f a).2 hp
      by_cases hm : d.mid = normId sha1 mid
      · exact ⟨cur, ha.cur_mem, by rw [ha.cur_mid, hm], (ha.cur_files _).2 (Or.inl ⟨d, hd, hm, hfd⟩)⟩
      · exact ⟨_, ha.old d hd hm, retag_mid _ _ _, by rw [retag_files]; exact hfd⟩

theorem files_remove {sha1 : Str → Str} {hist : List Op} {db : Db} (h : Inv2 sha1 hist db)
    (hf : FilesInv sha1 hist db) (file : Str) (hst : StableIds sha1 hist) :
    FilesInv sha1 (hist ++ [.remove file]) (removeMessage sha1 db file).2 := by
  have huniq : ∀ d ∈ db.docs, ∀ e ∈ db.docs, file ∈ d.files → file ∈ e.files → e = d := by
    intro d hd e he h1 h2
    obtain ⟨i, rs, ho, e1⟩ := present_mem ((hf file d.mid).1 ⟨d, hd, rfl, h1⟩)
    obtain ⟨i', rs', ho', e2⟩ := present_mem ((hf file e.mid).1 ⟨e, he, rfl, h2⟩)
    exact nodup_map_inj h.wf.mids he hd (by rw [e1, e2]; exact hst file i' rs' i rs ho' ho)
  have hP : ∀ f a, Present sha1 (hist ++ [.remove file]) f a ↔ file ≠ f ∧ Present sha1 hist f a := by
    intro f a
    rw [present_append]
    simp
  have hr := removeMessage_spec h file
  generalize (removeMessage sha1 db file).1 = st at hr
  generalize (removeMessage sha1 db file).2 = db' at hr
  intro f a
  rw [hP, ← hf f a]
  cases hr with
  | absent hab =>
    constructor
    · rintro ⟨d, hd, rfl, hfd⟩
      exact ⟨fun e => hab d hd (e ▸ hfd), d, hd, rfl, hfd⟩
    · exact fun hh => hh.2
  | other d _ hd hfd hl hne hdocs h1 h2 =>
    constructor
    · rintro ⟨e', he', rfl, hfe⟩
      rw [hdocs, List.mem_map] at he'
      obtain ⟨e, he, rfl⟩ := he'
      split at hfe
      · rename_i hc
        have := nodup_map_inj h.wf.ids he hd hc
        subst this
        rw [List.mem_filter] at hfe
        rw [if_pos rfl]
        exact ⟨fun hh => by simp [hh] at hfe, e, he, rfl, hfe.1⟩
      · rename_i hc
        rw [if_neg hc]
        refine ⟨?_, e, he, rfl, hfe⟩
        rintro rfl
        exact hc (by rw [huniq d hd e he hfd hfe])
    · rintro ⟨hne', e, he, rfl, hfe⟩
      by_cases hc : e.docId = d.docId
      · have := nodup_map_inj h.wf.ids he hd hc
        subst this
        refine ⟨{ e with files := e.files.filter (· ≠ file) }, ?_, rfl, ?_⟩
        · rw [hdocs]; exact List.mem_map.2 ⟨e, he, if_pos rfl⟩
        · simp [hfe, Ne.symm hne']
      · exact ⟨e, by rw [hdocs]; exact List.mem_map.2 ⟨e, he, if_neg hc⟩, rfl, hfe⟩
  | ghosted d _ hd hfd hl hnil hi hdocs h1 h2 =>
    have hall : ∀ x ∈ d.files, x = file := by
      intro x hx
      rw [List.filter_eq_nil_iff] at hnil
      simpa using hnil x hx
    constructor
    · rintro ⟨e, he, rfl, hfe⟩
      rw [hdocs, List.mem_append, List.mem_filter, List.mem_singleton] at he
      rcases he with ⟨he, hc⟩ | rfl
      · refine ⟨?_, e, he, rfl, hfe⟩
        rintro rfl
        have := huniq d hd e he hfd hfe
        subst this
        simp at hc
      · simp at hfe
    · rintro ⟨hne', e, he, rfl, hfe⟩
      refine ⟨e, ?_, rfl, hfe⟩
      rw [hdocs, List.mem_append, List.mem_filter]
      refine Or.inl ⟨he, ?_⟩
      simp only [ne_eq, decide_not, Bool.not_eq_true', decide_eq_false_iff_not]
      intro hc
      have := nodup_map_inj h.wf.ids he hd hc
      subst this
      exact hne' (hall f hfe).symm
  | gone d _ hd hfd hl hnil hi hdocs h1 h2 =>
    have hall : ∀ x ∈ d.files, x = file := by
      intro x hx
      rw [List.filter_eq_nil_iff] at hnil
      simpa using hnil x hx
    constructor
    · rintro ⟨e, he, rfl, hfe⟩
      rw [hdocs, List.mem_filter] at he
      refine ⟨?_, e, he.1, rfl, hfe⟩
      rintro rfl
      have := huniq d hd e he.1 hfd hfe
      subst this
      simp at he
    · rintro ⟨hne', e, he, rfl, hfe⟩
      refine ⟨e, ?_, rfl, hfe⟩
      rw [hdocs, List.mem_filter]
      refine ⟨he, ?_⟩
      simp only [ne_eq, decide_not, Bool.not_eq_true', decide_eq_false_iff_not]
      intro hc
      have hmail : e.kind = .mail := by
        cases hk : e.kind with
        | mail => rfl
        | ghost => have := (h.ghost e he hk).2.1; rw [this] at hfe; simp at hfe
      have := hi e he hmail hc
      subst this
      exact hne' (hall f hfe).symm

theorem files_run {sha1 : Str → Str} (hs : Sha sha1) (ops : List Op) (hself : NoLongSelf sha1 ops)
    (hst : StableIds sha1 ops) : FilesInv sha1 ops (run sha1 ops) := by
  have gen : ∀ (l hist : List Op) (db : Db), Inv2 sha1 hist db → FilesInv sha1 hist db → NoLongSelf sha1 l →
      StableIds sha1 (hist ++ l) → FilesInv sha1 (hist ++ l) (l.foldl (step sha1) db) := by
    intro l
    induction l with
    | nil => intro hist db _ h _ _; simpa using h
    | cons o l ih =>
      intro hist db h hf hn hst
      have hst1 : StableIds sha1 (hist ++ [o]) := by
        intro f i rs i' rs' h1 h2
        apply hst f i rs i' rs'
        · rw [List.mem_append, List.mem_singleton] at h1
          rw [List.mem_append, List.mem_cons]
          rcases h1 with h1 | h1
          · exact Or.inl h1
          · exact Or.inr (Or.inl h1)
        · rw [List.mem_append, List.mem_singleton] at h2
          rw [List.mem_append, List.mem_cons]
          rcases h2 with h2 | h2
          · exact Or.inl h2
          · exact Or.inr (Or.inl h2)
      have h1 : Inv2 sha1 (hist ++ [o]) (step sha1 db o) ∧ FilesInv sha1 (hist ++ [o]) (step sha1 db o) := by
        cases o with
        | add f i rs => exact ⟨inv2_add hs h f i rs (hn f i rs (by simp)), files_add h hf f i rs (hn f i rs (by simp)) hst1⟩
        | remove f => exact ⟨inv2_remove h f, files_remove h hf f (fun a b c d e h1 h2 => hst1 a b c d e (by simp [h1]) (by simp [h2]))⟩
      have h2 := ih (hist ++ [o]) _ h1.1 h1.2 (fun f i rs ho => hn f i rs (by simp [ho])) (by simpa using hst)
      simpa using h2
  have h0 : FilesInv sha1 [] empty := by
    intro f a
    constructor
    · rintro ⟨d, hd, _⟩; simp [empty] at hd
    · intro h; obtain ⟨_, _, h, _⟩ := present_mem h; simp at h
  simpa [run] using gen ops [] empty (inv2_empty sha1) h0 hself (by simpa using hst)

end Notmuch.Threading
