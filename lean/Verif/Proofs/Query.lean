import Verif.Spec.Query
import Verif.Proofs.DocIdSet

/-! # Proofs about searching and counting -/

namespace Notmuch.Query
open Notmuch.QuerySpec Notmuch.DocIdSet

theorem build_fold (x : XQuery) : ∀ (ex : List Str) (q : Query), q.terms = x.terms →
    (ex.foldl (fun q t => (addTagExclude q t).2) q).excludeTerms =
        q.excludeTerms ++ (ex.filter (fun t => tagTerm t ∉ x.terms)).map tagTerm ∧
    (ex.foldl (fun q t => (addTagExclude q t).2) q).xapian = q.xapian ∧
    (ex.foldl (fun q t => (addTagExclude q t).2) q).terms = x.terms
  | [], q, h => by simp [h]
  | t :: ex, q, h => by
    rw [List.foldl_cons]
    by_cases ht : tagTerm t ∈ x.terms
    · have : (addTagExclude q t).2 = q := by simp [addTagExclude, h, ht]
      rw [this]
      obtain ⟨h1, h2, h3⟩ := build_fold x ex q h
      exact ⟨by rw [h1]; simp [ht], h2, h3⟩
    · have : (addTagExclude q t).2 = { q with excludeTerms := q.excludeTerms ++ [tagTerm t] } := by
        simp [addTagExclude, h, ht]
      rw [this]
      obtain ⟨h1, h2, h3⟩ := build_fold x ex { q with excludeTerms := q.excludeTerms ++ [tagTerm t] } h
      exact ⟨by rw [h1]; simp [ht], h2, h3⟩

theorem build_excludeTerms (x : XQuery) (ex : List Str) (o : Exclude) (s : SortOrder) :
    (build x ex o s).excludeTerms = (ex.filter (fun t => tagTerm t ∉ x.terms)).map tagTerm := by
  have := (build_fold x ex (mkQuery x) rfl).1
  simpa [build, mkQuery] using this

theorem build_xapian (x : XQuery) (ex : List Str) (o : Exclude) (s : SortOrder) :
    (build x ex o s).xapian = x := (build_fold x ex (mkQuery x) rfl).2.1

theorem foldl_or (d : Doc) : ∀ (l : List Str) (e : XQuery),
    (l.foldl (fun e t => XQuery.or e (.term t)) e).eval d = (e.eval d || l.any (fun t => decide (t ∈ d.terms)))
  | [], e => by simp
  | t :: l, e => by
    rw [List.foldl_cons, foldl_or d l]
    simp [XQuery.eval, Bool.or_assoc]

theorem excludeTags_eval (x : XQuery) (ex : List Str) (o : Exclude) (s : SortOrder) (d : Doc) :
    (excludeTags (build x ex o s)).eval d = true ↔ IsExcluded x ex d := by
  unfold excludeTags
  rw [foldl_or, build_excludeTerms]
  simp only [XQuery.eval, Bool.false_or, List.any_eq_true, List.mem_map, List.mem_filter, decide_eq_true_eq]
  constructor
  · rintro ⟨_, ⟨t, ⟨h1, h2⟩, rfl⟩, h3⟩
    exact ⟨t, h1, by simpa using h2, h3⟩
  · rintro ⟨t, h1, h2, h3⟩
    exact ⟨_, ⟨t, ⟨h1, by simpa using h2⟩, rfl⟩, h3⟩

theorem mem_getMset {ord : SortOrder → List Doc → List Doc} (ho : Orders ord) (db : List Doc) (x : XQuery) (s : SortOrder) (d : Doc) :
    d ∈ getMset ord db x s ↔ d ∈ db ∧ x.eval d = true := by
  unfold getMset
  rw [(ho.perm _ _).mem_iff, List.mem_filter]

theorem getMset_ids {ord : SortOrder → List Doc → List Doc} (ho : Orders ord) {db : List Doc} (hdb : GoodDb db) (x : XQuery) (s : SortOrder) :
    ((getMset ord db x s).map (·.id)).Nodup := by
  unfold getMset
  rw [((ho.perm _ _).map _).nodup_iff]
  exact hdb.ids.sublist (List.filter_sublist.map _)

theorem eval_hit (x : XQuery) (d : Doc) : (XQuery.and (.term (typeTerm (bs "mail"))) x).eval d = true ↔ Hit x d := by
  simp [XQuery.eval, Hit, IsMail]

theorem getMessages_none (docs : List Doc) : ∀ (l : List Doc), getMessages ⟨docs, none⟩ l = some (l.map (fun d => (d, false)))
  | [] => rfl
  | d :: l => by rw [getMessages, getMessages_none docs l]; rfl

theorem getMessages_some (docs : List Doc) (s : DocIdSet) (p : Nat → Prop) [DecidablePred p] (hs : Represents s p) :
    ∀ (l : List Doc), getMessages ⟨docs, some s⟩ l = some (l.map (fun d => (d, decide (p d.id))))
  | [] => rfl
  | d :: l => by
    obtain ⟨b, hb, hb'⟩ := contains_represents hs d.id
    rw [getMessages, getMessages_some docs s p hs l]
    simp only [hb, List.map_cons]
    have : b = decide (p d.id) := by
      cases b
      · simp at hb'; simp [hb']
      · simp at hb'; simp [hb']
    rw [this]

/-- The documents of a search. -/
def hits (ord : SortOrder → List Doc → List Doc) (db : List Doc) (q : Query) : List Doc :=
  if q.omitExcluded = .yes ∨ q.omitExcluded = .all then
    getMset ord db (.andNot (.and (.term (typeTerm (bs "mail"))) q.xapian) (excludeTags q)) q.sort
  else getMset ord db (.and (.term (typeTerm (bs "mail"))) q.xapian) q.sort

theorem searchDocuments_spec {ord : SortOrder → List Doc → List Doc} (ho : Orders ord) {db : List Doc} (hdb : GoodDb db) (q : Query) :
    ∃ e, searchDocuments ord db q (bs "mail") = some ⟨hits ord db q, e⟩ ∧
      (q.omitExcluded ≠ .flag → e = none) ∧
      (q.omitExcluded = .flag → ∃ s, e = some s ∧ Represents s (fun i => ∃ d ∈ db, d.id = i ∧ Hit q.xapian d ∧ (excludeTags q).eval d = true)) := by
  unfold searchDocuments hits
  simp only
  cases hq : q.omitExcluded with
  | no => exact ⟨none, by simp, by simp, by simp⟩
  | yes => exact ⟨none, by simp, by simp, by simp⟩
  | all => exact ⟨none, by simp, by simp, by simp⟩
  | flag =>
    obtain ⟨s, h1, h2⟩ := init_represents ((getMset ord db (.and (excludeTags q) (.and (.term (typeTerm (bs "mail"))) q.xapian)) .unsorted).map (·.id)) (by
      intro i hi
      obtain ⟨d, hd, rfl⟩ := List.mem_map.1 hi
      rw [mem_getMset ho] at hd
      have := hdb.bound d hd.1
      omega)
    simp only [h1]
    refine ⟨some s, by simp, by simp, fun _ => ⟨s, rfl, h2.covers, fun i => ?_⟩⟩
    rw [h2.iff, List.mem_map]
    constructor
    · rintro ⟨d, hd, rfl⟩
      rw [mem_getMset ho] at hd
      have he := hd.2
      simp only [XQuery.eval, Bool.and_eq_true] at he
      exact ⟨d, hd.1, rfl, ⟨by simpa [IsMail] using he.2.1, he.2.2⟩, he.1⟩
    · rintro ⟨d, hd, rfl, ⟨hh1, hh2⟩, he⟩
      refine ⟨d, (mem_getMset ho _ _ _ _).2 ⟨hd, ?_⟩, rfl⟩
      simp only [XQuery.eval, Bool.and_eq_true]
      exact ⟨he, by simpa [IsMail] using hh1, hh2⟩

theorem mem_hits {ord : SortOrder → List Doc → List Doc} (ho : Orders ord) (db : List Doc) (x : XQuery) (ex : List Str) (o : Exclude)
    (s : SortOrder) (d : Doc) :
    d ∈ hits ord db (build x ex o s) ↔ d ∈ db ∧ Hit x d ∧ (o = .yes ∨ o = .all → ¬ IsExcluded x ex d) := by
  unfold hits
  have ho' : (build x ex o s).omitExcluded = o := rfl
  rw [ho', build_xapian]
  split
  · rename_i h
    rw [mem_getMset ho]
    rw [show (XQuery.andNot (.and (.term (typeTerm (bs "mail"))) x) (excludeTags (build x ex o s))).eval d =
      ((XQuery.and (.term (typeTerm (bs "mail"))) x).eval d && !(excludeTags (build x ex o s)).eval d) from rfl]
    rw [Bool.and_eq_true, eval_hit, Bool.not_eq_true', ← Bool.not_eq_true, excludeTags_eval]
    simp [h]
  · rename_i h
    rw [mem_getMset ho, eval_hit]
    simp [h]

theorem hits_ids {ord : SortOrder → List Doc → List Doc} (ho : Orders ord) {db : List Doc} (hdb : GoodDb db) (q : Query) :
    ((hits ord db q).map (·.id)).Nodup := by
  unfold hits
  split <;> exact getMset_ids ho hdb _ _

theorem hits_sorted {ord : SortOrder → List Doc → List Doc} (ho : Orders ord) (db : List Doc) (q : Query) :
    (q.sort = .oldestFirst → (hits ord db q).Pairwise (fun a b => a.date ≤ b.date)) ∧
    (q.sort = .newestFirst → (hits ord db q).Pairwise (fun a b => a.date ≥ b.date)) := by
  unfold hits getMset
  constructor
  · intro h; rw [h]; split <;> exact ho.oldest _
  · intro h; rw [h]; split <;> exact ho.newest _

theorem id_inj {db : List Doc} (h : GoodDb db) {a b : Doc} (ha : a ∈ db) (hb : b ∈ db) (e : a.id = b.id) : a = b := by
  have := h.ids
  clear h
  induction db with
  | nil => simp at ha
  | cons x l ih =>
    rw [List.map_cons, List.nodup_cons] at this
    rcases List.mem_cons.1 ha with ha' | ha' <;> rcases List.mem_cons.1 hb with hb' | hb'
    · rw [ha', hb']
    · exact absurd (by rw [← ha', e]; exact List.mem_map_of_mem hb') this.1
    · exact absurd (by rw [← hb', ← e]; exact List.mem_map_of_mem ha') this.1
    · exact ih ha' hb' this.2

theorem searchMessages_spec {ord : SortOrder → List Doc → List Doc} (ho : Orders ord) {db : List Doc} (hdb : GoodDb db)
    (x : XQuery) (ex : List Str) (o : Exclude) (s : SortOrder) :
    ∃ f : Doc → Bool, searchMessages ord db (build x ex o s) = some ((hits ord db (build x ex o s)).map (fun d => (d, f d))) ∧
      (o ≠ .flag → ∀ d, f d = false) ∧
      (o = .flag → ∀ d ∈ hits ord db (build x ex o s), (f d = true ↔ IsExcluded x ex d)) := by
  obtain ⟨e, h1, h2, h3⟩ := searchDocuments_spec ho hdb (build x ex o s)
  unfold searchMessages
  rw [h1]
  have hoo : (build x ex o s).omitExcluded = o := rfl
  rw [hoo] at h2 h3
  by_cases hf : o = .flag
  · obtain ⟨st, rfl, hr⟩ := h3 hf
    classical
    refine ⟨_, getMessages_some _ _ _ hr _, fun h => absurd hf h, fun _ d hd => ?_⟩
    have hd' := (mem_hits ho db x ex o s d).1 hd
    simp only [decide_eq_true_eq]
    rw [build_xapian]
    constructor
    · rintro ⟨d', hd1, hd2, _, hd4⟩
      rw [id_inj hdb hd1 hd'.1 hd2] at hd4
      exact (excludeTags_eval _ _ _ _ _).1 hd4
    · intro he
      exact ⟨d, hd'.1, rfl, hd'.2.1, (excludeTags_eval _ _ _ _ _).2 he⟩
  · rw [h2 hf]
    exact ⟨fun _ => false, getMessages_none _ _, fun _ _ => rfl, fun h => absurd h hf⟩

end Notmuch.Query
