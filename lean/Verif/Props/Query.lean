import Verif.Proofs.QueryThreads

/-!
# C25: exclusion and counting; C23: thread searches
-/

namespace Notmuch.Props
open Notmuch.Query Notmuch.QuerySpec Notmuch.DocIdSet

variable {ord : SortOrder → List Doc → List Doc}

/-- C25: with `EXCLUDE_TRUE` or `EXCLUDE_ALL` a search gives exactly the matching mails without an excluded tag,
each once, none of them flagged. -/
theorem C25_search_omitting (ho : Orders ord) (db : List Doc) (hdb : GoodDb db) (x : XQuery) (ex : List Str) (s : SortOrder)
    (o : Exclude) (hmode : o = .yes ∨ o = .all) :
    ∃ res, searchMessages ord db (build x ex o s) = some res ∧ (res.map (·.1.id)).Nodup ∧
      (∀ d b, (d, b) ∈ res ↔ d ∈ db ∧ Hit x d ∧ ¬ IsExcluded x ex d ∧ b = false) := by
  obtain ⟨f, h1, h2, _⟩ := searchMessages_spec ho hdb x ex o s
  have hf := h2 (by rcases hmode with rfl | rfl <;> simp)
  refine ⟨_, h1, ?_, fun d b => ?_⟩
  · rw [List.map_map]
    exact hits_ids ho hdb _
  · simp only [List.mem_map, Prod.mk.injEq]
    constructor
    · rintro ⟨d', hd, rfl, rfl⟩
      rw [mem_hits ho] at hd
      exact ⟨hd.1, hd.2.1, hd.2.2 hmode, hf _⟩
    · rintro ⟨h3, h4, h5, rfl⟩
      exact ⟨d, (mem_hits ho _ _ _ _ _ _).2 ⟨h3, h4, fun _ => h5⟩, rfl, hf _⟩

/-- C25: with `EXCLUDE_FLAG` a search gives exactly the matching mails, each once, and those with an excluded tag are
flagged. -/
theorem C25_search_flagging (ho : Orders ord) (db : List Doc) (hdb : GoodDb db) (x : XQuery) (ex : List Str) (s : SortOrder) :
    ∃ res, searchMessages ord db (build x ex .flag s) = some res ∧ (res.map (·.1.id)).Nodup ∧
      (∀ d b, (d, b) ∈ res ↔ d ∈ db ∧ Hit x d ∧ (b = true ↔ IsExcluded x ex d)) := by
  obtain ⟨f, h1, _, h2⟩ := searchMessages_spec ho hdb x ex .flag s
  have hf := h2 rfl
  refine ⟨_, h1, ?_, fun d b => ?_⟩
  · rw [List.map_map]
    exact hits_ids ho hdb _
  · simp only [List.mem_map, Prod.mk.injEq]
    constructor
    · rintro ⟨d', hd, rfl, rfl⟩
      have hd' := (mem_hits ho _ _ _ _ _ _).1 hd
      exact ⟨hd'.1, hd'.2.1, hf _ hd⟩
    · rintro ⟨h3, h4, h5⟩
      have hd := (mem_hits ho db x ex .flag s d).2 ⟨h3, h4, by simp⟩
      refine ⟨d, hd, rfl, ?_⟩
      have := (hf d hd).trans h5.symm
      cases hb : b <;> cases hfd : f d <;> simp_all

/-- C25: with `EXCLUDE_FALSE` a search gives exactly the matching mails, each once, none flagged. -/
theorem C25_search_not_excluding (ho : Orders ord) (db : List Doc) (hdb : GoodDb db) (x : XQuery) (ex : List Str) (s : SortOrder) :
    ∃ res, searchMessages ord db (build x ex .no s) = some res ∧ (res.map (·.1.id)).Nodup ∧
      (∀ d b, (d, b) ∈ res ↔ d ∈ db ∧ Hit x d ∧ b = false) := by
  obtain ⟨f, h1, h2, _⟩ := searchMessages_spec ho hdb x ex .no s
  have hf := h2 (by simp)
  refine ⟨_, h1, ?_, fun d b => ?_⟩
  · rw [List.map_map]
    exact hits_ids ho hdb _
  · simp only [List.mem_map, Prod.mk.injEq]
    constructor
    · rintro ⟨d', hd, rfl, rfl⟩
      rw [mem_hits ho] at hd
      exact ⟨hd.1, hd.2.1, hf _⟩
    · rintro ⟨h3, h4, rfl⟩
      exact ⟨d, (mem_hits ho _ _ _ _ _ _).2 ⟨h3, h4, by simp⟩, rfl, hf _⟩

/-- C25: results come in the order asked for. -/
theorem C25_search_sorted (ho : Orders ord) (db : List Doc) (hdb : GoodDb db) (x : XQuery) (ex : List Str) (o : Exclude) (s : SortOrder)
    (res : List (Doc × Bool)) (h : searchMessages ord db (build x ex o s) = some res) :
    (s = .oldestFirst → res.Pairwise (fun a b => a.1.date ≤ b.1.date)) ∧
    (s = .newestFirst → res.Pairwise (fun a b => a.1.date ≥ b.1.date)) := by
  obtain ⟨f, h1, _, _⟩ := searchMessages_spec ho hdb x ex o s
  rw [h] at h1
  obtain rfl := Option.some.inj h1
  rw [List.pairwise_map, List.pairwise_map]
  exact hits_sorted ho db (build x ex o s)

/-- C25: counting gives the number of messages that a search omitting excluded ones gives. -/
theorem C25_count (ho : Orders ord) (db : List Doc) (hdb : GoodDb db) (x : XQuery) (ex : List Str) (s s' : SortOrder)
    (o o' : Exclude) (hmode : o' = .yes ∨ o' = .all) :
    ∃ res, searchMessages ord db (build x ex o' s') = some res ∧ countMessages db (build x ex o s) = res.length := by
  obtain ⟨f, h1, _, _⟩ := searchMessages_spec ho hdb x ex o' s'
  refine ⟨_, h1, ?_⟩
  rw [List.length_map]
  have : (build x ex o' s').omitExcluded = o' := rfl
  unfold hits countMessages countDocuments getMset
  rw [this, if_pos hmode, (ho.perm _ _).length_eq]
  have e : ∀ a b, excludeTags (build x ex a b) = excludeTags (build x ex o s) := by
    intro a b
    unfold excludeTags
    rw [build_excludeTerms, build_excludeTerms]
  simp only
  rw [build_xapian, build_xapian, e o' s']

/-- A tag mentioned in the query is not excluded: the request is ignored. -/
theorem C25_named_tag_not_excluded (x : XQuery) (ex : List Str) (t : Str) (h : tagTerm t ∈ x.terms) :
    let q := ex.foldl (fun q t => (addTagExclude q t).2) (mkQuery x)
    addTagExclude q t = (true, q) := by
  have := (build_fold x ex (mkQuery x) rfl).2.2
  simp only
  generalize ex.foldl (fun q t => (addTagExclude q t).2) (mkQuery x) = q at *
  unfold addTagExclude
  simp only
  rw [if_pos (by rw [this]; exact h)]

/-- A mail `i` in thread `t` with some tags. -/
def qDoc (i : Nat) (t : Str) (date : Int) (tags : List Str) : Doc :=
  ⟨i, [typeTerm (bs "mail"), threadTerm t] ++ tags.map tagTerm, date, [UInt8.ofNat i], 1, some (bs "a@b"), some (bs "a"), some (bs "Re: hi")⟩

def qDb : List Doc := [qDoc 1 (bs "1") 10 [bs "spam"], qDoc 2 (bs "1") 20 [], qDoc 3 (bs "2") 30 []]

/-- Counting always leaves excluded messages out, also when searching does not. -/
theorem C25_count_counterexample :
    ∃ db x ex, countMessages db (build x ex .no .unsorted) = 2 ∧
      (searchMessages (fun _ l => l) db (build x ex .no .unsorted)).map List.length = some 3 :=
  ⟨qDb, .leaf (fun _ => true), [bs "spam"], by decide +kernel, by decide +kernel⟩

example : GoodDb qDb := by
  refine ⟨by decide +kernel, by decide +kernel, ?_⟩
  intro d hd _
  have h : d = qDoc 1 (bs "1") 10 [bs "spam"] ∨ d = qDoc 2 (bs "1") 20 [] ∨ d = qDoc 3 (bs "2") 30 [] := by
    simpa [qDb] using hd
  rcases h with rfl | rfl | rfl
  · exact ⟨bs "1", fun t' => by simp [InThread, qDoc, threadTerm, typeTerm, tagTerm]⟩
  · exact ⟨bs "1", fun t' => by simp [InThread, qDoc, threadTerm, typeTerm]⟩
  · exact ⟨bs "2", fun t' => by simp [InThread, qDoc, threadTerm, typeTerm]⟩

/-- Insertion of documents by date, for an order as Xapian might deliver it. -/
def qIns (le : Doc → Doc → Bool) (d : Doc) : List Doc → List Doc
  | [] => [d]
  | e :: l => if le d e then d :: e :: l else e :: qIns le d l
def qOrd : SortOrder → List Doc → List Doc
  | .oldestFirst, l => l.foldr (qIns (fun a b => decide (a.date ≤ b.date))) []
  | .newestFirst, l => l.foldr (qIns (fun a b => decide (a.date ≥ b.date))) []
  | _, l => l

theorem qIns_perm (le : Doc → Doc → Bool) (d : Doc) : ∀ l, (qIns le d l).Perm (d :: l)
  | [] => .refl _
  | e :: l => by
    rw [qIns]
    split
    · exact .refl _
    · exact ((qIns_perm le d l).cons e).trans (.swap _ _ _)

theorem qIns_sorted (le : Doc → Doc → Bool) (tot : ∀ a b, le a b = true ∨ le b a = true)
    (tr : ∀ a b c, le a b = true → le b c = true → le a c = true) (d : Doc) :
    ∀ l : List Doc, l.Pairwise (fun a b => le a b = true) → (qIns le d l).Pairwise (fun a b => le a b = true)
  | [], _ => by simp [qIns]
  | e :: l, h => by
    rw [List.pairwise_cons] at h
    rw [qIns]
    split
    · rename_i hde
      refine List.pairwise_cons.2 ⟨fun r hr => ?_, List.pairwise_cons.2 h⟩
      rcases List.mem_cons.1 hr with rfl | hr
      · exact hde
      · exact tr _ _ _ hde (h.1 r hr)
    · rename_i hde
      refine List.pairwise_cons.2 ⟨fun r hr => ?_, qIns_sorted le tot tr d l h.2⟩
      rw [(qIns_perm le d l).mem_iff, List.mem_cons] at hr
      rcases hr with rfl | hr
      · exact (tot e r).resolve_right hde
      · exact h.1 r hr

/-- Such orders exist. -/
theorem qOrd_orders : Orders qOrd where
  perm := by
    intro s l
    have gen : ∀ le, (l.foldr (qIns le) []).Perm l := by
      intro le
      induction l with
      | nil => exact .refl _
      | cons d l ih => exact (qIns_perm le d _).trans (ih.cons d)
    cases s
    · exact gen _
    · exact gen _
    · exact .refl _
    · exact .refl _
  oldest := by
    intro l
    have : (qOrd .oldestFirst l).Pairwise (fun a b => decide (a.date ≤ b.date) = true) := by
      induction l with
      | nil => exact .nil
      | cons d l ih =>
        exact qIns_sorted (fun a b => decide (a.date ≤ b.date)) (by intro a b; simp; omega)
          (by intro a b c; simp; omega) d _ ih
    exact this.imp (by intro a b h; simpa using h)
  newest := by
    intro l
    have : (qOrd .newestFirst l).Pairwise (fun a b => decide (a.date ≥ b.date) = true) := by
      induction l with
      | nil => exact .nil
      | cons d l ih =>
        exact qIns_sorted (fun a b => decide (a.date ≥ b.date)) (by intro a b; simp; omega)
          (by intro a b c; simp; omega) d _ ih
    exact this.imp (by intro a b h; simpa using h)

theorem kept_hits (ho : Orders ord) (db : List Doc) (x : XQuery) (ex : List Str) (o : Exclude) (s : SortOrder) (d : Doc)
    (h : d ∈ hits ord db (build x ex o s)) : kept (build x ex o s) d = true := by
  rw [mem_hits ho] at h
  unfold kept
  have hoo : (build x ex o s).omitExcluded = o := rfl
  rw [hoo]
  cases he : messageExcluded (build x ex o s) d
  · simp
  · rw [messageExcluded_iff] at he
    by_cases ha : o = .all
    · exact absurd he.2 (h.2.2 (Or.inr ha))
    · simp [ha]

/-- The threads of a search. -/
theorem searchAllThreads_eq (ho : Orders ord) (db : List Doc) (hdb : GoodDb db) (x : XQuery) (ex : List Str) (o : Exclude) (s : SortOrder) :
    searchAllThreads ord db (build x ex o s) = some ((firsts ((hits ord db (build x ex o s)).map tid)).map
      (summary ord db (build x ex o s) ((hits ord db (build x ex o s)).map (·.id)))) := by
  obtain ⟨e, h1, _, _⟩ := searchDocuments_spec ho hdb (build x ex o s)
  generalize hR : hits ord db (build x ex o s) = R at *
  have hmem : ∀ d ∈ R, d ∈ db ∧ IsMail d := by
    intro d hd
    rw [← hR, mem_hits ho] at hd
    exact ⟨hd.1, hd.2.1.1⟩
  obtain ⟨st, h2, h3⟩ := init_represents (R.map (·.id)) (by
    intro i hi
    obtain ⟨d, hd, rfl⟩ := List.mem_map.1 hi
    have := hdb.bound d (hmem d hd).1
    omega)
  unfold searchAllThreads searchThreads
  rw [h1]
  simp only [h2, Option.bind_some, List.length_map]
  rw [allThreads_spec ho hdb (build x ex o s) R hmem (fun d hd => kept_hits ho db x ex o s d (by rw [hR]; exact hd))
    (R.length + 1) R ⟨R.map (·.id), 0, st⟩ [] (by omega) (fun d hd => hd) rfl (by simp) ?_ (fun d hd _ => hd)]
  · rw [List.filter_eq_self.2 (by simp)]
  · refine ⟨h3.covers, fun i => ?_⟩
    rw [h3.iff, List.mem_map]
    simp

theorem mem_firsts {α : Type} [DecidableEq α] (a : α) : ∀ l : List α, a ∈ firsts l ↔ a ∈ l
  | [] => by simp [firsts]
  | b :: l => by
    rw [firsts, List.mem_cons, List.mem_filter, mem_firsts a l, List.mem_cons]
    by_cases h : a = b <;> simp [h]

theorem nodup_firsts {α : Type} [DecidableEq α] : ∀ l : List α, (firsts l).Nodup
  | [] => by simp [firsts]
  | b :: l => by
    rw [firsts, List.nodup_cons]
    exact ⟨by simp, (nodup_firsts l).filter _⟩

theorem summary_fields (ho : Orders ord) (db : List Doc) (hdb : GoodDb db) (x : XQuery) (ex : List Str) (o : Exclude) (s : SortOrder) (t : Str) :
    let q := build x ex o s
    let R := (hits ord db q).map (·.id)
    let ds := threadDocs ord db t
    (∀ d ∈ ds, decide (d.id ∈ R) = true → kept q d = true) ∧
    (∀ d ∈ ds, d.id ∈ R ↔ d ∈ hits ord db q) := by
  simp only
  have h2 : ∀ d ∈ threadDocs ord db t, d.id ∈ (hits ord db (build x ex o s)).map (·.id) ↔ d ∈ hits ord db (build x ex o s) := by
    intro d hd
    rw [List.mem_map]
    constructor
    · rintro ⟨e, he, hid⟩
      rw [← id_inj hdb ((mem_hits ho _ _ _ _ _ _).1 he).1 ((mem_threadDocs ho hdb _ _).1 hd).1 hid]
      exact he
    · intro h; exact ⟨d, h, rfl⟩
  refine ⟨fun d hd hp => ?_, h2⟩
  exact kept_hits ho db x ex o s d ((h2 d hd).1 (by simpa using hp))

/-- C23: iterating over the threads of a search ends; the threads come in the order of their first matching message,
each once, and are exactly those with a matching message. -/
theorem C23_threads (ho : Orders ord) (db : List Doc) (hdb : GoodDb db) (x : XQuery) (ex : List Str) (o : Exclude) (s : SortOrder) :
    ∃ ths res, searchAllThreads ord db (build x ex o s) = some ths ∧ searchMessages ord db (build x ex o s) = some res ∧
      ths.map (fun th => some th.threadId) = firsts (res.map (fun r => threadId r.1)) ∧
      (ths.map (·.threadId)).Nodup ∧
      ∀ t, t ∈ ths.map (·.threadId) ↔ ∃ r ∈ res, threadId r.1 = some t := by
  obtain ⟨f, h1, _, _⟩ := searchMessages_spec ho hdb x ex o s
  refine ⟨_, _, searchAllThreads_eq ho db hdb x ex o s, h1, ?_⟩
  have hid : ∀ t, (summary ord db (build x ex o s) ((hits ord db (build x ex o s)).map (·.id)) t).threadId = t := by
    intro t
    have := (foldl_fields _ (fun i => decide (i ∈ (hits ord db (build x ex o s)).map (·.id))) _ (summary_fields ho db hdb x ex o s t).1 (noThread t)).1
    exact this
  have hids : ((firsts ((hits ord db (build x ex o s)).map tid)).map
      (summary ord db (build x ex o s) ((hits ord db (build x ex o s)).map (·.id)))).map (·.threadId) =
      firsts ((hits ord db (build x ex o s)).map tid) := by
    rw [List.map_map]
    conv => rhs; rw [← List.map_id (firsts _)]
    apply List.map_congr_left
    intro t _
    exact hid t
  have hsome : ∀ d ∈ hits ord db (build x ex o s), threadId d = some (tid d) := by
    intro d hd
    have := (mem_hits ho _ _ _ _ _ _).1 hd
    exact (threadId_spec hdb this.1 this.2.1.1).1
  refine ⟨?_, ?_, ?_⟩
  · rw [show (fun th : Thread => some th.threadId) = some ∘ (·.threadId) from rfl, ← List.map_map, hids, List.map_map]
    have : (hits ord db (build x ex o s)).map ((fun r : Doc × Bool => threadId r.1) ∘ fun d => (d, f d)) =
        ((hits ord db (build x ex o s)).map tid).map some := by
      rw [List.map_map]
      apply List.map_congr_left
      intro d hd
      exact hsome d hd
    rw [this]
    generalize (hits ord db (build x ex o s)).map tid = l
    clear this hsome hids hid h1
    induction l with
    | nil => rfl
    | cons a l ih =>
      rw [firsts, List.map_cons, List.map_cons, firsts, ← ih, List.filter_map]
      congr 2
      apply List.filter_congr
      intro y _
      simp
  · rw [hids]; exact nodup_firsts _
  · intro t
    rw [hids, mem_firsts, List.mem_map]
    constructor
    · rintro ⟨d, hd, rfl⟩
      exact ⟨_, List.mem_map_of_mem hd, hsome d hd⟩
    · rintro ⟨r, hr, ht⟩
      obtain ⟨d, hd, rfl⟩ := List.mem_map.1 hr
      refine ⟨d, hd, ?_⟩
      rw [hsome d hd] at ht
      exact Option.some.inj ht

/-- C23: the messages of a returned thread are all mails of that thread (with `EXCLUDE_ALL`: those without an
excluded tag), oldest first, and the ones marked as matching are exactly the messages that the search for
messages gives.  So every match is in exactly one thread. -/
theorem C23_messages (ho : Orders ord) (db : List Doc) (hdb : GoodDb db) (x : XQuery) (ex : List Str) (o : Exclude) (s : SortOrder)
    (ths : List Thread) (res : List (Doc × Bool)) (h1 : searchAllThreads ord db (build x ex o s) = some ths)
    (h2 : searchMessages ord db (build x ex o s) = some res) (th : Thread) (hth : th ∈ ths) :
    (∀ d, d ∈ th.messages.map (·.doc) ↔ d ∈ db ∧ IsMail d ∧ InThread d th.threadId ∧ (o = .all → ¬ IsExcluded x ex d)) ∧
    (th.messages.map (·.doc.id)).Nodup ∧
    th.messages.Pairwise (fun a b => a.doc.date ≤ b.doc.date) ∧
    (∀ d, (∃ m ∈ th.messages, m.doc = d ∧ m.isMatch = true) ↔ (∃ b, (d, b) ∈ res) ∧ InThread d th.threadId) := by
  obtain ⟨f, h3, _, _⟩ := searchMessages_spec ho hdb x ex o s
  rw [h2] at h3
  obtain rfl := Option.some.inj h3
  rw [searchAllThreads_eq ho db hdb] at h1
  obtain rfl := Option.some.inj h1
  obtain ⟨t, _, rfl⟩ := List.mem_map.1 hth
  obtain ⟨hk, hR⟩ := summary_fields ho db hdb x ex o s t
  obtain ⟨f1, f2, _⟩ := foldl_fields _ (fun i => decide (i ∈ (hits ord db (build x ex o s)).map (·.id))) _ hk (noThread t)
  have f1' : (summary ord db (build x ex o s) ((hits ord db (build x ex o s)).map (·.id)) t).threadId = t := f1
  have f2' : (summary ord db (build x ex o s) ((hits ord db (build x ex o s)).map (·.id)) t).messages = _ := f2
  rw [f1', f2']
  have hnil : (noThread t).messages = [] := rfl
  rw [hnil, List.nil_append]
  have hkept : ∀ d, kept (build x ex o s) d = true ↔ (o = .all → ¬ IsExcluded x ex d) := by
    intro d
    unfold kept
    have hoo : (build x ex o s).omitExcluded = o := rfl
    rw [hoo, Bool.not_eq_true', ← Bool.not_eq_true, Bool.and_eq_true, messageExcluded_iff, decide_eq_true_eq]
    constructor
    · intro h ha hx; exact h ⟨⟨by rw [ha]; simp, hx⟩, ha⟩
    · rintro h ⟨⟨_, hx⟩, ha⟩; exact h ha hx
  have hthread : ∀ d, d ∈ threadDocs ord db t ↔ d ∈ db ∧ IsMail d ∧ InThread d t := by
    intro d
    rw [mem_threadDocs ho hdb]
    constructor
    · rintro ⟨a, b, c⟩; exact ⟨a, b, ((threadId_spec hdb a b).2 t).2 c.symm⟩
    · rintro ⟨a, b, c⟩; exact ⟨a, b, (((threadId_spec hdb a b).2 t).1 c).symm⟩
  refine ⟨?_, ?_, ?_, ?_⟩
  · intro d
    rw [List.map_map, show (fun m : TMsg => m.doc) ∘ (fun d => (⟨d, messageExcluded (build x ex o s) d, decide (d.id ∈ (hits ord db (build x ex o s)).map (·.id)), docAuthor d⟩ : TMsg)) = id from rfl,
      List.map_id, List.mem_filter, hthread, hkept]
    constructor
    · rintro ⟨⟨a, b, c⟩, e⟩; exact ⟨a, b, c, e⟩
    · rintro ⟨a, b, c, e⟩; exact ⟨⟨a, b, c⟩, e⟩
  · rw [List.map_map]
    exact (threadDocs_ids ho hdb t).sublist (List.filter_sublist.map _)
  · rw [List.pairwise_map]
    exact ((hits_sorted ho db _).1 rfl).sublist List.filter_sublist
  · intro d
    constructor
    · rintro ⟨m, hm, rfl, hmt⟩
      obtain ⟨d, hd, rfl⟩ := List.mem_map.1 hm
      rw [List.mem_filter] at hd
      simp only [decide_eq_true_eq] at hmt
      exact ⟨⟨_, List.mem_map_of_mem ((hR d hd.1).1 hmt)⟩, ((hthread d).1 hd.1).2.2⟩
    · rintro ⟨⟨b, hb⟩, ht⟩
      obtain ⟨d', hd, he⟩ := List.mem_map.1 hb
      simp only [Prod.mk.injEq] at he
      obtain ⟨rfl, _⟩ := he
      have hd' := (mem_hits ho _ _ _ _ _ _).1 hd
      have hin : d' ∈ threadDocs ord db t := (hthread d').2 ⟨hd'.1, hd'.2.1.1, ht⟩
      refine ⟨_, List.mem_map_of_mem (List.mem_filter.2 ⟨hin, kept_hits ho db x ex o s d' hd⟩), rfl, ?_⟩
      simp only [decide_eq_true_eq]
      exact (hR d' hin).2 hd

/-- C25: counting threads gives the number of threads of the search. -/
theorem C25_count_threads (ho : Orders ord) (db : List Doc) (hdb : GoodDb db) (x : XQuery) (ex : List Str) (o : Exclude) (s s' : SortOrder) :
    ∃ ths, searchAllThreads ord db (build x ex o s) = some ths ∧ countThreads ord db (build x ex o s') = some ths.length := by
  refine ⟨_, searchAllThreads_eq ho db hdb x ex o s, ?_⟩
  obtain ⟨f, h1, _, _⟩ := searchMessages_spec ho hdb x ex o .unsorted
  have hb : { build x ex o s' with sort := .unsorted } = build x ex o .unsorted := rfl
  unfold countThreads
  rw [hb, h1]
  simp only
  have hsome : ∀ d ∈ hits ord db (build x ex o .unsorted), threadId d = some (tid d) := by
    intro d hd
    have := (mem_hits ho _ _ _ _ _ _).1 hd
    exact (threadId_spec hdb this.1 this.2.1.1).1
  have hash : ∀ (l : List Doc) (h : List Str), (∀ d ∈ l, threadId d = some (tid d)) → h.Nodup →
      ∃ h', hashThreads (l.map (fun d => (d, f d))) h = some h' ∧ h'.Nodup ∧ ∀ t, t ∈ h' ↔ t ∈ h ∨ t ∈ l.map tid := by
    intro l
    induction l with
    | nil => intro h _ hn; exact ⟨h, rfl, hn, by simp⟩
    | cons d l ih =>
      intro h hs hn
      rw [List.map_cons, hashThreads, hs d (by simp)]
      simp only
      obtain ⟨h', e1, e2, e3⟩ := ih (if tid d ∈ h then h else h ++ [tid d]) (fun e he => hs e (by simp [he])) (by
        split
        · exact hn
        · rename_i hni
          rw [List.nodup_append]
          refine ⟨hn, by simp, ?_⟩
          rintro a ha b hb rfl
          have : a = tid d := by simpa using hb
          exact hni (this ▸ ha))
      refine ⟨h', e1, e2, fun t => ?_⟩
      rw [e3]
      split
      · rename_i hin
        constructor
        · rintro (h | h)
          · exact Or.inl h
          · exact Or.inr (by simp at h ⊢; exact Or.inr h)
        · rintro (h | h)
          · exact Or.inl h
          · rw [List.map_cons, List.mem_cons] at h
            rcases h with rfl | h
            · exact Or.inl hin
            · exact Or.inr h
      · simp [or_assoc]
  obtain ⟨h', e1, e2, e3⟩ := hash _ [] hsome (by simp)
  rw [e1, Option.map_some, List.length_map]
  congr 1
  have hp : h'.Perm (firsts ((hits ord db (build x ex o s)).map tid)) := by
    rw [List.perm_ext_iff_of_nodup e2 (nodup_firsts _)]
    intro t
    rw [e3, mem_firsts]
    simp only [List.not_mem_nil, false_or, List.mem_map]
    constructor
    · rintro ⟨d, hd, rfl⟩
      exact ⟨d, (mem_hits ho _ _ _ _ _ _).2 ((mem_hits ho _ _ _ _ _ _).1 hd), rfl⟩
    · rintro ⟨d, hd, rfl⟩
      exact ⟨d, (mem_hits ho _ _ _ _ _ _).2 ((mem_hits ho _ _ _ _ _ _).1 hd), rfl⟩
  exact hp.length_eq

example : ((searchAllThreads qOrd qDb (build (.leaf (fun _ => true)) [bs "spam"] .yes .newestFirst)).map
    (fun ths => ths.map (fun th => (th.threadId, th.messages.map (fun m => (m.doc.id, m.isMatch)))))) =
    some [(bs "2", [(3, true)]), (bs "1", [(1, false), (2, true)])] := by decide +kernel

end Notmuch.Props
