import Verif.Props.Query
import Mathlib.Tactic.Tauto

/-!
# C34: what a thread says about itself: counts, dates, tags, authors, subject
-/

namespace Notmuch.QuerySpec

/-- A subject without a leading "Re: ", "Aw: ", "Vs: " or "Sv: ", in capitals or not. -/
def WithoutRe (subject cleaned : Str) : Prop :=
  (∃ a b, subject = [a, b, 58, 32] ++ cleaned ∧
    ([toLower a, toLower b] = bs "re" ∨ [toLower a, toLower b] = bs "aw" ∨ [toLower a, toLower b] = bs "vs" ∨ [toLower a, toLower b] = bs "sv")) ∨
  (cleaned = subject ∧ ∀ a b rest, subject = [a, b, 58, 32] ++ rest →
    [toLower a, toLower b] ≠ bs "re" ∧ [toLower a, toLower b] ≠ bs "aw" ∧ [toLower a, toLower b] ≠ bs "vs" ∧ [toLower a, toLower b] ≠ bs "sv")

/-- Authors separated by commas. -/
def commas : List Str → Str
  | [] => []
  | [a] => a
  | a :: b :: l => a ++ bs ", " ++ commas (b :: l)

end Notmuch.QuerySpec

namespace Notmuch.Props
open Notmuch.Query Notmuch.QuerySpec Notmuch.DocIdSet

variable {ord : SortOrder → List Doc → List Doc}

/-- Everything about one of the threads of a search. -/
theorem thread_of_search (ho : Orders ord) (db : List Doc) (hdb : GoodDb db) (x : XQuery) (ex : List Str) (o : Exclude) (s : SortOrder)
    (ths : List Thread) (h : searchAllThreads ord db (build x ex o s) = some ths) (th : Thread) (hth : th ∈ ths) :
    ∃ (p : Nat → Bool) (ds : List Doc) (t : Str), th = ds.foldl (stepThread (build x ex o s) p) (noThread t) ∧
      (∀ d ∈ ds, p d.id = true → kept (build x ex o s) d = true) ∧ (∃ d ∈ ds, p d.id = true) ∧
      (∀ d ∈ ds, p d.id = true → o ≠ .flag → messageExcluded (build x ex o s) d = false) ∧
      ds.Pairwise (fun a b => a.date ≤ b.date) ∧ (ds.map (·.id)).Nodup := by
  rw [searchAllThreads_eq ho db hdb] at h
  obtain rfl := Option.some.inj h
  obtain ⟨t, ht, rfl⟩ := List.mem_map.1 hth
  obtain ⟨hk, hR⟩ := summary_fields ho db hdb x ex o s t
  refine ⟨fun i => decide (i ∈ (hits ord db (build x ex o s)).map (·.id)), threadDocs ord db t, t, rfl, hk, ?_, ?_, (hits_sorted ho db _).1 rfl, threadDocs_ids ho hdb t⟩
  · rw [mem_firsts, List.mem_map] at ht
    obtain ⟨d, hd, rfl⟩ := ht
    have hd' := (mem_hits ho _ _ _ _ _ _).1 hd
    exact ⟨d, (mem_threadDocs ho hdb _ _).2 ⟨hd'.1, hd'.2.1.1, rfl⟩, by simp; exact ⟨d, hd, rfl⟩⟩
  · intro d hd hp hof
    have hd' := (mem_hits ho _ _ _ _ _ _).1 ((hR d hd).1 (by simpa using hp))
    rw [← Bool.not_eq_true, messageExcluded_iff]
    rintro ⟨h1, h2⟩
    refine hd'.2.2 ?_ h2
    cases o <;> simp_all

/-- C34: the numbers of messages, files and matches.  Matches flagged as excluded are not counted. -/
theorem C34_counts (ho : Orders ord) (db : List Doc) (hdb : GoodDb db) (x : XQuery) (ex : List Str) (o : Exclude) (s : SortOrder)
    (ths : List Thread) (h : searchAllThreads ord db (build x ex o s) = some ths) (th : Thread) (hth : th ∈ ths) :
    th.totalMessages = th.messages.length ∧
    th.totalFiles = (th.messages.map (·.doc.files)).sum ∧
    th.matchedMessages = (th.messages.filter (fun m => m.isMatch && !m.excluded)).length ∧
    ∀ m ∈ th.messages, m.excluded = true ↔ o ≠ .no ∧ IsExcluded x ex m.doc := by
  obtain ⟨p, ds, t, rfl, hk, _, _, _⟩ := thread_of_search ho db hdb x ex o s ths h th hth
  obtain ⟨_, f2, f3, f4, _, _, _, f8⟩ := foldl_fields _ p ds hk (noThread t)
  refine ⟨?_, ?_, ?_, ?_⟩
  · rw [f3, f2]; simp [noThread]
  · rw [f4, f2]; simp [noThread]; rfl
  · rw [f8, f2]
    simp only [noThread, Nat.zero_add, List.nil_append]
    rw [List.filter_map, List.length_map, List.filter_filter]
    congr 1
    apply List.filter_congr
    intro d hd
    simp only [Function.comp_apply]
    cases hp : p d.id
    · simp
    · simp [hk d hd hp]
  · intro m hm
    rw [f2] at hm
    simp only [noThread, List.nil_append] at hm
    obtain ⟨d, _, rfl⟩ := List.mem_map.1 hm
    exact messageExcluded_iff x ex o s d

/-- C34: unless excluded messages are only flagged, the dates are those of the oldest and the newest match. -/
theorem C34_dates (ho : Orders ord) (db : List Doc) (hdb : GoodDb db) (x : XQuery) (ex : List Str) (o : Exclude) (hof : o ≠ .flag) (s : SortOrder)
    (ths : List Thread) (h : searchAllThreads ord db (build x ex o s) = some ths) (th : Thread) (hth : th ∈ ths) :
    (∃ m ∈ th.messages, m.isMatch = true ∧ m.doc.date = th.oldest) ∧
    (∃ m ∈ th.messages, m.isMatch = true ∧ m.doc.date = th.newest) ∧
    ∀ m ∈ th.messages, m.isMatch = true → th.oldest ≤ m.doc.date ∧ m.doc.date ≤ th.newest := by
  obtain ⟨p, ds, t, rfl, hk, ⟨d0, hd0, hp0⟩, hx, _⟩ := thread_of_search ho db hdb x ex o s ths h th hth
  obtain ⟨_, f2, _⟩ := foldl_fields _ p ds hk (noThread t)
  have hd := foldl_dates (build x ex o s) p ds (fun d hd hp => ⟨hk d hd hp, hx d hd hp hof⟩) (noThread t) [] rfl (by simp)
  simp only [List.nil_append] at hd
  have hne : (ds.filter (fun d => p d.id)).map (·.date) ≠ [] := by
    intro he
    have : d0 ∈ ds.filter (fun d => p d.id) := List.mem_filter.2 ⟨hd0, hp0⟩
    rw [List.map_eq_nil_iff] at he
    rw [he] at this; simp at this
  obtain ⟨a, b, c⟩ := hd hne
  have hm : ∀ v, v ∈ (ds.filter (fun d => p d.id)).map (·.date) ↔ ∃ m ∈ (ds.foldl (stepThread (build x ex o s) p) (noThread t)).messages, m.isMatch = true ∧ m.doc.date = v := by
    intro v
    rw [f2]
    simp only [noThread, List.nil_append]
    constructor
    · intro hv
      obtain ⟨d, hd, rfl⟩ := List.mem_map.1 hv
      rw [List.mem_filter] at hd
      exact ⟨_, List.mem_map_of_mem (List.mem_filter.2 ⟨hd.1, hk d hd.1 hd.2⟩), hd.2, rfl⟩
    · rintro ⟨m, hm, hp, rfl⟩
      obtain ⟨d, hd, rfl⟩ := List.mem_map.1 hm
      rw [List.mem_filter] at hd
      exact List.mem_map_of_mem (f := fun d : Doc => d.date) (List.mem_filter.2 ⟨hd.1, hp⟩)
  refine ⟨(hm _).1 a, (hm _).1 b, fun m hmm hp => c _ ((hm _).2 ⟨m, hmm, hp, rfl⟩)⟩

theorem mem_addAuthor (l : List (Option Str)) : ∀ (acc : List Str) (a : Str), a ∈ l.foldl addAuthor acc ↔ a ∈ acc ∨ some a ∈ l := by
  induction l with
  | nil => intro acc a; simp
  | cons b l ih =>
    intro acc a
    rw [List.foldl_cons, ih]
    cases b with
    | none => simp [addAuthor]
    | some b =>
      simp only [addAuthor]
      split
      · rename_i hb
        constructor
        · rintro (h | h)
          · exact Or.inl h
          · exact Or.inr (by simp [h])
        · rintro (h | h)
          · exact Or.inl h
          · rw [List.mem_cons] at h
            rcases h with h | h
            · rw [Option.some.inj h]; exact Or.inl hb
            · exact Or.inr h
      · simp [or_assoc]

theorem nodup_addAuthor (l : List (Option Str)) : ∀ (acc : List Str), acc.Nodup → (l.foldl addAuthor acc).Nodup := by
  induction l with
  | nil => intro acc h; exact h
  | cons b l ih =>
    intro acc h
    rw [List.foldl_cons]
    apply ih
    cases b with
    | none => exact h
    | some b =>
      simp only [addAuthor]
      split
      · exact h
      · rename_i hni
        rw [List.nodup_append]
        refine ⟨h, by simp, ?_⟩
        rintro a ha c hc rfl
        exact hni (by simp at hc; exact hc ▸ ha)

theorem mem_threadTags (l : List Str) : ∀ (acc : List Str) (a : Str), a ∈ l.foldl addTag acc ↔ a ∈ acc ∨ a ∈ l := by
  induction l with
  | nil => intro acc a; simp
  | cons b l ih =>
    intro acc a
    rw [List.foldl_cons, ih]
    simp only [addTag]
    split
    · rename_i hb
      constructor
      · rintro (h | h)
        · exact Or.inl h
        · exact Or.inr (by simp [h])
      · rintro (h | h)
        · exact Or.inl h
        · rw [List.mem_cons] at h
          rcases h with h | h
          · rw [h]; exact Or.inl hb
          · exact Or.inr h
    · simp [or_assoc]

theorem nodup_threadTags (l : List Str) : ∀ (acc : List Str), acc.Nodup → (l.foldl addTag acc).Nodup := by
  induction l with
  | nil => intro acc h; exact h
  | cons b l ih =>
    intro acc h
    rw [List.foldl_cons]
    apply ih
    simp only [addTag]
    split
    · exact h
    · rename_i hni
      rw [List.nodup_append]
      refine ⟨h, by simp, ?_⟩
      rintro a ha c hc rfl
      exact hni (by simp at hc; exact hc ▸ ha)

/-- C34: the tags of a thread are the tags of its messages. -/
theorem C34_tags (ho : Orders ord) (db : List Doc) (hdb : GoodDb db) (x : XQuery) (ex : List Str) (o : Exclude) (s : SortOrder)
    (ths : List Thread) (h : searchAllThreads ord db (build x ex o s) = some ths) (th : Thread) (hth : th ∈ ths) :
    th.tags.Nodup ∧ ∀ t, t ∈ th.tags ↔ ∃ m ∈ th.messages, HasTag m.doc t := by
  obtain ⟨p, ds, t, rfl, hk, _, _, _⟩ := thread_of_search ho db hdb x ex o s ths h th hth
  obtain ⟨_, f2, _, _, _, f6, _⟩ := foldl_fields _ p ds hk (noThread t)
  rw [f6, f2]
  simp only [noThread, List.nil_append]
  refine ⟨nodup_threadTags _ _ (by simp), fun t => ?_⟩
  rw [mem_threadTags, List.mem_flatMap]
  simp only [List.not_mem_nil, false_or]
  constructor
  · rintro ⟨d, hd, ht⟩
    exact ⟨_, List.mem_map_of_mem hd, (mem_termsWithPrefix _ _ _).1 ht⟩
  · rintro ⟨m, hm, ht⟩
    obtain ⟨d, hd, rfl⟩ := List.mem_map.1 hm
    exact ⟨d, hd, (mem_termsWithPrefix _ _ _).2 ht⟩

/-- C34: the authors of a thread are the authors of its messages, the matched ones those of the matching messages, each
once; and if a matching message has an author, the string shows first the matched ones, then after a bar the others. -/
theorem C34_authors (ho : Orders ord) (db : List Doc) (hdb : GoodDb db) (x : XQuery) (ex : List Str) (o : Exclude) (s : SortOrder)
    (ths : List Thread) (h : searchAllThreads ord db (build x ex o s) = some ths) (th : Thread) (hth : th ∈ ths) :
    th.authors.Nodup ∧ th.matchedAuthors.Nodup ∧
    (∀ a, a ∈ th.authors ↔ ∃ m ∈ th.messages, docAuthor m.doc = some a) ∧
    (∀ a, a ∈ th.matchedAuthors ↔ ∃ m ∈ th.messages, m.isMatch = true ∧ docAuthor m.doc = some a) ∧
    ((∃ m ∈ th.messages, m.isMatch = true ∧ docAuthor m.doc ≠ none) →
      let others := th.authors.filter (fun a => a ∉ th.matchedAuthors)
      authorsString th = commas th.matchedAuthors ++ (if others = [] then [] else bs "| " ++ commas others)) := by
  obtain ⟨p, ds, t, rfl, hk, _, _, _⟩ := thread_of_search ho db hdb x ex o s ths h th hth
  obtain ⟨_, f2, _, _, f5, _, f7, _⟩ := foldl_fields _ p ds hk (noThread t)
  generalize hth' : ds.foldl (stepThread (build x ex o s) p) (noThread t) = th at *
  simp only [noThread, List.nil_append] at f2 f5 f7
  have hau : ∀ a, a ∈ th.authors ↔ ∃ m ∈ th.messages, docAuthor m.doc = some a := by
    intro a
    rw [f5, mem_addAuthor, f2, List.mem_map]
    simp only [List.not_mem_nil, false_or]
    constructor
    · rintro ⟨d, hd, e⟩; exact ⟨_, List.mem_map_of_mem hd, e⟩
    · rintro ⟨m, hm, e⟩
      obtain ⟨d, hd, rfl⟩ := List.mem_map.1 hm
      exact ⟨d, hd, e⟩
  have hma : ∀ a, a ∈ th.matchedAuthors ↔ ∃ m ∈ th.messages, m.isMatch = true ∧ docAuthor m.doc = some a := by
    intro a
    rw [f7, mem_addAuthor, f2, List.mem_map]
    simp only [List.not_mem_nil, false_or]
    constructor
    · rintro ⟨d, hd, e⟩
      rw [List.mem_filter] at hd
      exact ⟨_, List.mem_map_of_mem (List.mem_filter.2 ⟨hd.1, hk d hd.1 hd.2⟩), hd.2, e⟩
    · rintro ⟨m, hm, hp, e⟩
      obtain ⟨d, hd, rfl⟩ := List.mem_map.1 hm
      rw [List.mem_filter] at hd
      exact ⟨d, List.mem_filter.2 ⟨hd.1, hp⟩, e⟩
  refine ⟨by rw [f5]; exact nodup_addAuthor _ _ (by simp), by rw [f7]; exact nodup_addAuthor _ _ (by simp), hau, hma, ?_⟩
  rintro ⟨m, hm, hp, hne⟩
  obtain ⟨a, ha⟩ := Option.ne_none_iff_exists'.1 hne
  have hmem := (hma a).2 ⟨m, hm, hp, ha⟩
  simp only
  unfold authorsString
  simp only
  generalize th.authors.filter (fun a => decide (a ∉ th.matchedAuthors)) = others
  generalize th.matchedAuthors = ma at *
  have h1 : ∀ (l : List Str) (pre : Str), l.foldl appendAuthor (some pre) = some (commas (pre :: l)) ∧ ∀ pre' pre'', commas ((pre' ++ pre'') :: l) = pre' ++ commas (pre'' :: l) := by
    intro l
    induction l with
    | nil => intro pre; simp [commas]
    | cons b l ih =>
      intro pre
      rw [List.foldl_cons, appendAuthor]
      refine ⟨?_, by intro a b; simp [commas, List.append_assoc]⟩
      rw [(ih _).1, commas, (ih []).2]
  have h2 : ∀ (l : List Str) (pre : Str), l.foldl (fun (s : Bool × Option Str) a =>
      (false, some (s.2.getD (bs "(null)") ++ (if s.1 then bs "| " else bs ", ") ++ a))) (false, some pre) = (false, some (commas (pre :: l))) := by
    intro l
    induction l with
    | nil => intro pre; simp [commas]
    | cons b l ih =>
      intro pre
      rw [List.foldl_cons]
      simp only [Option.getD_some]
      have := ih (pre ++ bs ", " ++ b)
      simp only [Bool.false_eq_true, if_false]
      rw [this, commas, (h1 l []).2]
  cases ma with
  | nil => simp at hmem
  | cons a0 ma =>
    rw [List.foldl_cons, appendAuthor, (h1 ma a0).1]
    cases others with
    | nil => simp
    | cons b others =>
      rw [List.foldl_cons]
      simp only [Option.getD_some]
      rw [h2, (h1 others []).2]
      simp

/-- C34: swapping "Last, First" never changes which bytes other than the comma and blanks there are: the author shown is
the name as it was, or the part after the comma and its blanks, a blank, and the part before. -/
theorem C34_author_name (author sender : Str) :
    cleanupAuthor author sender = author ∨
    ∃ l blanks f, author = l ++ [44] ++ blanks ++ f ∧ 44 ∉ l ∧ (∀ b ∈ blanks, b = 32) ∧ f.head? ≠ some 32 ∧
      cleanupAuthor author sender = f ++ [32] ++ l ∧ (cleanupAuthor author sender).length ≤ author.length := by
  unfold cleanupAuthor
  simp only
  split
  · split
    · right
      rename_i hlen _
      have hsplit : author.takeWhile (· ≠ 44) ++ author.dropWhile (· ≠ 44) = author := List.takeWhile_append_dropWhile
      cases hc : author.dropWhile (· ≠ 44) with
      | nil => rw [hc] at hlen; simp at hlen
      | cons c rest =>
        have hc44 : c = 44 := by
          have := List.head?_dropWhile_not (p := fun b : UInt8 => decide (b ≠ 44)) (l := author)
          rw [hc] at this
          simpa using this
        subst hc44
        have hsp : rest.takeWhile (· = 32) ++ rest.dropWhile (· = 32) = rest := List.takeWhile_append_dropWhile
        refine ⟨author.takeWhile (· ≠ 44), rest.takeWhile (· = 32), rest.dropWhile (· = 32), ?_, ?_, ?_, ?_, ?_, ?_⟩
        · rw [List.append_assoc, hsp]
          conv => lhs; rw [← hsplit, hc]
          simp
        · intro hmem
          have := List.all_eq_true.1 List.all_takeWhile _ hmem
          simp at this
        · intro b hb
          have := List.all_eq_true.1 List.all_takeWhile _ hb
          simpa using this
        · have := List.head?_dropWhile_not (p := fun b : UInt8 => decide (b = 32)) (l := rest)
          cases hd : (rest.dropWhile (· = 32)).head? with
          | none => simp
          | some y =>
            rw [hd] at this
            simp at this
            simpa using this
        · simp
        · simp only [List.drop_succ_cons, List.drop_zero, List.length_append, List.length_cons, List.length_nil]
          have e1 : author.length = (author.takeWhile (· ≠ 44)).length + (rest.length + 1) := by
            conv => lhs; rw [← hsplit, hc]
            simp
          have e2 : rest.length = (rest.takeWhile (· = 32)).length + (rest.dropWhile (· = 32)).length := by
            rw [← List.length_append, hsp]
          omega
    · exact Or.inl rfl
  · exact Or.inl rfl

theorem cleaned_subject {s c : Str} (h : WithoutRe s c) (hc : c ≠ []) (x : Option Str) (d : Doc) (hd : d.subject = some s) :
    setSubject x d = some c := by
  have hcl : (if (s.take 4).map toLower = bs "re: " ∨ (s.take 4).map toLower = bs "aw: " ∨ (s.take 4).map toLower = bs "vs: " ∨ (s.take 4).map toLower = bs "sv: "
      then s.drop 4 else s) = c := by
    have e1 : toLower 58 = 58 := by decide
    have e2 : toLower 32 = 32 := by decide
    rcases h with ⟨a, b, rfl, h⟩ | ⟨rfl, h⟩
    · rw [if_pos]
      · simp
      · simp [bs, e1, e2] at h ⊢
        exact h
    · rw [if_neg]
      intro hl
      match c, h, hl with
      | [], _, hl => simp [bs] at hl
      | [_], _, hl => simp [bs] at hl
      | [_, _], _, hl => simp [bs] at hl
      | [_, _, _], _, hl => simp [bs] at hl
      | a :: b :: e :: f :: rest, h, hl =>
        have he : ∀ w : UInt8, (toLower w = 58 → w = 58) ∧ (toLower w = 32 → w = 32) := by
          apply forall_byte
          decide +kernel
        have h3 : e = 58 ∧ f = 32 ∧ ([toLower a, toLower b] = bs "re" ∨ [toLower a, toLower b] = bs "aw" ∨ [toLower a, toLower b] = bs "vs" ∨ [toLower a, toLower b] = bs "sv") := by
          simp [bs] at hl ⊢
          rcases hl with ⟨x, y, z, w⟩ | ⟨x, y, z, w⟩ | ⟨x, y, z, w⟩ | ⟨x, y, z, w⟩ <;>
            exact ⟨(he _).1 z, (he _).2 w, by simp [x, y]⟩
        obtain ⟨rfl, rfl, h4⟩ := h3
        obtain ⟨n1, n2, n3, n4⟩ := h a b rest rfl
        rcases h4 with h4 | h4 | h4 | h4 <;> contradiction
  unfold setSubject
  rw [hd]
  simp only
  rw [hcl, if_neg hc]

/-- What happens to the subject. -/
theorem step_subject (q : Query) (p : Nat → Bool) (th : Thread) (d : Doc) (hk : p d.id = true → kept q d = true) :
    (p d.id = false → ∀ c, th.subject = some c → (stepThread q p th d).subject = some c) ∧
    (p d.id = true → q.sort ≠ .oldestFirst → (th.newest < d.date ∨ th.matchedMessages = 0) →
      ∀ c, (∀ x, setSubject x d = some c) → (stepThread q p th d).subject = some c) ∧
    (p d.id = true → q.sort = .oldestFirst → (d.date < th.oldest ∨ th.matchedMessages = 0) →
      ∀ c, c ≠ [] → (∀ x, setSubject x d = some c) → (stepThread q p th d).subject = some c) ∧
    (p d.id = true → q.sort = .oldestFirst → ¬ (d.date < th.oldest ∨ th.matchedMessages = 0) →
      ∀ c, c ≠ [] → th.subject = some c → (stepThread q p th d).subject = some c) := by
  have key : p d.id = true → ∃ s0, (∀ c, th.subject = some c → s0 = c) ∧ (stepThread q p th d).subject =
      match (if (decide (d.date < th.oldest) || th.matchedMessages == 0) && q.sort == .oldestFirst then setSubject (some s0) d else some s0) with
      | none => th.subject
      | some cur => if (decide (d.date > th.newest) || th.matchedMessages == 0) && (decide (q.sort ≠ .oldestFirst) || cur == []) then setSubject (some cur) d else some cur := by
    intro hp
    have hs0 : ∃ s0, (∀ c, th.subject = some c → s0 = c) ∧ (addMessage q th d).subject = some s0 := by
      rw [addMessage_kept (hk hp)]
      cases h : th.subject with
      | none => exact ⟨_, by simp, rfl⟩
      | some s => exact ⟨s, by simp, rfl⟩
    obtain ⟨s0, h0, h1⟩ := hs0
    refine ⟨s0, h0, ?_⟩
    have a1 : (addMessage q th d).oldest = th.oldest := by rw [addMessage_kept (hk hp)]
    have a2 : (addMessage q th d).newest = th.newest := by rw [addMessage_kept (hk hp)]
    have a3 : (addMessage q th d).matchedMessages = th.matchedMessages := by rw [addMessage_kept (hk hp)]
    have hm := setMatch_append th.messages ⟨d, messageExcluded q d, false, docAuthor d⟩
    simp only at hm
    have a4 : setMatch (addMessage q th d).messages d.mid = some (th.messages ++ [⟨d, messageExcluded q d, true, docAuthor d⟩], docAuthor d) := by
      rw [addMessage_kept (hk hp)]; exact hm
    unfold stepThread
    rw [if_pos hp]
    unfold addMatchedMessage
    simp only [a1, a2, a3, a4, h1]
    generalize (if (decide (d.date < th.oldest) || th.matchedMessages == 0) && q.sort == .oldestFirst then setSubject (some s0) d else some s0) = o
    cases o <;> rfl
  refine ⟨?_, ?_, ?_, ?_⟩
  · intro hp c hc
    unfold stepThread
    rw [if_neg (by simp [hp])]
    by_cases hkd : kept q d = true
    · rw [addMessage_kept hkd]; simp [hc]
    · rw [addMessage_not_kept (by simpa using hkd), hc]
  · intro hp hs hn c hc
    obtain ⟨s0, _, e⟩ := key hp
    rw [e]
    have : (q.sort == SortOrder.oldestFirst) = false := by simpa using hs
    rw [this, Bool.and_false]
    simp only [Bool.false_eq_true, if_false]
    rw [if_pos (by simp [hs]; exact hn), hc]
  · intro hp hs hn c hne hc
    obtain ⟨s0, _, e⟩ := key hp
    rw [e, if_pos (by simp [hs]; exact hn), hc]
    simp [hs, hne]
  · intro hp hs hn c hne hc
    obtain ⟨s0, h0, e⟩ := key hp
    rw [e, if_neg (by simp [hs] ; simpa using hn), h0 c hc]
    simp [hs, hne]

theorem newest_below (q : Query) (p : Nat → Bool) (D : Int) : ∀ (ds : List Doc) (th : Thread), (∀ d ∈ ds, p d.id = true → kept q d = true ∧ d.date < D) →
    (th.newest < D ∨ th.matchedMessages = 0) →
    ((ds.foldl (stepThread q p) th).newest < D ∨ (ds.foldl (stepThread q p) th).matchedMessages = 0) := by
  intro ds
  induction ds with
  | nil => intro th _ h; exact h
  | cons d ds ih =>
    intro th hk h
    rw [List.foldl_cons]
    apply ih _ (fun e he => hk e (by simp [he]))
    obtain ⟨_, _, _, _, _, _, _, h8, _, h10⟩ := stepThread_fields q p d (fun hp => (hk d (by simp) hp).1) th
    rw [h8, h10]
    cases hp : p d.id
    · simpa using h
    · have hd := (hk d (by simp) hp).2
      simp only [Bool.true_and]
      by_cases hl : (decide (d.date > th.newest) || th.matchedMessages == 0) = true
      · rw [if_pos hl]; exact Or.inl hd
      · rw [if_neg hl]
        simp at hl
        rcases h with h | h
        · exact Or.inl h
        · exact absurd h hl.2

theorem subject_kept (q : Query) (p : Nat → Bool) (c : Str) : ∀ (ds : List Doc) (th : Thread), (∀ d ∈ ds, p d.id = false) →
    th.subject = some c → (ds.foldl (stepThread q p) th).subject = some c := by
  intro ds
  induction ds with
  | nil => intro th _ h; exact h
  | cons d ds ih =>
    intro th hk h
    rw [List.foldl_cons]
    exact ih _ (fun e he => hk e (by simp [he])) ((step_subject q p th d (by rw [hk d (by simp)]; simp)).1 (hk d (by simp)) c h)

theorem unmatched_count (q : Query) (p : Nat → Bool) : ∀ (ds : List Doc) (th : Thread), (∀ d ∈ ds, p d.id = false) →
    (ds.foldl (stepThread q p) th).matchedMessages = th.matchedMessages := by
  intro ds
  induction ds with
  | nil => intro th _; rfl
  | cons d ds ih =>
    intro th hk
    rw [List.foldl_cons, ih _ (fun e he => hk e (by simp [he]))]
    obtain ⟨_, _, _, _, _, _, _, h8, _⟩ := stepThread_fields q p d (by rw [hk d (by simp)]; simp) th
    rw [h8, hk d (by simp)]
    simp

theorem subject_oldest (q : Query) (p : Nat → Bool) (hs : q.sort = .oldestFirst) (c : Str) (hc : c ≠ []) (D : Int) : ∀ (ds : List Doc) (th : Thread),
    (∀ d ∈ ds, p d.id = true → kept q d = true ∧ D ≤ d.date) → th.subject = some c → th.matchedMessages ≠ 0 → th.oldest = D →
    (ds.foldl (stepThread q p) th).subject = some c := by
  intro ds
  induction ds with
  | nil => intro th _ h _ _; exact h
  | cons d ds ih =>
    intro th hk h hm ho
    rw [List.foldl_cons]
    obtain ⟨_, _, _, _, _, _, _, h8, h9, _⟩ := stepThread_fields q p d (fun hp => (hk d (by simp) hp).1) th
    obtain ⟨s1, _, _, s4⟩ := step_subject q p th d (fun hp => (hk d (by simp) hp).1)
    apply ih _ (fun e he => hk e (by simp [he]))
    · cases hp : p d.id
      · exact s1 hp c h
      · refine s4 hp hs ?_ c hc h
        have := (hk d (by simp) hp).2
        rintro (h' | h')
        · omega
        · exact hm h'
    · rw [h8]; omega
    · rw [h9, ho]
      split
      · rename_i hx
        simp [hm] at hx
        have := (hk d (by simp) hx.1).2
        omega
      · rfl

/-- The documents of a thread around the one of a message. -/
theorem around {ds : List Doc} (hn : (ds.map (·.id)).Nodup) (q : Query) (p : Nat → Bool) (t : Str) (hk : ∀ d ∈ ds, p d.id = true → kept q d = true)
    (m : TMsg) (hm : m ∈ (ds.foldl (stepThread q p) (noThread t)).messages) (hmm : m.isMatch = true) :
    ∃ pre post, ds = pre ++ m.doc :: post ∧ p m.doc.id = true ∧
      ∀ d ∈ pre ++ post, p d.id = true → ∃ n ∈ (ds.foldl (stepThread q p) (noThread t)).messages, n.doc = d ∧ n.isMatch = true ∧ n.doc ≠ m.doc := by
  obtain ⟨_, f2, _⟩ := foldl_fields q p ds hk (noThread t)
  rw [f2] at hm ⊢
  simp only [noThread, List.nil_append] at hm ⊢
  obtain ⟨d, hd, rfl⟩ := List.mem_map.1 hm
  rw [List.mem_filter] at hd
  obtain ⟨pre, post, rfl⟩ := List.append_of_mem hd.1
  refine ⟨pre, post, rfl, hmm, ?_⟩
  intro e he hp
  have he' : e ∈ pre ++ d :: post := by
    simp at he ⊢
    tauto
  refine ⟨_, List.mem_map_of_mem (List.mem_filter.2 ⟨he', hk e he' hp⟩), rfl, hp, ?_⟩
  intro hed
  simp only at hed
  rw [List.map_append, List.map_cons, List.nodup_append, List.nodup_cons] at hn
  rw [hed, List.mem_append] at he
  rcases he with he | he
  · exact hn.2.2 _ (List.mem_map_of_mem (f := fun d : Doc => d.id) he) d.id (by simp) rfl
  · exact hn.2.1.1 (List.mem_map_of_mem (f := fun d : Doc => d.id) he)

/-- C34: unless sorting oldest first, the subject is that of the newest match. -/
theorem C34_subject_newest (ho : Orders ord) (db : List Doc) (hdb : GoodDb db) (x : XQuery) (ex : List Str) (o : Exclude) (s : SortOrder) (hs : s ≠ .oldestFirst)
    (ths : List Thread) (h : searchAllThreads ord db (build x ex o s) = some ths) (th : Thread) (hth : th ∈ ths)
    (m : TMsg) (hm : m ∈ th.messages) (hmm : m.isMatch = true) (hnew : ∀ n ∈ th.messages, n.isMatch = true → n.doc ≠ m.doc → n.doc.date < m.doc.date)
    (subject c : Str) (h1 : m.doc.subject = some subject) (h2 : WithoutRe subject c) (hc : c ≠ []) :
    th.subject = some c := by
  obtain ⟨p, ds, t, rfl, hk, _, _, hsort, hn⟩ := thread_of_search ho db hdb x ex o s ths h th hth
  obtain ⟨pre, post, hds, hp, hothers⟩ := around hn _ p t hk m hm hmm
  have hq : (build x ex o s).sort ≠ .oldestFirst := by exact hs
  have holder : ∀ d ∈ pre ++ post, p d.id = true → d.date < m.doc.date := by
    intro d hd hp
    obtain ⟨n, hn1, rfl, hn3, hn4⟩ := hothers d hd hp
    exact hnew n hn1 hn3 hn4
  rw [hds, List.foldl_append, List.foldl_cons]
  apply subject_kept
  · intro d hd
    rw [← Bool.not_eq_true]
    intro hp
    have := holder d (by simp [hd]) hp
    rw [hds, List.pairwise_append, List.pairwise_cons] at hsort
    have := hsort.2.1.1 d hd
    omega
  · refine (step_subject _ p _ m.doc (hk _ (by rw [hds]; simp))).2.1 hp hq ?_ c (fun x => cleaned_subject h2 hc x m.doc h1)
    exact newest_below _ p _ pre _ (fun d hd hp => ⟨hk d (by rw [hds]; simp [hd]) hp, holder d (by simp [hd]) hp⟩) (Or.inr rfl)

/-- C34: sorting oldest first, the subject is that of the oldest match (unless excluded messages are only flagged). -/
theorem C34_subject_oldest (ho : Orders ord) (db : List Doc) (hdb : GoodDb db) (x : XQuery) (ex : List Str) (o : Exclude) (hof : o ≠ .flag)
    (ths : List Thread) (h : searchAllThreads ord db (build x ex o .oldestFirst) = some ths) (th : Thread) (hth : th ∈ ths)
    (m : TMsg) (hm : m ∈ th.messages) (hmm : m.isMatch = true) (hold : ∀ n ∈ th.messages, n.isMatch = true → n.doc ≠ m.doc → m.doc.date < n.doc.date)
    (subject c : Str) (h1 : m.doc.subject = some subject) (h2 : WithoutRe subject c) (hc : c ≠ []) :
    th.subject = some c := by
  obtain ⟨p, ds, t, rfl, hk, _, hx, hsort, hn⟩ := thread_of_search ho db hdb x ex o .oldestFirst ths h th hth
  obtain ⟨pre, post, hds, hp, hothers⟩ := around hn _ p t hk m hm hmm
  have hq : (build x ex o .oldestFirst).sort = .oldestFirst := rfl
  have hnewer : ∀ d ∈ pre ++ post, p d.id = true → m.doc.date < d.date := by
    intro d hd hp
    obtain ⟨n, hn1, rfl, hn3, hn4⟩ := hothers d hd hp
    exact hold n hn1 hn3 hn4
  have hpre : ∀ d ∈ pre, p d.id = false := by
    intro d hd
    rw [← Bool.not_eq_true]
    intro hp
    have := hnewer d (by simp [hd]) hp
    rw [hds, List.pairwise_append] at hsort
    have := hsort.2.2 d hd m.doc (by simp)
    omega
  have hkm := hk m.doc (by rw [hds]; simp)
  have hxm := hx m.doc (by rw [hds]; simp) hp hof
  rw [hds, List.foldl_append, List.foldl_cons]
  have h0 := unmatched_count (build x ex o .oldestFirst) p pre (noThread t) hpre
  generalize pre.foldl (stepThread (build x ex o .oldestFirst) p) (noThread t) = th0 at *
  have h0' : th0.matchedMessages = 0 := h0
  obtain ⟨_, _, _, _, _, _, _, g8, g9, _⟩ := stepThread_fields (build x ex o .oldestFirst) p m.doc hkm th0
  refine subject_oldest _ p hq c hc m.doc.date post _ (fun d hd hp => ⟨hk d (by rw [hds]; simp [hd]) hp, Int.le_of_lt (hnewer d (by simp [hd]) hp)⟩) ?_ ?_ ?_
  · exact (step_subject _ p _ m.doc hkm).2.2.1 hp hq (Or.inr h0') c hc (fun x => cleaned_subject h2 hc x m.doc h1)
  · rw [g8, hp, hxm]; simp
  · rw [g9, hp, h0']; simp

/-- With flagged excluded messages, the oldest date of a thread need not be that of its oldest match. -/
theorem C34_flag_counterexample :
    ∃ db x ex ths th m, searchAllThreads qOrd db (build x ex .flag .oldestFirst) = some ths ∧ th ∈ ths ∧ m ∈ th.messages ∧ m.isMatch = true ∧ m.doc.date < th.oldest :=
  ⟨qDb, .leaf (fun _ => true), [bs "spam"], _, _, _, rfl, List.mem_cons_self, List.mem_cons_self, rfl, by decide +kernel⟩

/-- If no matching message has an author but another message of the thread has one, the string is not only made of authors. -/
theorem C34_authors_counterexample :
    ∃ db x ths th, searchAllThreads qOrd db (build x [] .yes .newestFirst) = some ths ∧ th ∈ ths ∧ th.authors = [bs "a"] ∧
      authorsString th = bs "(null)| a" :=
  ⟨[{ qDoc 1 (bs "1") 10 [] with sender := none }, qDoc 2 (bs "1") 20 []], .leaf (fun d => d.id == 1), _, _, rfl, List.mem_cons_self,
    by decide +kernel, by decide +kernel⟩

example : ((searchAllThreads qOrd qDb (build (.leaf (fun _ => true)) [bs "spam"] .yes .newestFirst)).map
    (fun ths => ths.map (fun th => (th.subject, th.oldest, th.newest)))) =
    some [(some (bs "hi"), 30, 30), (some (bs "hi"), 20, 20)] := by decide +kernel
example : ((searchAllThreads qOrd qDb (build (.leaf (fun _ => true)) [bs "spam"] .yes .newestFirst)).map
    (fun ths => ths.map (fun th => (authorsString th, th.tags)))) =
    some [(bs "a", []), (bs "a", [bs "spam"])] := by decide +kernel
example : WithoutRe (bs "Re: hi") (bs "hi") := Or.inl ⟨82, 101, by decide, Or.inl (by decide)⟩
example : cleanupAuthor (bs "Bar, Foo") (bs "foo.bar@x") = bs "Foo Bar" := by decide +kernel

end Notmuch.Props
