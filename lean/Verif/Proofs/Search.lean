import Verif.Spec.Search
import Verif.Proofs.Sprinter
import Verif.Proofs.TermList
import Verif.Props.Query

namespace Notmuch.Search

open Notmuch.Query Notmuch.QuerySpec Notmuch.Sprinter
open Notmuch.StringUtil (sanitize makeBooleanTerm needQuoting quoteBody)

/-! ## Window -/

/-- The limit can be added to the offset. -/
def NoOverflow (offset limit : Int) : Prop := limit < 0 ∨ offset + limit ≤ 2147483647

theorem threadDate_eq (so : SortOrder) (th : Thread) : threadDate so th = shownDate so th := by
  cases so <;> rfl

theorem messagesLoop_spec {α : Type} {offset limit : Int} (h : NoOverflow offset limit) : ∀ (l : List α) (i : Int), 0 ≤ i →
    messagesLoop offset limit i l = some ((if limit < 0 then l else l.take (offset + limit - i).toNat).drop (offset - i).toNat)
  | [], i, _ => by
    rw [messagesLoop]; split <;> simp
  | m :: ms, i, hi => by
    rw [messagesLoop]
    unfold below
    by_cases hl : limit < 0
    · simp only [if_pos hl, messagesLoop_spec h ms (i + 1) (by omega), Option.map_some]
      by_cases ho : i < offset
      · rw [if_pos ho]
        rw [show (offset - i).toNat = (offset - (i + 1)).toNat + 1 by omega, List.drop_succ_cons]
      · rw [if_neg ho]
        rw [show (offset - i).toNat = 0 by omega, show (offset - (i + 1)).toNat = 0 by omega, List.drop_zero, List.drop_zero]
    · have h2 : ¬ offset + limit > 2147483647 := by
        rcases h with h | h
        · exact absurd h hl
        · omega
      simp only [if_neg hl, if_neg h2, messagesLoop_spec h ms (i + 1) (by omega), Option.map_some]
      by_cases hb : i < offset + limit
      · rw [decide_eq_true hb]
        simp only
        rw [show (offset + limit - i).toNat = (offset + limit - (i + 1)).toNat + 1 by omega, List.take_succ_cons]
        by_cases ho : i < offset
        · rw [if_pos ho]
          rw [show (offset - i).toNat = (offset - (i + 1)).toNat + 1 by omega, List.drop_succ_cons]
        · rw [if_neg ho]
          rw [show (offset - i).toNat = 0 by omega, show (offset - (i + 1)).toNat = 0 by omega, List.drop_zero, List.drop_zero]
      · rw [decide_eq_false hb]
        simp only
        rw [show (offset + limit - i).toNat = 0 by omega, List.take_zero, List.drop_nil]

theorem messagesLoop_window {α : Type} {offset limit : Int} (ho : 0 ≤ offset) (h : NoOverflow offset limit) (l : List α) :
    messagesLoop offset limit 0 l = some (window offset limit l) := by
  rw [messagesLoop_spec h l 0 (by omega)]
  unfold window
  rw [if_neg (by omega : ¬ offset < 0), Int.sub_zero, Int.sub_zero]
  split
  · rfl
  · rw [List.drop_take]
    congr 2
    omega

/-- For a list that is not longer than an `int` can count. -/
theorem startOffset_spec {offset : Int} {n : Nat} (h1 : offset < 0) (h2 : -2147483648 ≤ offset) (hn : n ≤ 2147483647) :
    startOffset offset n = ((n - offset.natAbs : Nat) : Int) := by
  unfold startOffset toInt
  rw [if_pos h1]
  split <;> omega

theorem window_neg {α : Type} {offset limit : Int} (l : List α) (h : offset < 0) :
    window ((l.length - offset.natAbs : Nat) : Int) limit l = window offset limit l := by
  unfold window
  rw [if_neg (by omega : ¬ ((l.length - offset.natAbs : Nat) : Int) < 0), if_pos h, Int.toNat_natCast]

theorem threadsLoop_eq {ord : SortOrder → List Doc → List Doc} {db : List Doc} {q : Query} (offset limit : Int) : ∀ (n : Nat) (i : Int) (t : Threads) (ths : List Thread),
    allThreads ord db q n t = some ths → threadsLoop ord db q offset limit n i t = messagesLoop offset limit i ths
  | 0, _, _, _, h => by cases h
  | n + 1, i, t, ths, h => by
    rw [allThreads] at h
    rw [threadsLoop]
    split at h
    · cases h
    · rename_i hv
      rw [hv]
      cases h
      rfl
    · rename_i t' hv
      rw [hv]
      simp only
      split at h
      · rename_i th t'' hg
        rw [hg]
        cases hr : allThreads ord db q n (threadsNext t'') with
        | none => rw [hr] at h; cases h
        | some rest =>
          rw [hr, Option.map_some] at h
          cases h
          rw [messagesLoop]
          simp only [threadsLoop_eq offset limit n (i + 1) _ rest hr]
      · cases h

/-! ## Calls -/

theorem structured_append (a b : List TCall) : structured (a ++ b) = structured a ++ structured b := List.filterMap_append

theorem norm_append (a b : List Call) : norm (a ++ b) = norm a ++ norm b := by
  induction a with
  | nil => rfl
  | cons c a ih =>
    rw [List.cons_append]
    cases c <;> simp only [norm, ih, List.cons_append]

theorem callsList_append (a b : List Val) : Val.callsList (a ++ b) = Val.callsList a ++ Val.callsList b := by
  induction a with
  | nil => rfl
  | cons v a ih => rw [List.cons_append, Val.callsList, Val.callsList, ih, List.append_assoc]

theorem callsObj_append (a b : List (Str × Val)) : Val.callsObj (a ++ b) = Val.callsObj a ++ Val.callsObj b := by
  induction a with
  | nil => rfl
  | cons v a ih => rw [List.cons_append, Val.callsObj, Val.callsObj, ih, List.cons_append, List.append_assoc]

/-- Items printed one after the other. -/
theorem items_calls {α : Type} (f : α → List TCall) (v : α → List Val) (h : ∀ a, norm (structured (f a)) = Val.callsList (v a)) (l : List α) :
    norm (structured ([.call .beginList] ++ l.flatMap f ++ [.call .endAgg])) = (Val.list (l.flatMap v)).calls := by
  have key : norm (structured (l.flatMap f)) = Val.callsList (l.flatMap v) := by
    induction l with
    | nil => rfl
    | cons a l ih => rw [List.flatMap_cons, List.flatMap_cons, structured_append, norm_append, ih, h, callsList_append]
  rw [structured_append, structured_append, norm_append, norm_append, key, Val.calls]
  rfl

theorem printTags_calls : ∀ (first : Bool) (l : List Str), norm (structured (printTags false first l)) = Val.callsList (l.map strVal)
  | _, [] => rfl
  | first, t :: l => by
    rw [printTags, structured_append, norm_append, printTags_calls false l]
    rfl

theorem printQuery_calls (s : Option Str) : norm (structured [printQuery s]) = (optVal s).calls := by
  cases s <;> rfl

theorem printThread_calls (sortTags : List Str → List Str) (rel : Int → Str) (o : Opts) (th : Thread) (ho : o.output ≠ .threads) :
    norm (structured (printThread sortTags rel false o th)) = Val.callsList [threadVal sortTags rel o th] := by
  unfold printThread
  simp only [threadDate_eq]
  rw [if_neg ho]
  simp only [Bool.false_eq_true, if_false, structured_append, norm_append, printTags_calls, threadTags]
  have hk : ∀ k v, norm (structured [.call (.mapKey k), .call (.string v)]) = [.mapKey (cstr (some k)), .stringLen (cstr v)] := fun _ _ => rfl
  have hs : cstr th.subject = cstr (some (th.subject.getD [])) := by cases th.subject <;> rfl
  have e1 : cstr (some (bs "thread")) = bs "thread" := by decide +kernel
  have e2 : cstr (some (bs "timestamp")) = bs "timestamp" := by decide +kernel
  have e3 : cstr (some (bs "date_relative")) = bs "date_relative" := by decide +kernel
  have e4 : cstr (some (bs "matched")) = bs "matched" := by decide +kernel
  have e5 : cstr (some (bs "total")) = bs "total" := by decide +kernel
  have e6 : cstr (some (bs "authors")) = bs "authors" := by decide +kernel
  have e7 : cstr (some (bs "subject")) = bs "subject" := by decide +kernel
  have e8 : cstr (some (bs "query")) = bs "query" := by decide +kernel
  have e9 : cstr (some (bs "tags")) = bs "tags" := by decide +kernel
  unfold threadVal
  rw [Val.callsList, Val.callsList, List.append_nil, Val.calls, callsObj_append, callsObj_append]
  split
  · rename_i hv
    have hq : norm (structured [.call (.mapKey (bs "query")), .call .beginList, printQuery (threadQuery th).1, printQuery (threadQuery th).2, .call .endAgg]) =
        .mapKey (bs "query") :: .beginList :: ((optVal (threadQuery th).1).calls ++ ((optVal (threadQuery th).2).calls ++ [.endAgg])) := by
      have : ([.call (.mapKey (bs "query")), .call .beginList, printQuery (threadQuery th).1, printQuery (threadQuery th).2, .call .endAgg] : List TCall) =
          [.call (.mapKey (bs "query")), .call .beginList] ++ ([printQuery (threadQuery th).1] ++ ([printQuery (threadQuery th).2] ++ [.call .endAgg])) := rfl
      rw [this, structured_append, structured_append, structured_append, norm_append, norm_append, norm_append, printQuery_calls, printQuery_calls]
      simp only [structured, List.filterMap_cons, List.filterMap_nil, norm, e8]
      rfl
    rw [hq]
    simp only [structured, List.filterMap_cons, List.filterMap_nil, norm, e1, e2, e3, e4, e5, e6, e7, e9, hs, Val.callsObj, Val.calls, Val.callsList, strVal, List.cons_append, List.nil_append, List.append_assoc, List.append_nil]
  · simp only [structured, List.filterMap_cons, List.filterMap_nil, norm, e1, e2, e3, e4, e5, e6, e7, e9, hs, Val.callsObj, Val.calls, Val.callsList, strVal, List.cons_append, List.nil_append, List.append_assoc, List.append_nil]

theorem printFiles_eq (dupe : Int) : ∀ (j : Int) (l : List Str), 1 ≤ j → printFiles dupe j l =
    (if dupe < 0 then l else if dupe < j then [] else (l[(dupe - j).toNat]?).toList).flatMap (fun f => [.call (.string (some f)), .call .separator])
  | j, [], _ => by
    rw [printFiles]
    simp
  | j, f :: l, hj => by
    rw [printFiles, printFiles_eq dupe (j + 1) l (by omega)]
    by_cases h1 : dupe < 0
    · simp only [if_pos h1, if_pos (Or.inl h1), List.flatMap_cons]
    · simp only [if_neg h1]
      by_cases h2 : dupe = j
      · rw [if_pos (Or.inr h2), if_pos (by omega), if_neg (by omega), show (dupe - j).toNat = 0 by omega]
        rfl
      · rw [if_neg (by rintro (h | h) <;> contradiction)]
        by_cases h3 : dupe < j
        · rw [if_pos (by omega), if_pos h3]; rfl
        · rw [if_neg (by omega), if_neg h3, show (dupe - j).toNat = (dupe - (j + 1)).toNat + 1 by omega, List.getElem?_cons_succ]; rfl

theorem printFiles_select (dupe : Int) (l : List Str) : printFiles dupe 1 l = (selectFiles dupe l).flatMap (fun f => [.call (.string (some f)), .call .separator]) := by
  rw [printFiles_eq dupe 1 l (by omega)]
  unfold selectFiles
  congr 1
  by_cases h1 : dupe < 0
  · rw [if_pos h1, if_pos h1]
  · rw [if_neg h1, if_neg h1]
    by_cases h2 : dupe = 0
    · rw [if_pos h2, if_pos (by omega)]
    · rw [if_neg h2, if_neg (by omega), show (dupe - 1).toNat = dupe.toNat - 1 by omega]

theorem strings_calls (l : List Str) : norm (structured (l.flatMap (fun f => [.call (.string (some f)), .call .separator]))) = Val.callsList (l.map strVal) := by
  induction l with
  | nil => rfl
  | cons a l ih => rw [List.flatMap_cons, structured_append, norm_append, ih]; rfl

/-! ## Records -/

theorem records_append (sep : UInt8) (r s : Str) (h : sep ∉ r) : records sep (r ++ [sep] ++ s) = r :: records sep s := by
  induction r with
  | nil => rw [List.nil_append, List.singleton_append, records, if_pos rfl]
  | cons c r ih =>
    rw [List.mem_cons, not_or] at h
    rw [List.cons_append, List.cons_append, records, if_neg (Ne.symm h.1), ih h.2]

theorem records_flatMap (sep : UInt8) (l : List Str) (h : ∀ r ∈ l, sep ∉ r) : records sep (l.flatMap (fun r => r ++ [sep])) = l := by
  induction l with
  | nil => rfl
  | cons r l ih =>
    rw [List.flatMap_cons, records_append sep r _ (h r List.mem_cons_self), ih (fun x hx => h x (List.mem_cons_of_mem _ hx))]

/-! ## Queries for the messages of a thread -/

theorem readQuoted_body (t r : Str) (hr : r = [] ∨ ∃ c r', r = c :: r' ∧ c ≠ 34) : readQuoted (quoteBody t ++ 34 :: r) = some (t, r) := by
  induction t with
  | nil =>
    rcases hr with rfl | ⟨c, r', rfl, hc⟩
    · rfl
    · simp [quoteBody, readQuoted, hc]
  | cons c t ih =>
    rw [quoteBody]
    by_cases hc : c = 34
    · rw [if_pos hc]
      subst hc
      rw [List.cons_append, List.cons_append, readQuoted, if_pos rfl, if_pos rfl, ih]; rfl
    · rw [if_neg hc, List.cons_append]
      cases hq : quoteBody t ++ 34 :: r with
      | nil => simp at hq
      | cons d s => rw [readQuoted, if_neg hc, ← hq, ih]; rfl

theorem readTerm_make (t r : Str) (hr : r = [] ∨ ∃ r', r = 32 :: r') :
    readTerm ((if needQuoting t then 34 :: quoteBody t ++ [34] else t) ++ r) = some (t, r) := by
  have hr34 : r = [] ∨ ∃ c r', r = c :: r' ∧ c ≠ 34 := by
    rcases hr with rfl | ⟨r', rfl⟩
    · exact .inl rfl
    · exact .inr ⟨32, r', rfl, by decide⟩
  by_cases hq : needQuoting t = true
  · rw [if_pos hq, List.append_assoc, List.cons_append, readTerm, if_pos rfl]
    exact readQuoted_body t r hr34
  · rw [if_neg hq]
    unfold needQuoting at hq
    rw [Bool.or_eq_true, not_or, List.any_eq_true] at hq
    cases t with
    | nil => exact absurd rfl hq.1
    | cons c t =>
      have hall : ∀ d ∈ c :: t, (decide (32 < d) && decide (d ≠ 41)) = true ∧ d ≠ 34 := by
        intro d hd
        have : ¬ (Notmuch.StringUtil.isUnquotedTerminator d || d == 34 || d == 40 || decide (d > 127)) = true := fun h => hq.2 ⟨d, hd, h⟩
        revert this
        clear hd
        revert d
        apply forall_byte
        decide +kernel
      have h34 := (hall c List.mem_cons_self).2
      rw [List.cons_append, readTerm, if_neg h34, ← List.cons_append]
      have ht : ∀ (l : Str), (∀ d ∈ l, (decide (32 < d) && decide (d ≠ 41)) = true) →
          (l ++ r).takeWhile (fun c => decide (32 < c) && decide (c ≠ 41)) = l ∧ (l ++ r).dropWhile (fun c => decide (32 < c) && decide (c ≠ 41)) = r := by
        intro l
        induction l with
        | nil =>
          intro _
          rcases hr with rfl | ⟨r', rfl⟩
          · exact ⟨rfl, rfl⟩
          · exact ⟨rfl, rfl⟩
        | cons d l ih =>
          intro h
          have h1 := h d List.mem_cons_self
          obtain ⟨i1, i2⟩ := ih (fun x hx => h x (List.mem_cons_of_mem _ hx))
          rw [List.cons_append, List.takeWhile_cons_of_pos (by exact h1), List.dropWhile_cons_of_pos (by exact h1), i1, i2]
          exact ⟨rfl, rfl⟩
      obtain ⟨h1, h2⟩ := ht (c :: t) (fun d hd => (hall d hd).1)
      rw [h1, h2]

/-- The text for a list of ids. -/
def idText : List Str → Str
  | [] => []
  | [t] => makeBooleanTerm (some (bs "id")) t
  | t :: u :: l => makeBooleanTerm (some (bs "id")) t ++ bs " " ++ idText (u :: l)

theorem idText_concat (l : List Str) (h : l ≠ []) (t : Str) : idText (l ++ [t]) = idText l ++ bs " " ++ makeBooleanTerm (some (bs "id")) t := by
  induction l with
  | nil => exact absurd rfl h
  | cons a l ih =>
    cases l with
    | nil => rfl
    | cons b l =>
      rw [List.cons_append, List.cons_append, idText, ← List.cons_append, ih (by simp), idText]
      simp only [List.append_assoc]

theorem idText_read (l : List Str) (h : l ≠ []) : ∀ n, l.length ≤ n → readIds n (idText l) = some l := by
  have e : bs "id:" = [105, 100, 58] := by decide +kernel
  have e1 : bs "id" = [105, 100] := by decide +kernel
  have e2 : bs " " = [32] := by decide +kernel
  have hm : ∀ t r, ∃ s, makeBooleanTerm (some (bs "id")) t ++ r = bs "id:" ++ s ∧ s = (if needQuoting t then 34 :: quoteBody t ++ [34] else t) ++ r := by
    intro t r
    exact ⟨_, by unfold makeBooleanTerm; rw [e, e1]; simp only [List.append_assoc]; rfl, rfl⟩
  induction l with
  | nil => exact absurd rfl h
  | cons a l ih =>
    intro n hn
    cases n with
    | zero => simp at hn
    | succ n =>
      cases l with
      | nil =>
        obtain ⟨s, h1, h2⟩ := hm a []
        rw [List.append_nil] at h1
        rw [idText, h1, readIds, if_pos (List.isPrefixOf_iff_prefix.mpr (List.prefix_append _ _)), e]
        simp only [List.cons_append, List.nil_append, List.drop_succ_cons, List.drop_zero]
        rw [h2, readTerm_make a [] (.inl rfl)]
      | cons b l =>
        obtain ⟨s, h1, h2⟩ := hm a (32 :: idText (b :: l))
        rw [idText, e2, List.append_assoc, List.singleton_append, h1, readIds, if_pos (List.isPrefixOf_iff_prefix.mpr (List.prefix_append _ _)), e]
        simp only [List.cons_append, List.nil_append, List.drop_succ_cons, List.drop_zero]
        rw [h2, readTerm_make a _ (.inr ⟨_, rfl⟩)]
        simp only [if_true]
        rw [ih (by simp) n (by simp only [List.length_cons] at hn ⊢; omega)]
        rfl

/-- The text, if there are ids. -/
def idBuf (l : List Str) : Option Str := if l = [] then none else some (idText l)

theorem appendId_buf (l : List Str) (t : Str) : appendId (idBuf l) t = idBuf (l ++ [t]) := by
  unfold idBuf
  rw [if_neg (by simp : ¬ l ++ [t] = [])]
  by_cases h : l = []
  · subst h; rfl
  · rw [if_neg h, idText_concat l h]; rfl

theorem threadQuery_buf (th : Thread) : threadQuery th =
    (idBuf ((th.messages.filter (·.isMatch)).map (·.doc.mid)), idBuf ((th.messages.filter (fun m => !m.isMatch)).map (·.doc.mid))) := by
  unfold threadQuery
  have key : ∀ (l : List TMsg) (a b : List Str), l.foldl (fun r m => if m.isMatch then (appendId r.1 m.doc.mid, r.2) else (r.1, appendId r.2 m.doc.mid)) (idBuf a, idBuf b) =
      (idBuf (a ++ (l.filter (·.isMatch)).map (·.doc.mid)), idBuf (b ++ (l.filter (fun m => !m.isMatch)).map (·.doc.mid))) := by
    intro l
    induction l with
    | nil => intro a b; simp
    | cons m l ih =>
      intro a b
      rw [List.foldl_cons]
      cases hm : m.isMatch with
      | true =>
        simp only [if_true, appendId_buf]
        rw [ih]
        simp [hm]
      | false =>
        simp only [Bool.false_eq_true, if_false, appendId_buf]
        rw [ih]
        simp [hm]
  exact key th.messages [] []

/-! ## The query -/

theorem prepare_eq (x : XQuery) (ex : List Str) (o : Opts) : prepare x ex o = theQuery x ex o := by
  have key : ∀ (ex : List Str) (q : Query) (s : SortOrder), ex.foldl (fun q t => (addTagExclude q t).2) { q with sort := s } = { ex.foldl (fun q t => (addTagExclude q t).2) q with sort := s } := by
    intro ex
    induction ex with
    | nil => intro q s; rfl
    | cons t ex ih =>
      intro q s
      rw [List.foldl_cons, List.foldl_cons, ← ih]
      congr 1
      unfold addTagExclude
      by_cases h : tagTerm t ∈ q.terms
      · simp only [if_pos h]
      · simp only [if_neg h]
  unfold prepare theQuery excluded
  by_cases h : o.exclude = .no ∨ (o.exclude = .flag ∧ o.output ≠ .summary)
  · rw [if_pos h]
    have : (if o.exclude = .flag ∧ o.output ≠ .summary then Exclude.no else o.exclude) = .no := by
      rcases h with h | h
      · rw [if_neg (by rw [h]; simp), h]
      · rw [if_pos h]
    simp only [this, ne_eq, not_true_eq_false, if_false]
    rfl
  · rw [not_or] at h
    have hn : ¬ (o.exclude = .no ∨ (o.exclude = .flag ∧ o.output ≠ .summary)) := by rw [not_or]; exact h
    simp only [if_neg h.2, if_neg hn]
    simp only [ne_eq, h.1, not_false_eq_true, if_true]
    rw [key]
    rfl

variable {ord : SortOrder → List Doc → List Doc}

theorem hits_length (ho : Orders ord) (db : List Doc) (q : Query) : (hits ord db q).length ≤ db.length := by
  unfold hits getMset
  split <;> (rw [(ho.perm _ _).length_eq]; exact List.length_filter_le _ _)

theorem firsts_length {α : Type} [DecidableEq α] (l : List α) : (firsts l).length ≤ l.length := by
  induction l with
  | nil => exact Nat.le_refl _
  | cons a l ih =>
    have := List.length_filter_le (fun b => decide (b ≠ a)) (firsts l)
    rw [firsts, List.length_cons, List.length_cons]
    exact Nat.succ_le_succ (Nat.le_trans this ih)

theorem window_loop {α : Type} {db : List Doc} {o : Opts} (hf : Fits db o) (l : List α) (hl : l.length ≤ db.length) (offset : Int)
    (h : offset = if o.offset < 0 then startOffset o.offset l.length else o.offset) :
    messagesLoop offset o.limit 0 l = some (window o.offset o.limit l) := by
  obtain ⟨h1, h2, h3⟩ := hf
  by_cases hn : o.offset < 0
  · rw [if_pos hn, startOffset_spec hn h1 (by omega)] at h
    subst h
    rw [messagesLoop_window (by omega), window_neg l hn]
    unfold NoOverflow
    omega
  · rw [if_neg hn] at h
    subst h
    exact messagesLoop_window (by omega) (by unfold NoOverflow; omega) l

theorem searchThreads_spec (ho : Orders ord) (sortTags : List Str → List Str) (rel : Int → Str) (text : Bool) (db : List Doc) (hdb : GoodDb db) (x : XQuery) (ex : List Str) (o : Opts) (hf : Fits db o) :
    ∃ ths, searchAllThreads ord db (theQuery x ex o) = some ths ∧
      searchThreads ord sortTags rel text db (prepare x ex o) o =
        some ([.call .beginList] ++ (window o.offset o.limit ths).flatMap (printThread sortTags rel text o) ++ [.call .endAgg]) := by
  obtain ⟨ths, h1, h2⟩ := Props.C25_count_threads ho db hdb x (excluded ex o).1 (excluded ex o).2 o.sort o.sort
  have h1' : searchAllThreads ord db (theQuery x ex o) = some ths := h1
  have h2' : countThreads ord db (theQuery x ex o) = some ths.length := h2
  refine ⟨ths, h1', ?_⟩
  have hlen : ths.length ≤ db.length := by
    have := Props.searchAllThreads_eq ho db hdb x (excluded ex o).1 (excluded ex o).2 o.sort
    rw [h1] at this
    rw [Option.some.inj this, List.length_map]
    refine Nat.le_trans (firsts_length _) ?_
    rw [List.length_map]
    exact hits_length ho db _
  rw [prepare_eq]
  unfold searchThreads
  have : (if o.offset < 0 then (countThreads ord db (theQuery x ex o)).map (startOffset o.offset) else some o.offset) =
      some (if o.offset < 0 then startOffset o.offset ths.length else o.offset) := by
    rw [h2']
    split <;> rfl
  rw [this]
  simp only
  unfold searchAllThreads at h1'
  cases ht : Query.searchThreads ord db (theQuery x ex o) with
  | none => rw [ht] at h1'; cases h1'
  | some t =>
    rw [ht, Option.bind_some] at h1'
    simp only
    rw [threadsLoop_eq _ _ _ _ _ _ h1', window_loop hf ths hlen _ rfl]
    rfl

theorem searchMessages_spec' (ho : Orders ord) (filenames : Doc → List Str) (db : List Doc) (hdb : GoodDb db) (x : XQuery) (ex : List Str) (o : Opts) (hf : Fits db o) (hout : o.output ≠ .summary) :
    ∃ ms, Query.searchMessages ord db (theQuery x ex o) = some ms ∧
      searchMessages ord filenames db (prepare x ex o) o =
        some ([.call .beginList] ++ (window o.offset o.limit ms).flatMap (fun m => printMessage filenames o m.1) ++ [.call .endAgg]) := by
  have hmode : (excluded ex o).2 = .yes ∨ (excluded ex o).2 = .all := by
    unfold excluded
    split
    · exact .inl rfl
    · rename_i h
      rw [not_or] at h
      show o.exclude = .yes ∨ o.exclude = .all
      cases he : o.exclude with
      | no => exact absurd he h.1
      | flag => exact absurd ⟨he, hout⟩ h.2
      | yes => exact .inl rfl
      | all => exact .inr rfl
  obtain ⟨ms, h1, h2⟩ := Props.C25_count ho db hdb x (excluded ex o).1 o.sort o.sort (excluded ex o).2 (excluded ex o).2 hmode
  have h1' : Query.searchMessages ord db (theQuery x ex o) = some ms := h1
  have h2' : countMessages db (theQuery x ex o) = ms.length := h2
  have hlen : ms.length ≤ db.length := by
    obtain ⟨f, hs, _⟩ := searchMessages_spec ho hdb x (excluded ex o).1 (excluded ex o).2 o.sort
    rw [h1] at hs
    rw [Option.some.inj hs, List.length_map]
    exact hits_length ho db _
  refine ⟨ms, h1', ?_⟩
  rw [prepare_eq]
  unfold searchMessages
  rw [h1']
  simp only
  rw [h2', window_loop hf ms hlen _ rfl]
  rfl

/-! ## Text -/

theorem text_items {α : Type} (sep : UInt8) (I : Option Str → Prop) (f : α → List TCall) (g : α → Str)
    (h : ∀ p out a, I p → ∃ p', I p' ∧ (f a).foldl (textStep sep) (p, out) = (p', out ++ g a)) (hI : I none) (l : List α) :
    textRun sep ([.call .beginList] ++ l.flatMap f ++ [.call .endAgg]) = l.flatMap g := by
  have key : ∀ (l : List α) (p : Option Str) (out : Str), I p → ∃ p', (l.flatMap f).foldl (textStep sep) (p, out) = (p', out ++ l.flatMap g) := by
    intro l
    induction l with
    | nil => intro p out _; exact ⟨p, by simp⟩
    | cons a l ih =>
      intro p out hp
      obtain ⟨p', hp', e⟩ := h p out a hp
      obtain ⟨p'', e'⟩ := ih p' (out ++ g a) hp'
      exact ⟨p'', by rw [List.flatMap_cons, List.foldl_append, e, e', List.flatMap_cons, List.append_assoc]⟩
  obtain ⟨p, e⟩ := key l none [] hI
  unfold textRun
  rw [List.foldl_append, List.foldl_append]
  have : ([.call .beginList] : List TCall).foldl (textStep sep) (none, []) = (none, []) := rfl
  rw [this, e]
  rfl

theorem cstr_nul (s : Option Str) : 0 ∉ cstr s := by
  cases s with
  | none => simp [cstr]
  | some s =>
    show 0 ∉ s.takeWhile (fun c => decide (c ≠ 0))
    induction s with
    | nil => simp
    | cons c s ih =>
      by_cases hc : c = 0
      · rw [List.takeWhile_cons_of_neg (by simpa using hc)]; simp
      · rw [List.takeWhile_cons_of_pos (by simpa using hc), List.mem_cons, not_or]
        exact ⟨Ne.symm hc, ih⟩

theorem printTags_text (sep : UInt8) : ∀ (l : List Str) (first : Bool) (st : Option Str × Str),
    (printTags true first l).foldl (textStep sep) st = (st.1, st.2 ++ (if first ∨ l = [] then [] else bs " ") ++ (bs " ").intercalate l)
  | [], first, st => by
    rw [printTags, List.foldl_nil, if_pos (Or.inr rfl)]
    simp [List.intercalate]
  | t :: l, first, st => by
    rw [printTags, List.foldl_append, printTags_text sep l false]
    have e : (bs " ").intercalate (t :: l) = t ++ ((if l = [] then [] else bs " ") ++ (bs " ").intercalate l) := by
      cases l with
      | nil => simp [List.intercalate]
      | cons u l => simp [List.intercalate]
    rw [e]
    cases first <;> simp [textStep, List.append_assoc]

theorem printThread_text (sep : UInt8) (sortTags : List Str → List Str) (rel : Int → Str) (o : Opts) (th : Thread) (ho : o.output ≠ .threads) (p : Option Str) (out : Str) :
    (printThread sortTags rel true o th).foldl (textStep sep) (p, out) = (p, out ++ (threadLine sortTags rel o th ++ [sep])) := by
  unfold printThread
  simp only [threadDate_eq]
  rw [if_neg ho]
  simp only [if_true, List.foldl_append, List.foldl_cons, List.foldl_nil, textStep, printTags_text, threadTags, true_or]
  unfold threadLine
  simp only [List.append_assoc, List.nil_append]

theorem printInt_clean (n : Nat) : ∀ c ∈ printInt n, isDigit c = true := by
  intro c hc
  unfold printInt at hc
  rw [if_neg (by omega)] at hc
  exact dec_digits _ c hc

theorem sanitize_clean (s : Str) : (10 : UInt8) ∉ sanitize s := by
  intro h
  unfold sanitize at h
  obtain ⟨c, hm, hc⟩ := List.mem_map.mp h
  revert hc
  clear h hm
  revert c
  apply forall_byte
  decide +kernel

theorem intercalate_clean (l : List Str) (h : ∀ t ∈ l, (10 : UInt8) ∉ t) : (10 : UInt8) ∉ (bs " ").intercalate l := by
  have e : bs " " = [32] := by decide +kernel
  induction l with
  | nil => simp [List.intercalate]
  | cons t l ih =>
    have ih := ih (fun x hx => h x (List.mem_cons_of_mem _ hx))
    cases l with
    | nil => simpa [List.intercalate] using h t List.mem_cons_self
    | cons u l =>
      have : (bs " ").intercalate (t :: u :: l) = t ++ (bs " " ++ (bs " ").intercalate (u :: l)) := by simp [List.intercalate]
      rw [this, List.mem_append, List.mem_append, not_or, not_or, e]
      rw [e] at ih
      exact ⟨h t List.mem_cons_self, by decide, ih⟩

theorem threadLine_clean (sortTags : List Str → List Str) (rel : Int → Str) (o : Opts) (th : Thread) (h1 : (10 : UInt8) ∉ th.threadId)
    (h2 : (10 : UInt8) ∉ rel (shownDate o.sort th)) (h3 : ∀ t ∈ sortTags th.tags, (10 : UInt8) ∉ t) : (10 : UInt8) ∉ threadLine sortTags rel o th := by
  have hd : ∀ n : Nat, (10 : UInt8) ∉ printInt n := fun n h => by
    have := printInt_clean n 10 h
    revert this; decide
  have hp : (10 : UInt8) ∉ pad12 (rel (shownDate o.sort th)) := by
    unfold pad12
    rw [List.mem_append, not_or]
    exact ⟨fun h => by have := List.eq_of_mem_replicate h; revert this; decide, h2⟩
  have hb : (10 : UInt8) ∉ bs "thread:" ∧ (10 : UInt8) ∉ bs " " ∧ (10 : UInt8) ∉ bs "[" ∧ (10 : UInt8) ∉ bs "/" ∧ (10 : UInt8) ∉ bs "] " ∧
    (10 : UInt8) ∉ bs "; " ∧ (10 : UInt8) ∉ bs " (" ∧ (10 : UInt8) ∉ bs "(" ∧ (10 : UInt8) ∉ bs ")" := by
    refine ⟨?_, ?_, ?_, ?_, ?_, ?_, ?_, ?_, ?_⟩ <;> decide +kernel
  have hif : (10 : UInt8) ∉ (if th.totalMessages = th.totalFiles then [] else bs "(" ++ printInt th.totalFiles ++ bs ")") := by
    split
    · simp
    · rw [List.mem_append, List.mem_append, not_or, not_or]
      exact ⟨⟨hb.2.2.2.2.2.2.2.1, hd _⟩, hb.2.2.2.2.2.2.2.2⟩
  unfold threadLine
  simp only [List.mem_append, not_or]
  exact ⟨⟨⟨⟨⟨⟨⟨⟨⟨⟨⟨⟨⟨⟨⟨⟨hb.1, h1⟩, hb.2.1⟩, hp⟩, hb.2.1⟩, hb.2.2.1⟩, hd _⟩, hb.2.2.2.1⟩, hd _⟩, hif⟩, hb.2.2.2.2.1⟩, sanitize_clean _⟩, hb.2.2.2.2.2.1⟩, sanitize_clean _⟩,
    hb.2.2.2.2.2.2.1⟩, intercalate_clean _ h3⟩, hb.2.2.2.2.2.2.2.2⟩

/-! ## Tags -/

theorem foldl_addTag (l : List Str) : ∀ (h : List Str), h.Nodup → (l.foldl addTag h).Nodup ∧ ∀ t, t ∈ l.foldl addTag h ↔ t ∈ h ∨ t ∈ l := by
  induction l with
  | nil => intro h hn; exact ⟨hn, by simp⟩
  | cons a l ih =>
    intro h hn
    rw [List.foldl_cons]
    have hn' : (addTag h a).Nodup := by
      unfold addTag
      split
      · exact hn
      · rename_i hni
        rw [List.nodup_append]
        refine ⟨hn, by simp, ?_⟩
        rintro b hb c hc rfl
        rw [List.mem_singleton] at hc
        exact hni (hc ▸ hb)
    have hm : ∀ t, t ∈ addTag h a ↔ t ∈ h ∨ t = a := by
      intro t
      unfold addTag
      split
      · rename_i hin
        constructor
        · exact .inl
        · rintro (h | rfl)
          · exact h
          · exact hin
      · simp
    obtain ⟨i1, i2⟩ := ih _ hn'
    refine ⟨i1, fun t => ?_⟩
    rw [i2, hm, List.mem_cons, or_assoc]

theorem collectTags_spec {sortTags : List Str → List Str} (hst : TermList.SortsTags sortTags) (ms : List (Doc × Bool)) :
    TermList.Sorted (collectTags sortTags ms) ∧ ∀ t, t ∈ collectTags sortTags ms ↔ ∃ m ∈ ms, t ∈ tags m.1 := by
  have key : ∀ (ms : List (Doc × Bool)) (h : List Str), h.Nodup → (ms.foldl (fun h m => (tags m.1).foldl addTag h) h).Nodup ∧
      ∀ t, t ∈ ms.foldl (fun h m => (tags m.1).foldl addTag h) h ↔ t ∈ h ∨ ∃ m ∈ ms, t ∈ tags m.1 := by
    intro ms
    induction ms with
    | nil => intro h hn; exact ⟨hn, by simp⟩
    | cons m ms ih =>
      intro h hn
      obtain ⟨a1, a2⟩ := foldl_addTag (tags m.1) h hn
      obtain ⟨i1, i2⟩ := ih _ a1
      refine ⟨i1, fun t => ?_⟩
      rw [List.foldl_cons, i2, a2]
      simp [or_assoc]
  obtain ⟨k1, k2⟩ := key ms [] List.nodup_nil
  unfold collectTags
  refine ⟨?_, fun t => by rw [(hst.perm _).mem_iff, k2]; simp⟩
  have hnd := (hst.perm (ms.foldl (fun h m => (tags m.1).foldl addTag h) [])).nodup_iff.mpr k1
  have hs := hst.sorted (ms.foldl (fun h m => (tags m.1).foldl addTag h) [])
  unfold TermList.Sorted
  refine List.Pairwise.imp ?_ (hs.and hnd)
  rintro a b ⟨h1, h2⟩
  cases hc : StringMap.strcmp a b with
  | lt => rfl
  | eq => exact absurd ((TermList.eq_iff a b).mp hc) h2
  | gt => exact absurd hc h1

end Notmuch.Search
