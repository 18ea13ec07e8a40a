import Verif.Proofs.Search
import Verif.Props.Sprinter

/-!
# C46: what `notmuch search` prints

What the threads and messages of a query are is C23 and C25 (for `theQuery`).
-/

namespace Notmuch.Props

open Notmuch.Search Notmuch.Query Notmuch.QuerySpec Notmuch.Sprinter
open Notmuch.TermList (SortsTags Sorted)

variable {ord : SortOrder → List Doc → List Doc} (ho : Orders ord) (sortTags : List Str → List Str) (rel : Int → Str) (filenames : Doc → List Str) (allterms : List Str) (star : Bool)

include ho

/-- **C46 (summary, JSON).**  `notmuch search --format=json` prints a JSON text for the list of the threads that the offset and the limit ask for, in the order of
the search, whatever is in them: a negative offset counts from the end of the list that would be printed without offset and limit. -/
theorem C46_summary_json (db : List Doc) (hdb : GoodDb db) (x : XQuery) (ex : List Str) (o : Opts) (hout : o.output = .summary) (hd : o.dupe = -1) (hf : Fits db o) :
    ∃ ths cs st, searchAllThreads ord db (theQuery x ex o) = some ths ∧ search ord sortTags rel filenames allterms star false db x ex o = some cs ∧
      Json.run start (structured cs) = some st ∧ IsJson st.out (.list ((window o.offset o.limit ths).map (threadVal sortTags rel o))) := by
  obtain ⟨ths, h1, h2⟩ := searchThreads_spec ho sortTags rel false db hdb x ex o hf
  have hs : search ord sortTags rel filenames allterms star false db x ex o = searchThreads ord sortTags rel false db (prepare x ex o) o := by
    unfold search
    rw [if_neg (by rintro ⟨_, _, h⟩; exact h hd), hout]
  obtain ⟨st, r1, _, r2⟩ := C40_json _ _ (items_calls _ (fun th => [threadVal sortTags rel o th]) (fun th => printThread_calls sortTags rel o th (by rw [hout]; decide)) (window o.offset o.limit ths))
  refine ⟨ths, _, st, h1, hs.trans h2, r1, ?_⟩
  have e : ∀ l : List Thread, l.flatMap (fun th => [threadVal sortTags rel o th]) = l.map (threadVal sortTags rel o) := by
    intro l; induction l with
    | nil => rfl
    | cons a l ih => rw [List.flatMap_cons, ih]; rfl
  rw [e] at r2
  exact r2

/-- **C46 (summary, text).**  The text output has exactly one line for each of these threads, in this order, whatever is in the subjects and
the names of the authors. -/
theorem C46_summary_text (db : List Doc) (hdb : GoodDb db) (x : XQuery) (ex : List Str) (o : Opts) (hout : o.output = .summary) (hd : o.dupe = -1) (hf : Fits db o)
    (hrel : ∀ i, (10 : UInt8) ∉ rel i) :
    ∃ ths cs, searchAllThreads ord db (theQuery x ex o) = some ths ∧ search ord sortTags rel filenames allterms star true db x ex o = some cs ∧
      ((∀ th ∈ ths, (10 : UInt8) ∉ th.threadId ∧ ∀ t ∈ sortTags th.tags, (10 : UInt8) ∉ t) →
        records 10 (textRun 10 cs) = (window o.offset o.limit ths).map (threadLine sortTags rel o)) := by
  obtain ⟨ths, h1, h2⟩ := searchThreads_spec ho sortTags rel true db hdb x ex o hf
  have hs : search ord sortTags rel filenames allterms star true db x ex o = searchThreads ord sortTags rel true db (prepare x ex o) o := by
    unfold search
    rw [if_neg (by rintro ⟨_, _, h⟩; exact h hd), hout]
  refine ⟨ths, _, h1, hs.trans h2, fun hc => ?_⟩
  rw [text_items 10 (fun _ => True) _ (fun th => threadLine sortTags rel o th ++ [10])
    (fun p out th _ => ⟨p, trivial, printThread_text 10 sortTags rel o th (by rw [hout]; decide) p out⟩) trivial, ← List.flatMap_map (f := threadLine sortTags rel o) (g := fun r => r ++ [10])]
  refine records_flatMap 10 _ ?_
  intro r hr
  obtain ⟨th, hth, rfl⟩ := List.mem_map.mp hr
  have hm : th ∈ ths := by
    unfold window at hth
    split at hth <;> split at hth
    · exact List.mem_of_mem_drop hth
    · exact List.mem_of_mem_drop (List.mem_of_mem_take hth)
    · exact List.mem_of_mem_drop hth
    · exact List.mem_of_mem_drop (List.mem_of_mem_take hth)
  exact threadLine_clean sortTags rel o th (hc th hm).1 (hrel _) (hc th hm).2

/-- **C46 (threads).**  `--output=threads`: the ids of these threads, in JSON, and in text with the prefix `thread:`, one in each record. -/
theorem C46_threads (text : Bool) (sep : UInt8) (db : List Doc) (hdb : GoodDb db) (x : XQuery) (ex : List Str) (o : Opts) (hout : o.output = .threads) (hd : o.dupe = -1) (hf : Fits db o) :
    ∃ ths cs st, searchAllThreads ord db (theQuery x ex o) = some ths ∧ search ord sortTags rel filenames allterms star text db x ex o = some cs ∧
      Json.run start (structured cs) = some st ∧ IsJson st.out (.list ((window o.offset o.limit ths).map (fun th => strVal th.threadId))) ∧
      ((∀ r ∈ (window o.offset o.limit ths).map (fun th => bs "thread:" ++ cstr (some th.threadId)), sep ∉ r) →
        records sep (textRun sep cs) = (window o.offset o.limit ths).map (fun th => bs "thread:" ++ cstr (some th.threadId))) := by
  obtain ⟨ths, h1, h2⟩ := searchThreads_spec ho sortTags rel text db hdb x ex o hf
  have hs : search ord sortTags rel filenames allterms star text db x ex o = searchThreads ord sortTags rel text db (prepare x ex o) o := by
    unfold search
    rw [if_neg (by rintro ⟨_, _, h⟩; exact h hd), hout]
  have hp : ∀ th, printThread sortTags rel text o th = [.setPrefix (bs "thread"), .call (.string (some th.threadId)), .call .separator] := by
    intro th; unfold printThread; rw [if_pos hout]
  have hp' : printThread sortTags rel text o = fun th => [.setPrefix (bs "thread"), .call (.string (some th.threadId)), .call .separator] := funext hp
  rw [hp'] at h2
  obtain ⟨st, r1, _, r2⟩ := C40_json _ _ (items_calls (fun th : Thread => [.setPrefix (bs "thread"), .call (.string (some th.threadId)), .call .separator])
    (fun th => [strVal th.threadId]) (fun th => rfl) (window o.offset o.limit ths))
  refine ⟨ths, _, st, h1, hs.trans h2, r1, ?_, fun hc => ?_⟩
  · have e : ∀ l : List Thread, l.flatMap (fun th => [strVal th.threadId]) = l.map (fun th => strVal th.threadId) := by
      intro l; induction l with
      | nil => rfl
      | cons a l ih => rw [List.flatMap_cons, ih]; rfl
    rw [e] at r2
    exact r2
  · rw [text_items sep (fun _ => True) _ (fun th : Thread => (bs "thread:" ++ cstr (some th.threadId)) ++ [sep])
      (fun p out th _ => ⟨some (bs "thread"), trivial, by
        have e : bs "thread:" = bs "thread" ++ bs ":" := by decide +kernel
        simp only [List.foldl_cons, List.foldl_nil, textStep, textPrefix, e, List.append_assoc]⟩) trivial,
      ← List.flatMap_map (f := fun th : Thread => bs "thread:" ++ cstr (some th.threadId)) (g := fun r => r ++ [sep])]
    exact records_flatMap sep _ hc

/-- **C46 (messages).**  `--output=messages`: the ids of the messages in the window that have as many files as `--duplicate` says, in JSON, and in
text with the prefix `id:`, one in each record. -/
theorem C46_messages (text : Bool) (sep : UInt8) (db : List Doc) (hdb : GoodDb db) (x : XQuery) (ex : List Str) (o : Opts) (hout : o.output = .messages) (hf : Fits db o) :
    ∃ ms cs st l, Query.searchMessages ord db (theQuery x ex o) = some ms ∧ search ord sortTags rel filenames allterms star text db x ex o = some cs ∧
      l = ((window o.offset o.limit ms).filter (fun m => decide (o.dupe ≤ 1 ∨ o.dupe ≤ (filenames m.1).length))).map (fun m => m.1.mid) ∧
      Json.run start (structured cs) = some st ∧ IsJson st.out (.list (l.map strVal)) ∧
      ((∀ i ∈ l, sep ∉ bs "id:" ++ cstr (some i)) → records sep (textRun sep cs) = l.map (fun i => bs "id:" ++ cstr (some i))) := by
  obtain ⟨ms, h1, h2⟩ := searchMessages_spec' ho filenames db hdb x ex o hf (by rw [hout]; decide)
  have hs : search ord sortTags rel filenames allterms star text db x ex o = Search.searchMessages ord filenames db (prepare x ex o) o := by
    unfold search
    rw [if_neg (by rintro ⟨_, h, _⟩; exact h hout), hout]
  have hp : ∀ l : List (Doc × Bool), l.flatMap (fun m => printMessage filenames o m.1) =
      ((l.filter (fun m => decide (o.dupe ≤ 1 ∨ o.dupe ≤ (filenames m.1).length))).map (fun m => m.1.mid)).flatMap
        (fun i => [.setPrefix (bs "id"), .call (.string (some i)), .call .separator]) := by
    intro l
    induction l with
    | nil => rfl
    | cons m l ih =>
      rw [List.flatMap_cons, ih]
      unfold printMessage
      rw [if_neg (by rw [hout]; decide)]
      by_cases h : o.dupe ≤ 1 ∨ o.dupe ≤ (filenames m.1).length
      · rw [if_pos h, List.filter_cons_of_pos (by simpa using h), List.map_cons, List.flatMap_cons]
      · rw [if_neg h, List.filter_cons_of_neg (by simpa using h)]; rfl
  rw [hp] at h2
  obtain ⟨st, r1, _, r2⟩ := C40_json _ _ (items_calls (fun i : Str => [.setPrefix (bs "id"), .call (.string (some i)), .call .separator])
    (fun i => [strVal i]) (fun i => rfl) (((window o.offset o.limit ms).filter (fun m => decide (o.dupe ≤ 1 ∨ o.dupe ≤ (filenames m.1).length))).map (fun m => m.1.mid)))
  refine ⟨ms, _, st, _, h1, hs.trans h2, rfl, r1, ?_, fun hc => ?_⟩
  · have e : ∀ l : List Str, l.flatMap (fun i => [strVal i]) = l.map strVal := by
      intro l; induction l with
      | nil => rfl
      | cons a l ih => rw [List.flatMap_cons, ih]; rfl
    rw [e] at r2
    exact r2
  · rw [text_items sep (fun _ => True) _ (fun i : Str => (bs "id:" ++ cstr (some i)) ++ [sep])
      (fun p out th _ => ⟨some (bs "id"), trivial, by
        have e : bs "id:" = bs "id" ++ bs ":" := by decide +kernel
        simp only [List.foldl_cons, List.foldl_nil, textStep, textPrefix, e, List.append_assoc]⟩) trivial,
      ← List.flatMap_map (f := fun i : Str => bs "id:" ++ cstr (some i)) (g := fun r => r ++ [sep])]
    refine records_flatMap sep _ ?_
    intro r hr
    obtain ⟨i, hi, rfl⟩ := List.mem_map.mp hr
    exact hc i hi

/-- **C46 (files).**  `--output=files`: the names of the files of the messages in the window, or of each the one that `--duplicate` says, in JSON, and in
text one in each record; with `--format=text0` (`sep` 0) whatever the names are. -/
theorem C46_files (text : Bool) (sep : UInt8) (db : List Doc) (hdb : GoodDb db) (x : XQuery) (ex : List Str) (o : Opts) (hout : o.output = .files) (hf : Fits db o) :
    ∃ ms cs st l, Query.searchMessages ord db (theQuery x ex o) = some ms ∧ search ord sortTags rel filenames allterms star text db x ex o = some cs ∧
      l = (window o.offset o.limit ms).flatMap (fun m => selectFiles o.dupe (filenames m.1)) ∧
      Json.run start (structured cs) = some st ∧ IsJson st.out (.list (l.map strVal)) ∧
      (sep = 0 ∨ (∀ f ∈ l, sep ∉ cstr (some f)) → records sep (textRun sep cs) = l.map (fun f => cstr (some f))) := by
  obtain ⟨ms, h1, h2⟩ := searchMessages_spec' ho filenames db hdb x ex o hf (by rw [hout]; decide)
  have hs : search ord sortTags rel filenames allterms star text db x ex o = Search.searchMessages ord filenames db (prepare x ex o) o := by
    unfold search
    rw [if_neg (by rintro ⟨h, _⟩; exact h hout), hout]
  have hp : ∀ l : List (Doc × Bool), l.flatMap (fun m => printMessage filenames o m.1) =
      (l.flatMap (fun m => selectFiles o.dupe (filenames m.1))).flatMap (fun f => [.call (.string (some f)), .call .separator]) := by
    intro l
    induction l with
    | nil => rfl
    | cons m l ih =>
      rw [List.flatMap_cons, ih, List.flatMap_cons, List.flatMap_append]
      unfold printMessage
      rw [if_pos hout, printFiles_select]
  rw [hp] at h2
  obtain ⟨st, r1, _, r2⟩ := C40_json _ _ (items_calls (fun i : Str => [.call (.string (some i)), .call .separator])
    (fun i => [strVal i]) (fun i => rfl) ((window o.offset o.limit ms).flatMap (fun m => selectFiles o.dupe (filenames m.1))))
  refine ⟨ms, _, st, _, h1, hs.trans h2, rfl, r1, ?_, fun hc => ?_⟩
  · have e : ∀ l : List Str, l.flatMap (fun i => [strVal i]) = l.map strVal := by
      intro l; induction l with
      | nil => rfl
      | cons a l ih => rw [List.flatMap_cons, ih]; rfl
    rw [e] at r2
    exact r2
  · rw [text_items sep (fun p => p = none) _ (fun i : Str => cstr (some i) ++ [sep])
      (fun p out th hp => ⟨none, rfl, by
        subst hp
        simp only [List.foldl_cons, List.foldl_nil, textStep, textPrefix, List.append_assoc, List.nil_append]⟩) rfl,
      ← List.flatMap_map (f := fun i : Str => cstr (some i)) (g := fun r => r ++ [sep])]
    refine records_flatMap sep _ ?_
    intro r hr
    obtain ⟨i, hi, rfl⟩ := List.mem_map.mp hr
    rcases hc with rfl | hc
    · exact cstr_nul _
    · exact hc i hi

/-- **C46 (tags).**  `--output=tags`: each tag of the messages of the search, once, in order. -/
theorem C46_tags (hst : SortsTags sortTags) (text : Bool) (db : List Doc) (hdb : GoodDb db) (x : XQuery) (ex : List Str) (o : Opts) (hout : o.output = .tags) (hd : o.dupe = -1) :
    ∃ ms cs st l, Query.searchMessages ord db (theQuery x ex o) = some ms ∧ search ord sortTags rel filenames allterms false text db x ex o = some cs ∧
      Sorted l ∧ (∀ t, t ∈ l ↔ ∃ m ∈ ms, t ∈ tags m.1) ∧
      Json.run start (structured cs) = some st ∧ IsJson st.out (.list (l.map strVal)) := by
  obtain ⟨f, h1, _⟩ := searchMessages_spec ho hdb x (excluded ex o).1 (excluded ex o).2 o.sort
  have h1' : Query.searchMessages ord db (theQuery x ex o) = _ := h1
  have hs : search ord sortTags rel filenames allterms false text db x ex o = searchTags ord sortTags allterms false db (prepare x ex o) := by
    unfold search
    rw [if_neg (by rintro ⟨_, _, h⟩; exact h hd), hout]
  rw [prepare_eq] at hs
  unfold searchTags at hs
  rw [h1'] at hs
  simp only [Bool.false_eq_true, if_false, Option.map_some] at hs
  obtain ⟨c1, c2⟩ := collectTags_spec hst ((hits ord db (build x (excluded ex o).1 (excluded ex o).2 o.sort)).map (fun d => (d, f d)))
  obtain ⟨st, r1, _, r2⟩ := C40_json _ _ (items_calls (fun i : Str => [.call (.string (some i)), .call .separator])
    (fun i => [strVal i]) (fun i => rfl) (collectTags sortTags ((hits ord db (build x (excluded ex o).1 (excluded ex o).2 o.sort)).map (fun d => (d, f d)))))
  refine ⟨_, _, st, _, h1', hs, c1, c2, r1, ?_⟩
  have e : ∀ l : List Str, l.flatMap (fun i => [strVal i]) = l.map strVal := by
    intro l; induction l with
    | nil => rfl
    | cons a l ih => rw [List.flatMap_cons, ih]; rfl
  rw [e] at r2
  exact r2

omit ho in
/-- **C46 (query).**  The two queries printed with a thread name exactly its matched and its other messages: each is null if there is none, and otherwise reads as their
ids, whatever bytes are in these. -/
theorem C46_query (th : Thread) :
    ((threadQuery th).1 = none ↔ ∀ m ∈ th.messages, m.isMatch = false) ∧ ((threadQuery th).2 = none ↔ ∀ m ∈ th.messages, m.isMatch = true) ∧
    (∀ s, (threadQuery th).1 = some s → readIds th.messages.length s = some ((th.messages.filter (·.isMatch)).map (·.doc.mid))) ∧
    (∀ s, (threadQuery th).2 = some s → readIds th.messages.length s = some ((th.messages.filter (fun m => !m.isMatch)).map (·.doc.mid))) := by
  rw [threadQuery_buf]
  have hn : ∀ l, idBuf l = none ↔ l = [] := by
    intro l; unfold idBuf; split <;> simp_all
  have hr : ∀ l s n, idBuf l = some s → l.length ≤ n → readIds n s = some l := by
    intro l s n h hle
    unfold idBuf at h
    split at h
    · cases h
    · rename_i hne
      cases h
      exact idText_read l hne n hle
  refine ⟨?_, ?_, ?_, ?_⟩
  · simp only [hn, List.map_eq_nil_iff, List.filter_eq_nil_iff, Bool.not_eq_true]
  · simp only [hn, List.map_eq_nil_iff, List.filter_eq_nil_iff, Bool.not_eq_true, Bool.not_eq_false']
  · intro s h
    exact hr _ s _ h (by rw [List.length_map]; exact List.length_filter_le _ _)
  · intro s h
    exact hr _ s _ h (by rw [List.length_map]; exact List.length_filter_le _ _)

omit ho in
/-- **C46 (pages).**  Pages of whatever size, one after the other, are the whole list: nothing is printed twice or skipped. -/
theorem C46_pages {α : Type} (l : List α) (n k : Nat) : ((List.range k).flatMap (fun i => window ((n * i : Nat) : Int) (n : Int) l)) = l.take (n * k) := by
  induction k with
  | zero => simp
  | succ k ih =>
    rw [List.range_succ, List.flatMap_append, ih, List.flatMap_cons, List.flatMap_nil, List.append_nil]
    unfold window
    rw [if_neg (by omega : ¬ ((n * k : Nat) : Int) < 0), if_neg (by omega : ¬ (n : Int) < 0), Int.toNat_natCast, Int.toNat_natCast, Nat.mul_succ]
    exact (List.take_add (i := n * k) (j := n)).symm

omit ho in
/-- **C46 (overflow), a counterexample.**  With an offset and a limit whose sum is larger than the largest `int`, the command computes an overflowing sum. -/
theorem C46_counterexample_overflow {α : Type} (a : α) (l : List α) (offset limit : Int) (h0 : 0 ≤ limit) (h : offset + limit > 2147483647) :
    messagesLoop offset limit 0 (a :: l) = none := by
  rw [messagesLoop]
  unfold below
  rw [if_neg (by omega), if_pos h]

/-- A database with a message that is excluded and has a tag that no other has. -/
def sDb : List Doc := [qDoc 1 (bs "1") 10 [bs "spam", bs "x"], qDoc 2 (bs "1") 20 [bs "y"], qDoc 3 (bs "2") 30 []]

omit ho in
/-- **C46 (tags of `*`), a counterexample.**  Asked for the tags of `*`, the command prints those of excluded messages too; asked for those of another query that
matches every message, it does not. -/
theorem C46_counterexample_star :
    searchTags (fun _ l => l) id [bs "Kspam", bs "Kx", bs "Ky"] true sDb (theQuery (.leaf (fun _ => true)) [bs "spam"] ⟨.tags, .yes, .unsorted, 0, -1, -1, 5⟩) =
      some ([.call .beginList] ++ [bs "spam", bs "x", bs "y"].flatMap (fun t => [.call (.string (some t)), .call .separator]) ++ [.call .endAgg]) ∧
    searchTags (fun _ l => l) id [bs "Kspam", bs "Kx", bs "Ky"] false sDb (theQuery (.leaf (fun _ => true)) [bs "spam"] ⟨.tags, .yes, .unsorted, 0, -1, -1, 5⟩) =
      some ([.call .beginList] ++ [bs "y"].flatMap (fun t => [.call (.string (some t)), .call .separator]) ++ [.call .endAgg]) := by
  refine ⟨?_, ?_⟩ <;> decide +kernel

omit ho in
/-- **C46 (lines), a counterexample.**  A tag with a newline breaks the line of its thread. -/
theorem C46_counterexample_tag :
    (records 10 (textRun 10 ([.call .beginList] ++ [(⟨bs "1", some [], [], [], [bs "a\nb"], [], 1, 1, 1, 0, 0⟩ : Thread)].flatMap (printThread id (fun _ => bs "now") true ⟨.summary, .yes, .unsorted, 0, -1, -1, 5⟩) ++ [.call .endAgg]))).length = 2 := by
  decide +kernel

omit ho in
/-- **C46 (`--duplicate=0`), a remark.**  It prints all messages, but no files. -/
theorem C46_remark_duplicate (filenames : Doc → List Str) (d : Doc) (o : Opts) (hd : o.dupe = 0) :
    (o.output = .messages → printMessage filenames o d ≠ []) ∧ (o.output = .files → printMessage filenames o d = []) := by
  constructor
  · intro h
    unfold printMessage
    rw [if_neg (by rw [h]; decide), if_pos (Or.inl (by omega))]
    simp
  · intro h
    unfold printMessage
    rw [if_pos h, printFiles_select, hd]
    rfl

omit ho in
theorem C46_example : Fits sDb ⟨.summary, .yes, .newestFirst, -2, 1, -1, 5⟩ ∧
    (search qOrd id (fun _ => bs "now") (fun _ => []) [] false true sDb (.leaf (fun _ => true)) [bs "spam"] ⟨.summary, .yes, .newestFirst, -1, -1, -1, 5⟩).map (textRun 10) =
      some (bs "thread:1          now [1/2] a; hi (spam x y)\n") ∧
    window (-2) 1 [1, 2, 3, 4] = [3] ∧
    (search qOrd id (fun _ => bs "now") (fun d => if d.id = 2 then [bs "a\nb", bs "c"] else []) [] false true sDb (.leaf (fun _ => true)) [bs "spam"] ⟨.files, .yes, .newestFirst, 0, -1, -1, 5⟩).map (textRun 0) =
      some (bs "a\nb" ++ [0] ++ bs "c" ++ [0]) := by
  refine ⟨?_, ?_, ?_, ?_⟩
  · unfold Fits; decide +kernel
  · decide +kernel
  · decide +kernel
  · decide +kernel

end Notmuch.Props
