import Verif.Proofs.SearchTag

/-! C91: tagging from the search results in Emacs. -/
namespace Notmuch.Props
open Notmuch.SearchTag Notmuch.SearchTag.Spec

/-- The tags shown for the threads whose lines overlap the region become what the changes make of them, each line drawn anew for its result; the other lines
stay as they are, and so do number and order of the lines. -/
theorem C91_tags (draw : Result → Nat) (upd : List String → List String) (lines ls : List Line) (point pt b e : Nat) (om : Bool) (q : String)
    (hbe : b ≤ e) (h : searchTag draw upd lines point b e om = some (q, ls, pt)) :
    ls.length = lines.length ∧
    ∀ i l, lines[i]? = some l →
      (Touched lines b e i → ∃ l', ls[i]? = some l' ∧ l'.result = { l.result with tags := upd l.result.tags } ∧ l'.width = draw l'.result) ∧
      (¬ Touched lines b e i → ls[i]? = some l) := by
  unfold searchTag at h
  split at h
  · cases h
  · obtain ⟨h1, h2, _⟩ := SearchTag.Proofs.foreach_spec (SearchTag.Proofs.update_good (α := Unit) (setTags draw upd))
      { lines := lines, mark := 0, point := point, out := () } b e hbe
    simp only [Option.some.injEq, Prod.mk.injEq] at h
    obtain ⟨_, rfl, _⟩ := h
    exact ⟨h1, fun i l hl => ⟨fun ht => ⟨_, (h2 i l hl).1 ht, rfl, rfl⟩, (h2 i l hl).2⟩⟩

/-- The query of the change: in parentheses, joined by "or", exactly the stable queries of the threads whose lines overlap the region — those of the matched
messages, and of the others unless only matched ones are asked for.  It is an error when there is no such query, and then nothing is drawn. -/
theorem C91_query (draw : Result → Nat) (upd : List String → List String) (lines : List Line) (point b e : Nat) (om : Bool) (hbe : b ≤ e) :
    ∃ qs : List String,
      (∀ q, q ∈ qs ↔ ∃ i l, lines[i]? = some l ∧ Touched lines b e i ∧
        (l.result.matched = some q ∨ (om = false ∧ l.result.unmatched = some q))) ∧
      (searchTag draw upd lines point b e om).map (·.1) = if qs = [] then none else some ("(" ++ String.intercalate ") or (" qs ++ ")") := by
  refine ⟨queryList lines b e om, fun q => SearchTag.Proofs.mem_queryList lines b e om hbe q, ?_⟩
  unfold searchTag stableQuery
  cases hq : queryList lines b e om with
  | nil => simp
  | cons a qs => simp

/-- Point stays on the line where it was, whatever lines are drawn anew before, at or after it. -/
theorem C91_place (draw : Result → Nat) (upd : List String → List String) (lines ls : List Line) (point pt b e i : Nat) (om : Bool) (q : String)
    (h : searchTag draw upd lines point b e om = some (q, ls, pt)) (hp : OnLine lines point i) : OnLine ls pt i := by
  unfold searchTag at h
  split at h
  · cases h
  · simp only [Option.some.injEq, Prod.mk.injEq] at h
    obtain ⟨_, rfl, rfl⟩ := h
    exact SearchTag.Proofs.foreach_onLine (setTags draw upd) i b e { lines := lines, mark := 0, point := point, out := () } hp

/-- With no region it is the thread whose line has point, and no other. -/
theorem C91_point (lines : List Line) (p i j : Nat) (hi : i < lines.length) (hp : OnLine lines p i) : Touched lines p p j ↔ j = i := by
  obtain ⟨h1, h2, h3⟩ := hp
  have h3 := h3 hi
  rw [SearchTag.Proofs.touched_iff _ _ _ _ (Nat.le_refl _)]
  constructor
  · rintro ⟨h4, h5, h6⟩
    rcases Nat.lt_trichotomy j i with h | h | h
    · have := SearchTag.Proofs.start_mono lines (j + 1) i (by omega); omega
    · exact h
    · have := SearchTag.Proofs.start_mono lines (i + 1) j (by omega); omega
  · rintro rfl
    exact ⟨hi, h3, by omega⟩

/-- Archiving the thread at point: only its tags change, and point is then at the beginning of the next line. -/
theorem C91_archive (draw : Result → Nat) (upd : List String → List String) (lines ls : List Line) (point pt i : Nat) (q : String)
    (hi : i < lines.length) (hp : OnLine lines point i) (h : archive draw upd lines point = some (q, ls, pt)) :
    pt = start ls (i + 1) ∧ ls.length = lines.length ∧
    (∃ l', ls[i]? = some l' ∧ l'.result = { (lines[i]).result with tags := upd (lines[i]).result.tags }) ∧
    ∀ j, j ≠ i → ls[j]? = lines[j]? := by
  unfold archive at h
  cases hs : searchTag draw upd lines point point point false with
  | none => rw [hs] at h; cases h
  | some r =>
    obtain ⟨q', ls', p'⟩ := r
    rw [hs] at h
    simp only [Option.map_some, Option.some.injEq, Prod.mk.injEq] at h
    obtain ⟨rfl, rfl, rfl⟩ := h
    obtain ⟨h1, h2⟩ := C91_tags draw upd lines ls' point p' point point false q' (Nat.le_refl _) hs
    have h3 := C91_place draw upd lines ls' point p' point point i false q' hs hp
    refine ⟨SearchTag.Proofs.nextThread_onLine ls' p' i (by omega) h3, h1, ?_, ?_⟩
    · obtain ⟨l', e1, e2, _⟩ := (h2 i lines[i] (List.getElem?_eq_getElem hi)).1 ((C91_point lines point i i hi hp).2 rfl)
      exact ⟨l', e1, e2⟩
    · intro j hj
      cases hl : lines[j]? with
      | none =>
        rw [List.getElem?_eq_none_iff] at hl ⊢
        omega
      | some l => exact (h2 j l hl).2 (fun ht => hj ((C91_point lines point i j hi hp).1 ht))

/-- Tagging all: every line is drawn anew with its new tags, and the query is that of all matched messages and of no others. -/
theorem C91_all (draw : Result → Nat) (upd : List String → List String) (lines ls : List Line) (tail point pt : Nat) (q : String)
    (h : tagAll draw upd lines tail point = some (q, ls, pt)) :
    ls.map (·.result) = lines.map (fun l => { l.result with tags := upd l.result.tags }) ∧
    ∃ qs : List String, (∀ m, m ∈ qs ↔ ∃ l, l ∈ lines ∧ l.result.matched = some m) ∧ q = "(" ++ String.intercalate ") or (" qs ++ ")" := by
  have hT : ∀ i, i < lines.length → Touched lines 0 ((lines.map Line.size).sum + tail) i := by
    intro i hi
    rw [SearchTag.Proofs.touched_iff _ _ _ _ (Nat.zero_le _)]
    have h1 := SearchTag.Proofs.start_lt lines i hi
    have h2 := SearchTag.Proofs.start_mono lines (i + 1) lines.length (by omega)
    rw [SearchTag.Proofs.start_length, SearchTag.Proofs.total] at h2
    exact ⟨hi, by omega, by omega⟩
  unfold tagAll at h
  obtain ⟨h1, h2⟩ := C91_tags _ _ _ _ _ _ _ _ _ _ (Nat.zero_le _) h
  refine ⟨?_, ?_⟩
  · apply List.ext_getElem?
    intro i
    rw [List.getElem?_map, List.getElem?_map]
    cases hl : lines[i]? with
    | none =>
      rw [List.getElem?_eq_none_iff] at hl
      rw [List.getElem?_eq_none_iff.2 (by omega)]; rfl
    | some l =>
      obtain ⟨l', e1, e2, _⟩ := (h2 i l hl).1 (hT i (List.getElem?_eq_some_iff.1 hl).1)
      rw [e1]; simp [e2]
  · obtain ⟨qs, e1, e2⟩ := C91_query draw upd lines point 0 ((lines.map Line.size).sum + tail) true (Nat.zero_le _)
    refine ⟨qs, fun m => ?_, ?_⟩
    · rw [e1]
      constructor
      · rintro ⟨i, l, a, _, c⟩; exact ⟨l, List.mem_of_getElem? a, by simpa using c⟩
      · rintro ⟨l, a, c⟩
        obtain ⟨i, hi⟩ := List.getElem?_of_mem a
        exact ⟨i, l, hi, hT i (List.getElem?_eq_some_iff.1 hi).1, Or.inl c⟩
    · rw [h] at e2
      by_cases hq : qs = []
      · rw [if_pos hq] at e2; cases e2
      · rw [if_neg hq] at e2; simpa using e2

/-- The tags offered for removal are those of the threads whose lines overlap the region. -/
theorem C91_offered (lines : List Line) (b e : Nat) (hbe : b ≤ e) (t : String) :
    t ∈ tagsRegion lines b e ↔ ∃ i l, lines[i]? = some l ∧ Touched lines b e i ∧ t ∈ l.result.tags :=
  SearchTag.Proofs.mem_tagsRegion lines b e hbe t

/-- The command for the next thread goes to the beginning of the next line; after the results it does not move. -/
theorem C91_next (lines : List Line) (p i : Nat) (hp : OnLine lines p i) :
    nextThread lines p = if i < lines.length then start lines (i + 1) else p := by
  split
  · rename_i hi; exact SearchTag.Proofs.nextThread_onLine lines p i hi hp
  · rename_i hi
    have h1 : start lines lines.length ≤ p := by
      have := hp.2.1; have h2 := hp.1
      rwa [show i = lines.length by omega] at this
    rw [SearchTag.Proofs.start_length] at h1
    rw [nextThread, SearchTag.Proofs.resultEnd_none _ _ h1]

/-- The command for the previous thread goes to the beginning of the line if point is further on, else to that of the line before; from after the results to
the last one. -/
theorem C91_previous (lines : List Line) (p i : Nat) (hp : OnLine lines p i) (hn : lines ≠ []) :
    previousThread lines p =
      if i < lines.length ∧ start lines i < p then start lines i else start lines (i - 1) := by
  exact SearchTag.Proofs.previousThread_onLine lines p i hp hn

def c91Lines : List Line :=
  [⟨⟨"1", some "id:a", none, ["inbox"]⟩, 3⟩, ⟨⟨"2", some "id:b", some "id:c", ["inbox", "unread"]⟩, 2⟩, ⟨⟨"3", some "id:d", none, ["inbox"]⟩, 4⟩]

/-- A region from the middle of the first line into the second; lines get shorter; point, at the end of the second line, stays on it.  And archiving. -/
theorem C91_example :
    searchTag (fun r => r.tags.length) (fun t => t.filter (· ≠ "inbox")) c91Lines 6 2 5 false =
      some ("(id:a) or (id:c) or (id:b)",
        [⟨⟨"1", some "id:a", none, []⟩, 0⟩, ⟨⟨"2", some "id:b", some "id:c", ["unread"]⟩, 1⟩, ⟨⟨"3", some "id:d", none, ["inbox"]⟩, 4⟩], 2) ∧
    OnLine c91Lines 6 1 ∧ Touched c91Lines 2 5 0 ∧ Touched c91Lines 2 5 1 ∧ ¬ Touched c91Lines 2 5 2 ∧
    (archive (fun r => r.tags.length) (fun t => t.filter (· ≠ "inbox")) c91Lines 5).map (·.2.2) = some 6 ∧
    (tagAll (fun r => r.tags.length) id c91Lines 20 0).map (·.1) = some "(id:a) or (id:b) or (id:d)" := by
  refine ⟨by decide +kernel, ⟨by decide +kernel, by decide +kernel, fun _ => by decide +kernel⟩, ?_, ?_, ?_, by decide +kernel, by decide +kernel⟩
  · rw [SearchTag.Proofs.touched_iff _ _ _ _ (by decide)]; decide +kernel
  · rw [SearchTag.Proofs.touched_iff _ _ _ _ (by decide)]; decide +kernel
  · rw [SearchTag.Proofs.touched_iff _ _ _ _ (by decide)]; decide +kernel

/-- After the results there is nothing to tag. -/
theorem C91_nothing_counterexample : searchTag (fun _ => 0) id c91Lines 13 13 20 false = none := by decide +kernel

end Notmuch.Props
