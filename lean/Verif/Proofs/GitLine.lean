import Verif.Proofs.GitText

/-! # notmuch-git: reading the dump -/

namespace Notmuch.GitProof
open Notmuch.Git Notmuch.StringUtil Notmuch.TagUtil Notmuch.DumpRestore

theorem dropWhile_concat {p : UInt8 → Bool} (u : Str) {c : UInt8} (hc : p c = false) : (u ++ [c]).dropWhile p = u.dropWhile p ++ [c] := by
  induction u with
  | nil => simp [hc]
  | cons d u ih =>
    simp only [List.cons_append, List.dropWhile_cons]
    split
    · exact ih
    · rfl

theorem strip_head {s r : Str} {c : UInt8} (h : s.dropWhile pySpace = c :: r) : (strip s).head? = some c := by
  have hc : pySpace c = false := dropWhile_head _ _ _ _ h
  unfold strip
  rw [h, List.reverse_cons, dropWhile_concat _ hc]
  simp

theorem strip_ends {s t : Str} (hh : ∀ c, s.head? = some c → pySpace c = false) (hl : ∀ c, s.getLast? = some c → pySpace c = false)
    (ht : ∀ c ∈ t, pySpace c = true) : strip (s ++ t) = s := by
  unfold strip
  cases s with
  | nil =>
    rw [List.nil_append, dropWhile_eq_nil_of _ _ ht]; rfl
  | cons a s =>
    have ha := hh a rfl
    rw [List.cons_append, dropWhile_cons_neg _ _ _ ha, ← List.cons_append, List.reverse_append,
      dropWhile_append_all _ _ _ (fun c hc => ht c (by simpa using hc))]
    rw [dropWhile_eq_self_of_head, List.reverse_reverse]
    intro c hc
    rw [List.head?_reverse] at hc
    exact hl c hc

theorem encode_not_space (t : Str) : ∀ c ∈ Hex.encode t, pySpace c = false := by
  intro c hc
  have := Hex.encode_safe t c hc
  clear hc
  revert this; revert c
  apply forall_byte; unfold HexSpec.SafeChar; decide +kernel

theorem encode_not_break (t : Str) : ∀ c ∈ Hex.encode t, isBreak c = false := by
  intro c hc
  have := Hex.encode_safe t c hc
  clear hc
  revert this; revert c
  apply forall_byte; unfold HexSpec.SafeChar; decide +kernel

/-- The bytes of the tags of a line. -/
theorem dumpTagWords_mem (tags : List Str) (f : Bool) : ∀ c ∈ dumpTagWords tags f, c = 32 ∨ c = 43 ∨ (isBreak c = false ∧ pySpace c = false) := by
  induction tags generalizing f with
  | nil => intro c hc; simp [dumpTagWords] at hc
  | cons t ts ih =>
    intro c hc
    unfold dumpTagWords at hc
    simp only [List.append_assoc, List.mem_append] at hc
    rcases hc with hc | hc | hc | hc
    · cases f <;> simp [bs] at hc; exact Or.inl hc
    · simp [bs] at hc; exact Or.inr (Or.inl hc)
    · exact Or.inr (Or.inr ⟨encode_not_break t c hc, encode_not_space t c hc⟩)
    · exact ih false c hc

theorem dumpTagWords_false (tags : List Str) : dumpTagWords tags false = [] ∨ ∃ r, dumpTagWords tags false = 32 :: 43 :: r := by
  cases tags with
  | nil => exact Or.inl rfl
  | cons t ts => exact Or.inr ⟨_, rfl⟩

/-- A blank is followed by a plus sign. -/
theorem dumpTagWords_blank (tags : List Str) (f : Bool) (u v : Str) (h : dumpTagWords tags f = u ++ 32 :: v) : v.head? = some 43 := by
  induction tags generalizing f u with
  | nil => simp [dumpTagWords] at h
  | cons t ts ih =>
    have key : ∀ (w x : Str), (∀ c ∈ w, c ≠ 32) → w ++ dumpTagWords ts false = x ++ 32 :: v → v.head? = some 43 := by
      intro w
      induction w with
      | nil => intro x _ e; exact ih false x e
      | cons c w ihw =>
        intro x hw e
        cases x with
        | nil =>
          simp only [List.cons_append, List.nil_append, List.cons.injEq] at e
          exact absurd e.1 (hw c (by simp))
        | cons y x =>
          simp only [List.cons_append, List.cons.injEq] at e
          exact ihw x (fun z hz => hw z (by simp [hz])) e.2
    have hw : ∀ c ∈ bs "+" ++ Hex.encode t, c ≠ 32 := by
      intro c hc e
      subst e
      simp only [List.mem_append] at hc
      rcases hc with hc | hc
      · revert hc; decide +kernel
      · exact absurd (encode_not_space t 32 hc) (by decide)
    unfold dumpTagWords at h
    cases f with
    | true =>
      simp only [if_true, List.nil_append] at h
      exact key _ u hw h
    | false =>
      simp only [Bool.false_eq_true, if_false, List.append_assoc] at h
      cases u with
      | nil =>
        simp only [bs, String.toList, List.nil_append] at h
        have h' := h
        change (32 : UInt8) :: (43 :: (Hex.encode t ++ dumpTagWords ts false)) = 32 :: v at h'
        simp only [List.cons.injEq, true_and] at h'
        rw [← h']; rfl
      | cons x u =>
        change (32 : UInt8) :: (bs "+" ++ (Hex.encode t ++ dumpTagWords ts false)) = x :: (u ++ 32 :: v) at h
        simp only [List.cons.injEq] at h
        exact key _ u hw (by rw [List.append_assoc]; exact h.2)

/-- The words are the signed, encoded tags. -/
theorem words_tags (tags : List Str) : words (dumpTagWords tags true) = tags.map (fun t => 43 :: Hex.encode t) := by
  have aux : ∀ (ts : List Str) (w : Str), (∀ c ∈ w, pySpace c = false) →
      pieces pySpace (w ++ dumpTagWords ts false) = w :: ts.map (fun t => 43 :: Hex.encode t) := by
    intro ts
    induction ts with
    | nil => intro w hw; simp only [dumpTagWords, List.append_nil, List.map_nil]; exact pieces_one hw
    | cons t ts ih =>
      intro w hw
      have e : dumpTagWords (t :: ts) false = 32 :: ((43 :: Hex.encode t) ++ dumpTagWords ts false) := by
        simp only [dumpTagWords, Bool.false_eq_true, if_false, List.append_assoc]
        rfl
      rw [e, pieces_cons hw (by decide), ih]
      · rfl
      · intro c hc
        simp only [List.mem_cons] at hc
        rcases hc with rfl | hc
        · decide
        · exact encode_not_space t c hc
  unfold words
  cases tags with
  | nil => rfl
  | cons t ts =>
    have e : dumpTagWords (t :: ts) true = (43 :: Hex.encode t) ++ dumpTagWords ts false := by
      simp only [dumpTagWords, if_true, List.nil_append, List.append_assoc]
      rfl
    rw [e, aux]
    · have : ∀ (l : List Str), (l.map (fun t => (43 : UInt8) :: Hex.encode t)).filter (fun w => !w.isEmpty) = l.map (fun t => 43 :: Hex.encode t) := by
        intro l
        rw [List.filter_eq_self]
        intro a ha
        simp only [List.mem_map] at ha
        obtain ⟨x, _, rfl⟩ := ha
        rfl
      exact this (t :: ts)
    · intro c hc
      simp only [List.mem_cons] at hc
      rcases hc with rfl | hc
      · decide
      · exact encode_not_space t c hc

/-- The tags with the prefix, without it. -/
def suffixes (p : Str) (tags : List Str) : List Str := (tags.filter (fun t => p.isPrefixOf t)).map (fun t => t.drop p.length)

theorem mem_suffixes {p : Str} {tags : List Str} {s : Str} : s ∈ suffixes p tags ↔ p ++ s ∈ tags := by
  unfold suffixes
  simp only [List.mem_map, List.mem_filter, List.isPrefixOf_iff_prefix]
  constructor
  · rintro ⟨t, ⟨h, r, rfl⟩, rfl⟩
    simpa using h
  · intro h
    exact ⟨p ++ s, ⟨h, List.prefix_append _ _⟩, by simp⟩

theorem lineTags_dump (p : Str) (hp : 126 ∉ p) (tags : List Str) :
    lineTags (43 :: encodedPrefix p) (dumpTagWords tags true) = suffixes p tags := by
  unfold lineTags suffixes
  rw [words_tags, encodedPrefix_eq p hp]
  induction tags with
  | nil => rfl
  | cons t ts ih =>
    simp only [List.map_cons, List.filter_cons, List.isPrefixOf_cons₂, beq_self_eq_true, Bool.true_and, encode_prefix]
    split
    · rename_i h
      simp only [List.map_cons]
      rw [ih]
      congr 1
      obtain ⟨r, rfl⟩ := List.isPrefixOf_iff_prefix.mp h
      rw [encode_append]
      simp only [List.length_cons, List.drop_succ_cons, List.drop_left]
      have := unquote_encode r []
      rw [List.append_nil] at this
      rw [this]; simp [unquote]
    · exact ih

theorem term_ends (id : Str) (c : UInt8) (h : (makeBooleanTerm none id).head? = some c ∨ (makeBooleanTerm none id).getLast? = some c) : pySpace c = false := by
  unfold makeBooleanTerm at h
  simp only [List.nil_append] at h
  split at h
  · rcases h with h | h
    · simp at h; subst h; decide
    · rw [List.getLast?_concat] at h; simp at h; subst h; decide
  · rename_i hq
    have hb := (needQuoting_bare id (by simpa using hq)).1
    have hm : c ∈ id := by
      rcases h with h | h
      · exact List.mem_of_head? h
      · exact List.mem_of_getLast? h
    have := (hb c hm).1
    clear h hm hb hq
    revert this; revert c
    apply forall_byte; decide +kernel

/-- The text of a line of the dump. -/
theorem dumpTags_eq (m : DumpRestore.Msg) (h : 10 ∉ m.id) :
    dumpTags m = dumpTagWords m.tags true ++ (idSep ++ (makeBooleanTerm none m.id ++ [10])) := by
  unfold dumpTags
  rw [if_neg h]
  unfold makeBooleanTerm
  simp only [List.append_assoc, List.nil_append]
  congr 1

theorem readable_break {id : Str} (h : GitSpec.ReadableId id) : ∀ c ∈ id, isBreak c = false := by
  intro c hc
  have := h.1 c hc
  clear hc
  revert this; revert c
  apply forall_byte; decide +kernel

/-- **Reading one line**: the id, and the tags with the prefix. -/
theorem readLine_message (p : Str) (hp : 126 ∉ p) (m : DumpRestore.Msg) (h : GitSpec.ReadableId m.id) :
    readLine (43 :: encodedPrefix p) (dumpTags m) = .message (suffixes p m.tags) m.id := by
  have h10 : 10 ∉ m.id := fun hc => absurd (readable_break h 10 hc) (by decide)
  rw [dumpTags_eq m h10]
  unfold readLine
  have hb := dumpTagWords_blank m.tags true
  have hT : ∀ c, (dumpTagWords m.tags true).head? = some c → c = 43 := by
    intro c hc
    cases ht : m.tags with
    | nil => rw [ht] at hc; simp [dumpTagWords] at hc
    | cons t ts =>
      rw [ht] at hc
      simp only [dumpTagWords, if_true, List.nil_append] at hc
      change (43 :: _ : Str).head? = some c at hc
      simpa using hc.symm
  rw [if_neg]
  · rw [splitSep_first _ _ hb, splitSep_none _ (sep_term h.2)]
    simp only [List.map_cons, List.map_nil]
    have e1 : strip (dumpTagWords m.tags true) = dumpTagWords m.tags true := by
      have := strip_ends (s := dumpTagWords m.tags true) (t := []) ?_ ?_ (by simp)
      · simpa using this
      · intro c hc; rw [hT c hc]; decide
      · intro c hc
        rcases dumpTagWords_mem m.tags true c (List.mem_of_getLast? hc) with rfl | rfl | hh
        · obtain ⟨u, hu⟩ : ∃ u, dumpTagWords m.tags true = u ++ [32] := by
            rw [List.getLast?_eq_some_iff] at hc; exact hc
          have := hb u [] hu
          simp at this
        · decide
        · exact hh.2
    have e2 : strip (makeBooleanTerm none m.id ++ [10]) = makeBooleanTerm none m.id :=
      strip_ends (fun c hc => term_ends m.id c (Or.inl hc)) (fun c hc => term_ends m.id c (Or.inr hc)) (by decide +kernel)
    rw [e1, e2, lineTags_dump p hp, xapianUnquote_term]
  · intro hh
    have : ∃ c r, (dumpTagWords m.tags true ++ (idSep ++ (makeBooleanTerm none m.id ++ [10]))).dropWhile pySpace = c :: r ∧ c ≠ 35 := by
      cases e : dumpTagWords m.tags true with
      | nil => exact ⟨45, _, rfl, by decide⟩
      | cons c r =>
        have hc := hT c (by rw [e]; rfl)
        subst hc
        exact ⟨43, _, rfl, by decide⟩
    obtain ⟨c, r, e, hc⟩ := this
    rw [strip_head e] at hh
    exact hc (by simpa using hh)

/-- A line of the dump that begins with a number sign. -/
theorem readLine_comment (pre l : Str) : readLine pre (35 :: l) = .comment := by
  unfold readLine
  rw [if_pos]
  exact strip_head (r := l) (dropWhile_cons_neg _ _ _ (by decide))

end Notmuch.GitProof
