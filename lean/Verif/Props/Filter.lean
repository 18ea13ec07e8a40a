import Verif.Proofs.FilterDiscard

/-!
# C42: what the text filters keep

The text of a part goes through these filters in pieces, when it is indexed (lib/index.cc) and when it is quoted in a reply
(gmime-filter-reply.c).
-/

namespace Notmuch.Props

open Notmuch.Filter

/-! ## What is indexed -/

/-- The text of an HTML part without its tags: of each tag only the `<` is left, whatever the pieces in which it comes.  Quotes within a tag
may contain `>`.  A tag that is not finished is dropped too. -/
theorem C42_html (pieces : List Str) (t0 last : Str) (l : List (Str × Str)) (h : HtmlParts pieces.flatten t0 l last) :
    ∃ e, discardAll (discardNew true) 0 pieces = some (e, t0 ++ l.flatMap (fun x => 60 :: x.2) ++ last.take 1) := by
  obtain ⟨e, he, _⟩ := html_parts h
  exact ⟨e, by rw [discardAll_flatten]; exact he⟩

/-- Every text is made of such parts. -/
theorem C42_html_total (s : Str) : ∃ t0 l last, HtmlParts s t0 l last := html_has_parts s

/-- And the parts that are kept are determined. -/
theorem C42_html_unique (s t0 last t0' last' : Str) (l l' : List (Str × Str)) (h : HtmlParts s t0 l last) (h' : HtmlParts s t0' l' last') :
    t0 = t0' ∧ l.map (·.2) = l'.map (·.2) ∧ (last = [] ↔ last' = []) := by
  obtain ⟨e, he, hz⟩ := html_parts h
  obtain ⟨e', he', hz'⟩ := html_parts h'
  rw [he] at he'
  have hpair := Option.some.inj he'
  have he2 : e = e' := congrArg Prod.fst hpair
  have hlast : last = [] ↔ last' = [] := by rw [← hz, ← hz', he2]
  have htake : last.take 1 = last'.take 1 := by
    rcases h.rest with hl | ⟨b, r, _, hl, _⟩
    · rw [hl, hlast.mp hl]
    · rcases h'.rest with hl' | ⟨b', r', _, hl', _⟩
      · rw [hlast.mpr hl', hl']
      · rw [hl, hl']; rfl
  have hout := congrArg Prod.snd hpair
  simp only [htake] at hout
  have hout := List.append_cancel_right hout
  have key : ∀ (l l' : List (Str × Str)) (t t' : Str), 60 ∉ t → 60 ∉ t' → (∀ x ∈ l, 60 ∉ x.2) → (∀ x ∈ l', 60 ∉ x.2) →
      t ++ l.flatMap (fun x => 60 :: x.2) = t' ++ l'.flatMap (fun x => 60 :: x.2) → t = t' ∧ l.map (·.2) = l'.map (·.2) := by
    intro l
    induction l with
    | nil =>
      intro l' t t' ht _ _ _ e
      cases l' with
      | nil => simpa using e
      | cons x l' =>
        exfalso
        apply ht
        simp only [List.flatMap_nil, List.append_nil] at e
        rw [e]; simp
    | cons x l ih =>
      intro l' t t' ht ht' hl hl' e
      cases l' with
      | nil =>
        exfalso
        apply ht'
        simp only [List.flatMap_nil, List.append_nil] at e
        rw [← e]; simp
      | cons y l' =>
        simp only [List.flatMap_cons, List.cons_append] at e
        have : ∀ (t t' a b : Str), 60 ∉ t → 60 ∉ t' → t ++ 60 :: a = t' ++ 60 :: b → t = t' ∧ a = b := by
          intro t
          induction t with
          | nil =>
            intro t' a b _ h2 e
            cases t' with
            | nil => simpa using e
            | cons c t' =>
              simp only [List.nil_append, List.cons_append, List.cons.injEq] at e
              exact absurd (e.1 ▸ List.mem_cons_self) h2
          | cons c t ih =>
            intro t' a b h1 h2 e
            cases t' with
            | nil =>
              simp only [List.nil_append, List.cons_append, List.cons.injEq] at e
              exact absurd (e.1 ▸ List.mem_cons_self) h1
            | cons c' t' =>
              simp only [List.cons_append, List.cons.injEq] at e
              have := ih t' a b (fun m => h1 (List.mem_cons_of_mem _ m)) (fun m => h2 (List.mem_cons_of_mem _ m)) e.2
              exact ⟨by rw [e.1, this.1], this.2⟩
        have h2 := this t t' _ _ ht ht' e
        have h3 := ih l' x.2 y.2 (hl x List.mem_cons_self) (hl' y List.mem_cons_self)
          (fun z hz => hl z (List.mem_cons_of_mem _ hz)) (fun z hz => hl' z (List.mem_cons_of_mem _ hz)) h2.2
        exact ⟨h2.1, by simp [h3.1, h3.2]⟩
  have := key l l' t0 t0' h.text h'.text (fun x hx => (h.tags x hx).2) (fun x hx => (h'.tags x hx).2) hout
  exact ⟨this.1, this.2, hlast⟩

/-- Text that has no uuencoded file is indexed as it is. -/
theorem C42_text (pieces : List Str) (h : ¬ ∃ b, Begin b ∧ b <:+: pieces.flatten) :
    ∃ e, discardAll (discardNew false) 0 pieces = some (e, pieces.flatten) := by
  obtain ⟨e, _, _, hd⟩ := uu_no_begin h
  exact ⟨e, by rw [discardAll_flatten]; exact hd⟩

/-- What is dropped follows a begin line: lines of data, and one character. -/
theorem C42_uuencode (pieces : List Str) :
    ∃ l last e, UuParts pieces.flatten l last ∧ discardAll (discardNew false) 0 pieces = some (e, l.flatMap (·.1) ++ last) := by
  rw [discardAll_flatten]
  show ∃ l last e, UuParts pieces.flatten l last ∧ discard uuencode 11 0 pieces.flatten = _
  generalize pieces.flatten = s
  generalize hn : s.length = n
  induction n using Nat.strongRecOn generalizing s with
  | _ n ih =>
    rcases uu_scan s 0 [] (by decide) trivial with ⟨e, _, _, hd⟩ | ⟨a, y, b, rfl, ha, hb, hs, hd⟩
    · exact ⟨[], s, e, ⟨by simp, by simp⟩, by simpa using hd⟩
    · have hlen : 0 < a.length := List.length_pos_iff.mpr ha
      obtain ⟨ls, rest, hls, rfl, hr⟩ := uu_lines y
      rw [discard_app hd, discard_app (uu_datas ls hls)]
      rcases hr with rfl | ⟨d, hd', rfl⟩ | ⟨c, r, hc, rfl⟩
      · refine ⟨[(a, ls.flatten ++ [])], [], 11, ⟨?_, by simp⟩, by simp [Filter.discard]⟩
        intro x hx
        simp only [List.mem_cons, List.not_mem_nil, or_false] at hx
        subst hx
        exact ⟨⟨b, hb, by simpa using hs⟩, ls, [], hls, rfl, .inl rfl⟩
      · refine ⟨[(a, ls.flatten ++ 77 :: d)], [], 12, ⟨?_, by simp⟩, ?_⟩
        · intro x hx
          simp only [List.mem_cons, List.not_mem_nil, or_false] at hx
          subst hx
          exact ⟨⟨b, hb, by simpa using hs⟩, ls, _, hls, rfl, .inr (.inl ⟨d, hd', rfl⟩)⟩
        · rw [discard_cons (uuNext_eq 11 (by decide) 77), show uuNext 11 77 = 12 from rfl, uu_12 d hd']
          simp
      · obtain ⟨l, last, e, hp, ho⟩ := ih r.length (by subst hn; simp; omega) r rfl
        rw [uu_after hc, ho]
        refine ⟨(a, ls.flatten ++ [c]) :: l, last, e, ⟨?_, ?_⟩, by simp⟩
        · intro x hx
          rcases List.mem_cons.mp hx with rfl | hx
          · exact ⟨⟨b, hb, by simpa using hs⟩, ls, [c], hls, rfl, .inr (.inr ⟨c, hc, rfl⟩)⟩
          · exact hp.parts x hx
        · rw [hp.eq]; simp

/-- A uuencoded file that starts with a line is not indexed: its begin line is, and what follows its lines of data and one more character. -/
theorem C42_uuencode_found (pieces : List Str) (x b : Str) (ls : List Str) (c : UInt8) (r : Str) (hx : x = [] ∨ ∃ x', x = x' ++ [10])
    (hno : ¬ ∃ b', Begin b' ∧ b' <:+: x) (hb : Begin b) (hls : ∀ m ∈ ls, DataLine m) (hc : c ≠ 77)
    (h : pieces.flatten = x ++ b ++ ls.flatten ++ c :: r) :
    ∃ e out, discardAll (discardNew false) 0 [r] = some (e, out) ∧ discardAll (discardNew false) 0 pieces = some (e, x ++ b ++ out) := by
  rw [discardAll_flatten, discardAll_flatten, h]
  show ∃ e out, discard uuencode 11 0 [r].flatten = _ ∧ discard uuencode 11 0 _ = _
  have h0 : discard uuencode 11 0 x = some (0, x) := by
    rcases hx with rfl | ⟨x', rfl⟩
    · rfl
    · exact uu_line_end hno
  obtain ⟨l, last, e, _, ho⟩ := C42_uuencode [r]
  rw [discardAll_flatten] at ho
  replace ho : discard uuencode 11 0 [r].flatten = _ := ho
  refine ⟨e, _, ho, ?_⟩
  rw [List.append_assoc, List.append_assoc, discard_app h0, discard_app (uu_begin hb), discard_app (uu_datas ls hls), uu_after hc]
  rw [show [r].flatten = r by simp] at ho
  rw [ho]
  simp

/-- The file may also be the end of the text. -/
theorem C42_uuencode_end (pieces : List Str) (x b : Str) (ls : List Str) (t : Str) (hx : x = [] ∨ ∃ x', x = x' ++ [10])
    (hno : ¬ ∃ b', Begin b' ∧ b' <:+: x) (hb : Begin b) (hls : ∀ m ∈ ls, DataLine m) (ht : t = [] ∨ ∃ d, (∀ x ∈ d, 32 ≤ x ∧ x ≤ 96) ∧ t = 77 :: d)
    (h : pieces.flatten = x ++ b ++ ls.flatten ++ t) : ∃ e, discardAll (discardNew false) 0 pieces = some (e, x ++ b) := by
  rw [discardAll_flatten, h]
  show ∃ e, discard uuencode 11 0 _ = _
  have h0 : discard uuencode 11 0 x = some (0, x) := by
    rcases hx with rfl | ⟨x', rfl⟩
    · rfl
    · exact uu_line_end hno
  rw [List.append_assoc, List.append_assoc, discard_app h0, discard_app (uu_begin hb), discard_app (uu_datas ls hls)]
  rcases ht with rfl | ⟨d, hd, rfl⟩
  · exact ⟨11, by simp [Filter.discard]⟩
  · rw [discard_cons (uuNext_eq 11 (by decide) 77), show uuNext 11 77 = 12 from rfl, uu_12 d hd]
    exact ⟨12, by simp⟩

/-- The filter always ends and never writes more than it reads (it reserves that much). -/
theorem C42_discard_size (isHtml : Bool) (pieces : List Str) :
    ∃ e out, discardAll (discardNew isHtml) 0 pieces = some (e, out) ∧ out.length ≤ pieces.flatten.length := by
  cases isHtml
  · obtain ⟨l, last, e, _, h⟩ := C42_uuencode pieces
    exact ⟨e, _, h, by rw [discardAll_flatten] at h; exact discard_length _ _ _ _ _ _ h⟩
  · obtain ⟨t0, l, last, h⟩ := html_has_parts pieces.flatten
    obtain ⟨e, h⟩ := C42_html pieces t0 last l h
    exact ⟨e, _, h, by rw [discardAll_flatten] at h; exact discard_length _ _ _ _ _ _ h⟩

/-- Counterexample: a letter that says `begin 644 of` on a line loses the first letter of the next line, although there is no file. -/
theorem C42_counterexample_first_letter :
    discardAll (discardNew false) 0 [bs "begin 100 of them\nHello"] = some (0, bs "begin 100 of them\nello") := by decide +kernel

/-- Counterexample: the line need not begin with `begin`. -/
theorem C42_counterexample_middle :
    discardAll (discardNew false) 0 [bs "We begin 100 of them\nMY FILES\nMINE\n."] = some (0, bs "We begin 100 of them\n") := by decide +kernel

/-- Counterexample: where the scan fails it does not look at the character again, and a begin line may be missed within a line. -/
theorem C42_counterexample_missed :
    discardAll (discardNew false) 0 [bs "bbegin 644 f\nM0000\n"] = some (0, bs "bbegin 644 f\nM0000\n") := by decide +kernel

/-! ## Quoting in a reply -/

/-- A text is quoted line by line: `> `, and the line without its carriage returns. -/
theorem C42_quote (pieces : List Str) :
    (quoteAll true pieces).2 = (linesOf pieces.flatten).flatMap (fun l => bs "> " ++ l.filter (· ≠ 13)) := by
  rw [quoteAll_flatten]; exact (quote_lines _).1

/-- The lines are the text, and a line end is at the end of a line only. -/
theorem C42_lines (s : Str) : (linesOf s).flatten = s ∧ (∀ l ∈ linesOf s, l ≠ [] ∧ 10 ∉ l.dropLast) ∧ ∀ l ∈ (linesOf s).dropLast, l.getLast? = some 10 := by
  induction s with
  | nil => exact ⟨rfl, by simp [linesOf], by simp [linesOf]⟩
  | cons c s ih =>
    obtain ⟨h1, h2, h3⟩ := ih
    rw [linesOf_cons]
    by_cases hc : c = 10
    · subst hc
      rw [if_pos rfl]
      refine ⟨by simp [h1], ?_, ?_⟩
      · intro l hl
        rcases List.mem_cons.mp hl with rfl | hl
        · simp
        · exact h2 l hl
      · intro l hl
        cases hs : linesOf s with
        | nil => rw [hs] at hl; simp at hl
        | cons a t =>
          rw [hs] at hl h3
          rw [List.dropLast_cons_of_ne_nil (by simp)] at hl
          rcases List.mem_cons.mp hl with rfl | hl
          · rfl
          · exact h3 l hl
    · rw [if_neg hc]
      cases hs : linesOf s with
      | nil => rw [hs] at h1; simp at h1; subst h1; simp
      | cons a t =>
        rw [hs] at h1 h2 h3
        have ha := h2 a List.mem_cons_self
        refine ⟨by simpa using h1, ?_, ?_⟩
        · intro l hl
          rcases List.mem_cons.mp hl with rfl | hl
          · refine ⟨by simp, ?_⟩
            rw [List.dropLast_cons_of_ne_nil ha.1]
            simp [ha.2, Ne.symm hc]
          · exact h2 l (List.mem_cons_of_mem _ hl)
        · intro l hl
          cases t with
          | nil => simp at hl
          | cons b t =>
            rw [List.dropLast_cons_of_ne_nil (by simp)] at hl h3
            rcases List.mem_cons.mp hl with rfl | hl
            · have := h3 a List.mem_cons_self
              rw [List.getLast?_cons_of_ne_nil ha.1]
              exact this
            · exact h3 l (List.mem_cons_of_mem _ hl)

/-- What was quoted comes back when the quotes are taken away, without its carriage returns. -/
theorem C42_unquote (pieces pieces' : List Str) (h : pieces'.flatten = (quoteAll true pieces).2) :
    (unquoteAll ⟨true, false⟩ pieces').2 = pieces.flatten.filter (· ≠ 13) := by
  rw [unquoteAll_flatten, h, quoteAll_flatten]; exact unquote_quote _ _

/-- Within the buffers: three times the length for quoting, and the length for taking quotes away. -/
theorem C42_quote_size (nl : Bool) (st : Unq) (piece : Str) : (quote nl piece).2.length ≤ 3 * piece.length ∧ (unquote st piece).2.length ≤ piece.length :=
  ⟨quote_length _ _, unquote_length _ _⟩

/-- Counterexample: with an empty line the next quote is not taken away. -/
theorem C42_counterexample_unquote : (unquoteAll ⟨true, false⟩ [bs "\n> b\n> c\n"]).2 = bs "\n> b\nc\n" := by decide +kernel

/-! ## The hypotheses can be met -/

example : HtmlParts (bs "a<b x='>'>c<i") (bs "a") [(bs "<b x='>'>", bs "c")] (bs "<i") := by
  have e1 : InTag (bs "b x='>'") := by
    rw [show bs "b x='>'" = 98 :: 32 :: 120 :: 61 :: 39 :: ([62] ++ 39 :: []) by decide +kernel]
    exact .char _ _ (by decide) (by decide) (by decide) (.char _ _ (by decide) (by decide) (by decide) (.char _ _ (by decide) (by decide) (by decide)
      (.char _ _ (by decide) (by decide) (by decide) (.single [62] [] (by decide) .nil))))
  refine ⟨by decide +kernel, ?_, .inr ?_, by decide +kernel⟩
  · intro x hx
    simp only [List.mem_cons, List.not_mem_nil, or_false] at hx
    subst hx
    exact ⟨⟨_, e1, by decide +kernel⟩, by decide +kernel⟩
  · exact ⟨[105], [], .char _ _ (by decide) (by decide) (by decide) .nil, by decide +kernel, .inl rfl⟩

example : discardAll (discardNew true) 0 [bs "a<b x='", bs ">'>c<i"] = some (1, bs "a<c<") := by decide +kernel

theorem begin_example : Begin (bs "begin 644 f\n") := ⟨54, 52, 52, bs "f", by decide, by decide +kernel, by decide +kernel⟩

example : DataLine (bs "M0000\n") := ⟨bs "0000", 10, by decide +kernel, by decide, by decide +kernel⟩

example : discardAll (discardNew false) 0 [bs "Hi,\nbegin 64", bs "4 f\nM0000\n!!0\nend\n"] = some (0, bs "Hi,\nbegin 644 f\n!0\nend\n") := by decide +kernel

example : (quoteAll true [bs "a\r", bs "\n\nb"]).2 = bs "> a\n> \n> b" := by decide +kernel

end Notmuch.Props
