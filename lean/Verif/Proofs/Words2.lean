import Verif.Proofs.Words

/-! # Words: positions and phrases -/

namespace Notmuch.Words

open Notmuch.TermList (findPrefix userPrefix)

/-- A text's words at their positions. -/
theorem put_posts {G : Gen} {m : Msg} {s : Str × Str} {x : Str} {q : Nat} : (x, q) ∈ (put G m s).doc.posts ↔
    (x, q) ∈ m.doc.posts ∨ ∃ i w, (G.words s.2)[i]? = some w ∧ x = s.1 ++ w ∧ q = m.termpos + 1 + i := by
  show (x, q) ∈ m.doc.posts ++ ((G.words s.2).zipIdx (m.termpos + 1)).map (fun e => (s.1 ++ e.1, e.2)) ↔ _
  rw [List.mem_append, List.mem_map]
  refine or_congr Iff.rfl ?_
  constructor
  · rintro ⟨⟨w, k⟩, hm, he⟩
    rw [List.mem_zipIdx_iff_le_and_getElem?_sub] at hm
    injection he with h1 h2
    exact ⟨k - (m.termpos + 1), w, hm.2, h1.symm, by have := hm.1; dsimp only at this h2; omega⟩
  · rintro ⟨i, w, hi, hx, hq⟩
    refine ⟨(w, q), ?_, by rw [hx]⟩
    rw [List.mem_zipIdx_iff_le_and_getElem?_sub]
    refine ⟨by dsimp only; omega, ?_⟩
    dsimp only
    rw [show q - (m.termpos + 1) = i by omega]
    exact hi

/-- Nothing is at the position of the message object or after it. -/
def Below (m : Msg) : Prop := ∀ x q, (x, q) ∈ m.doc.posts → q < m.termpos

theorem put_below {G : Gen} {m : Msg} (h : Below m) (s : Str × Str) : Below (put G m s) := by
  intro x q hq
  have ht : (put G m s).termpos = m.termpos + (G.words s.2).length + 100 := rfl
  rcases put_posts.1 hq with hq | ⟨i, w, hi, _, hq⟩
  · have := h x q hq; omega
  · have := (List.getElem?_eq_some_iff.1 hi).1; omega

theorem infix_iff {a b : List Str} : a <:+: b ↔ ∃ k : Nat, ∀ (i : Nat) (w : Str), a[i]? = some w → b[k + i]? = some w := by
  constructor
  · rintro ⟨s, t, rfl⟩
    refine ⟨s.length, fun i w h => ?_⟩
    have hl := (List.getElem?_eq_some_iff.1 h).1
    rw [List.append_assoc, List.getElem?_append_right (by omega), Nat.add_sub_cancel_left, List.getElem?_append_left hl]
    exact h
  · rintro ⟨k, h⟩
    have : a = (b.drop k).take a.length := by
      apply List.ext_getElem?
      intro i
      rw [List.getElem?_take, List.getElem?_drop]
      by_cases hi : i < a.length
      · rw [if_pos hi, h i _ (List.getElem?_eq_getElem hi), List.getElem?_eq_getElem hi]
      · rw [if_neg hi, List.getElem?_eq_none (by omega)]
    rw [this]
    exact (List.take_prefix _ _).isInfix.trans (List.drop_suffix _ _).isInfix

/-- What a phrase with the prefix `p` matches is apart from a text with another prefix. -/
def Sep (G : Gen) (p : Str) (ws : List Str) (s : Str × Str) : Prop := ∀ w ∈ ws, ∀ w' ∈ G.words s.2, p ++ w = s.1 ++ w' → p = s.1 ∧ w = w'

theorem put_matches {G : Gen} {m : Msg} (hb : Below m) {s : Str × Str} {p : Str} {ws : List Str} (hn : ws ≠ []) (hs : Sep G p ws s) :
    Matches (put G m s).doc p ws ↔ Matches m.doc p ws ∨ (p = s.1 ∧ ws <:+: G.words s.2) := by
  constructor
  · rintro ⟨q, hq⟩
    obtain ⟨w0, ws', rfl⟩ := List.exists_cons_of_ne_nil hn
    rcases put_posts.1 (hq 0 w0 rfl) with h0 | ⟨k, w, hk, hx, hqk⟩
    · refine .inl ⟨q, ?_⟩
      have : ∀ i, ∀ w, (w0 :: ws')[i]? = some w → (p ++ w, q + i) ∈ m.doc.posts := by
        intro i
        induction i with
        | zero => intro w hw; injection hw with hw; subst hw; exact h0
        | succ i ih =>
          intro w hw
          have hl := (List.getElem?_eq_some_iff.1 hw).1
          have hp := hb _ _ (ih _ (List.getElem?_eq_getElem (by omega)))
          rcases put_posts.1 (hq (i + 1) w hw) with h | ⟨k, _, _, _, h⟩
          · exact h
          · omega
      exact this
    · have all : ∀ i w, (w0 :: ws')[i]? = some w → (G.words s.2)[k + i]? = some w ∧ p = s.1 := by
        intro i w hw
        rcases put_posts.1 (hq i w hw) with h | ⟨k', w', hk', hx', hq'⟩
        · have := hb _ _ h; omega
        · obtain ⟨e1, e2⟩ := hs w (List.mem_of_getElem? hw) w' (List.mem_of_getElem? hk') hx'
          subst e2
          rw [show k + i = k' by omega]
          exact ⟨hk', e1⟩
      exact .inr ⟨(all 0 w0 rfl).2, infix_iff.2 ⟨k, fun i w hw => (all i w hw).1⟩⟩
  · rintro (⟨q, hq⟩ | ⟨rfl, hi⟩)
    · exact ⟨q, fun i w hw => put_posts.2 (.inl (hq i w hw))⟩
    · obtain ⟨k, hk⟩ := infix_iff.1 hi
      exact ⟨m.termpos + 1 + k, fun i w hw => put_posts.2 (.inr ⟨k + i, w, hk i w hw, rfl, by omega⟩)⟩

theorem puts_matches {G : Gen} {p : Str} {ws : List Str} (hn : ws ≠ []) : ∀ (l : List (Str × Str)) (m : Msg), Below m → (∀ s ∈ l, Sep G p ws s) →
    (Matches (l.foldl (put G) m).doc p ws ↔ Matches m.doc p ws ∨ ∃ t, (p, t) ∈ l ∧ ws <:+: G.words t)
  | [], m, _, _ => by simp
  | s :: l, m, hb, hs => by
    rw [List.foldl_cons, puts_matches hn l (put G m s) (put_below hb s) (fun s' h => hs s' (List.mem_cons_of_mem _ h)), put_matches hb hn (hs s List.mem_cons_self)]
    constructor
    · rintro ((h | ⟨rfl, h⟩) | ⟨t, h1, h2⟩)
      · exact .inl h
      · exact .inr ⟨s.2, List.mem_cons_self, h⟩
      · exact .inr ⟨t, List.mem_cons_of_mem _ h1, h2⟩
    · rintro (h | ⟨t, h1, h2⟩)
      · exact .inl (.inl h)
      · rcases List.mem_cons.1 h1 with rfl | h1
        · exact .inl (.inr ⟨rfl, h2⟩)
        · exact .inr ⟨t, h1, h2⟩

/-- Words alone: whatever the positions. -/
theorem put_has {G : Gen} {m : Msg} {s : Str × Str} {p w : Str} (hs : Sep G p [w] s) : Has (put G m s).doc p w ↔ Has m.doc p w ∨ (p = s.1 ∧ w ∈ G.words s.2) := by
  constructor
  · rintro ⟨q, hq⟩
    rcases put_posts.1 hq with h | ⟨i, w', hi, hx, _⟩
    · exact .inl ⟨q, h⟩
    · obtain ⟨e1, e2⟩ := hs w List.mem_cons_self w' (List.mem_of_getElem? hi) hx
      subst e2
      exact .inr ⟨e1, List.mem_of_getElem? hi⟩
  · rintro (⟨q, hq⟩ | ⟨rfl, h⟩)
    · exact ⟨q, put_posts.2 (.inl hq)⟩
    · obtain ⟨i, hi⟩ := List.getElem?_of_mem h
      exact ⟨_, put_posts.2 (.inr ⟨i, w, hi, rfl, rfl⟩)⟩

theorem puts_has {G : Gen} {p w : Str} : ∀ (l : List (Str × Str)) (m : Msg), (∀ s ∈ l, Sep G p [w] s) →
    (Has (l.foldl (put G) m).doc p w ↔ Has m.doc p w ∨ ∃ t, (p, t) ∈ l ∧ w ∈ G.words t)
  | [], m, _ => by simp
  | s :: l, m, hs => by
    rw [List.foldl_cons, puts_has l (put G m s) (fun s' h => hs s' (List.mem_cons_of_mem _ h)), put_has (hs s List.mem_cons_self)]
    constructor
    · rintro ((h | ⟨rfl, h⟩) | ⟨t, h1, h2⟩)
      · exact .inl h
      · exact .inr ⟨s.2, List.mem_cons_self, h⟩
      · exact .inr ⟨t, List.mem_cons_of_mem _ h1, h2⟩
    · rintro (h | ⟨t, h1, h2⟩)
      · exact .inl (.inl h)
      · rcases List.mem_cons.1 h1 with rfl | h1
        · exact .inl (.inr ⟨rfl, h2⟩)
        · exact .inr ⟨t, h1, h2⟩

theorem puts_stem {G : Gen} {x : Str} : ∀ (l : List (Str × Str)) (m : Msg),
    (x ∈ (l.foldl (put G) m).doc.terms ↔ x ∈ m.doc.terms ∨ ∃ s ∈ l, ∃ w ∈ G.words s.2, ∃ v, G.stem w = some v ∧ x = bs "Z" ++ s.1 ++ v)
  | [], m => by simp
  | s :: l, m => by
    rw [List.foldl_cons, puts_stem l (put G m s)]
    have h1 : x ∈ (put G m s).doc.terms ↔ x ∈ m.doc.terms ∨ ∃ w ∈ G.words s.2, ∃ v, G.stem w = some v ∧ x = bs "Z" ++ s.1 ++ v := by
      show x ∈ m.doc.terms ++ ((G.words s.2).filterMap G.stem).map (fun v => bs "Z" ++ s.1 ++ v) ↔ _
      rw [List.mem_append, List.mem_map]
      refine or_congr Iff.rfl ?_
      constructor
      · rintro ⟨v, hv, rfl⟩
        obtain ⟨w, hw, hs⟩ := List.mem_filterMap.1 hv
        exact ⟨w, hw, v, hs, rfl⟩
      · rintro ⟨w, hw, v, hs, rfl⟩
        exact ⟨v, List.mem_filterMap.2 ⟨w, hw, hs⟩, rfl⟩
    rw [h1]
    constructor
    · rintro ((h | h) | ⟨s', h1, h2⟩)
      · exact .inl h
      · exact .inr ⟨s, List.mem_cons_self, h⟩
      · exact .inr ⟨s', List.mem_cons_of_mem _ h1, h2⟩
    · rintro (h | ⟨s', h1, h2⟩)
      · exact .inl (.inl h)
      · rcases List.mem_cons.1 h1 with rfl | h1
        · exact .inl (.inr h2)
        · exact .inr ⟨s', h1, h2⟩

/-! ## For mails -/

theorem segs_sep {G : Gen} (hG : G.Good) {user : List (Str × Str)} (hu : GoodNames user) {f p : Str} (hf : Asks user f p) {ws : List Str} (hw : ∀ w ∈ ws, GoodWord w) {mail : Mail} :
    ∀ s ∈ segs user mail, Sep G p ws s := by
  intro s hs w hws w' hw' he
  obtain ⟨f', ht, hp⟩ := mem_segs.1 hs
  obtain ⟨p', ha⟩ := text_asks ht
  have := asks_prefix hu ha
  rw [hp] at this
  injection this with this
  rw [← this] at ha
  exact apart hu hf ha (hw w hws) (hG.1 _ w' hw') he

theorem field_segs {user : List (Str × Str)} (hu : GoodNames user) {f p : Str} (hf : Asks user f p) {mail : Mail} {t : Str} : (p, t) ∈ segs user mail ↔ FieldText user mail f t := by
  rw [mem_segs]
  constructor
  · rintro ⟨f', ht, hp⟩
    obtain ⟨p', ha⟩ := text_asks ht
    have := asks_prefix hu ha
    rw [hp] at this
    injection this with this
    subst this
    rw [asks_same hu hf ha]
    exact ht
  · intro ht
    exact ⟨f, ht, asks_prefix hu hf⟩

theorem reindex_matches {G : Gen} (hG : G.Good) {user : List (Str × Str)} (hu : GoodNames user) {f p : Str} (hf : Asks user f p) {ws : List Str} (hn : ws ≠ []) (hw : ∀ w ∈ ws, GoodWord w) (mails : List Mail) :
    Matches (reindex G user mails) p ws ↔ ∃ mail ∈ mails, ∃ t, FieldText user mail f t ∧ ws <:+: G.words t := by
  unfold reindex
  rw [files_segs, puts_matches hn _ _ (fun x q h => by cases h)]
  · constructor
    · rintro (⟨q, hq⟩ | ⟨t, ht, hi⟩)
      · obtain ⟨w, ws', rfl⟩ := List.exists_cons_of_ne_nil hn
        cases hq 0 w rfl
      · obtain ⟨mail, hm, ht⟩ := List.mem_flatMap.1 ht
        exact ⟨mail, hm, t, (field_segs hu hf).1 ht, hi⟩
    · rintro ⟨mail, hm, t, ht, hi⟩
      exact .inr ⟨t, List.mem_flatMap.2 ⟨mail, hm, (field_segs hu hf).2 ht⟩, hi⟩
  · intro s hs
    obtain ⟨mail, _, hs⟩ := List.mem_flatMap.1 hs
    exact segs_sep hG hu hf hw s hs

theorem add_has {G : Gen} (hG : G.Good) {user : List (Str × Str)} (hu : GoodNames user) {f p : Str} (hf : Asks user f p) {w : Str} (hw : GoodWord w) (d : Doc) (mail : Mail) :
    Has (addFile G user d mail) p w ↔ Has d p w ∨ ∃ t, FieldText user mail f t ∧ w ∈ G.words t := by
  unfold addFile
  rw [file_segs, puts_has _ _ (segs_sep hG hu hf (by intro w' h; rw [List.mem_singleton.1 h]; exact hw))]
  refine or_congr Iff.rfl ⟨?_, ?_⟩
  · rintro ⟨t, h1, h2⟩; exact ⟨t, (field_segs hu hf).1 h1, h2⟩
  · rintro ⟨t, h1, h2⟩; exact ⟨t, (field_segs hu hf).2 h1, h2⟩

theorem adds_has {G : Gen} (hG : G.Good) {user : List (Str × Str)} (hu : GoodNames user) {f p : Str} (hf : Asks user f p) {w : Str} (hw : GoodWord w) : ∀ (mails : List Mail) (d : Doc),
    Has (mails.foldl (addFile G user) d) p w ↔ Has d p w ∨ ∃ mail ∈ mails, ∃ t, FieldText user mail f t ∧ w ∈ G.words t
  | [], d => by simp
  | mail :: l, d => by
    rw [List.foldl_cons, adds_has hG hu hf hw l, add_has hG hu hf hw]
    simp only [List.mem_cons, exists_eq_or_imp, or_assoc]

theorem add_stem {G : Gen} (hG : G.Good) {user : List (Str × Str)} (hu : GoodNames user) {f p : Str} (hf : Asks user f p) {v : Str} (hv : GoodWord v) (d : Doc) (mail : Mail) :
    HasStem (addFile G user d mail) p v ↔ HasStem d p v ∨ ∃ t, FieldText user mail f t ∧ ∃ w ∈ G.words t, G.stem w = some v := by
  unfold addFile HasStem
  rw [file_segs, puts_stem]
  refine or_congr Iff.rfl ⟨?_, ?_⟩
  · rintro ⟨s, hs, w, hw, v', hst, he⟩
    rw [List.append_assoc, List.append_assoc] at he
    have he := List.append_cancel_left he
    obtain ⟨f', ht, hp⟩ := mem_segs.1 hs
    obtain ⟨p', ha⟩ := text_asks ht
    have := asks_prefix hu ha
    rw [hp] at this
    injection this with this
    rw [← this] at ha
    obtain ⟨e1, e2⟩ := apart hu hf ha hv (hG.2 w v' hst) he
    subst e2
    exact ⟨s.2, (field_segs hu hf).1 (by rw [e1]; exact hs), w, hw, hst⟩
  · rintro ⟨t, ht, w, hw, hst⟩
    exact ⟨(p, t), (field_segs hu hf).2 ht, w, hw, v, hst, rfl⟩

theorem adds_stem {G : Gen} (hG : G.Good) {user : List (Str × Str)} (hu : GoodNames user) {f p : Str} (hf : Asks user f p) {v : Str} (hv : GoodWord v) : ∀ (mails : List Mail) (d : Doc),
    HasStem (mails.foldl (addFile G user) d) p v ↔ HasStem d p v ∨ ∃ mail ∈ mails, ∃ t, FieldText user mail f t ∧ ∃ w ∈ G.words t, G.stem w = some v
  | [], d => by simp
  | mail :: l, d => by
    rw [List.foldl_cons, adds_stem hG hu hf hv l, add_stem hG hu hf hv]
    simp only [List.mem_cons, exists_eq_or_imp, or_assoc]

/-- A phrase that matched still matches, and the phrases of the new file match. -/
theorem puts_complete {G : Gen} {p : Str} {ws : List Str} : ∀ (l : List (Str × Str)) (m : Msg), (Matches m.doc p ws ∨ ∃ t, (p, t) ∈ l ∧ ws <:+: G.words t) → Matches (l.foldl (put G) m).doc p ws
  | [], m, h => by
    rcases h with h | ⟨_, h, _⟩
    · exact h
    · cases h
  | s :: l, m, h => by
    rw [List.foldl_cons]
    refine puts_complete l (put G m s) ?_
    rcases h with ⟨q, hq⟩ | ⟨t, ht, hi⟩
    · exact .inl ⟨q, fun i w hw => put_posts.2 (.inl (hq i w hw))⟩
    · rcases List.mem_cons.1 ht with rfl | ht
      · obtain ⟨k, hk⟩ := infix_iff.1 hi
        exact .inl ⟨m.termpos + 1 + k, fun i w hw => put_posts.2 (.inr ⟨k + i, w, hk i w hw, rfl, by omega⟩)⟩
      · exact .inr ⟨t, ht, hi⟩

theorem adds_complete {G : Gen} {user : List (Str × Str)} (hu : GoodNames user) {f p : Str} (hf : Asks user f p) {ws : List Str} : ∀ (mails : List Mail) (d : Doc),
    (Matches d p ws ∨ ∃ mail ∈ mails, ∃ t, FieldText user mail f t ∧ ws <:+: G.words t) → Matches (mails.foldl (addFile G user) d) p ws
  | [], d, h => by
    rcases h with h | ⟨_, h, _⟩
    · exact h
    · cases h
  | mail :: l, d, h => by
    rw [List.foldl_cons]
    refine adds_complete hu hf l _ ?_
    have one : (Matches d p ws ∨ ∃ t, FieldText user mail f t ∧ ws <:+: G.words t) → Matches (addFile G user d mail) p ws := by
      intro h
      unfold addFile
      rw [file_segs]
      refine puts_complete _ _ ?_
      rcases h with h | ⟨t, ht, hi⟩
      · exact .inl h
      · exact .inr ⟨t, (field_segs hu hf).2 ht, hi⟩
    rcases h with h | ⟨mail', hm, h⟩
    · exact .inl (one (.inl h))
    · rcases List.mem_cons.1 hm with rfl | hm
      · exact .inl (one (.inr h))
      · exact .inr ⟨mail', hm, h⟩

end Notmuch.Words
