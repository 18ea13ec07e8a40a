import Verif.Spec.BlankLines

namespace Notmuch.BlankLinesProofs
open Notmuch.BlankLines Notmuch.BlankLinesSpec

variable (sp : Char → Bool)

theorem lines_ne (s : List Char) : lines s ≠ [] := by
  cases s with
  | nil => simp [lines]
  | cons c s =>
    unfold lines
    split
    · simp
    · split <;> simp

theorem lines_cons (c : Char) (s : List Char) (h : c ≠ '\n') : ∃ l ls, lines s = l :: ls ∧ lines (c :: s) = (c :: l) :: ls := by
  obtain ⟨l, ls, e⟩ := List.exists_cons_of_ne_nil (lines_ne s)
  refine ⟨l, ls, e, ?_⟩
  show (if c = '\n' then _ else _) = _
  rw [if_neg h, e]

theorem lines_nl (s : List Char) : lines ('\n' :: s) = [] :: lines s := rfl

theorem lines_append : ∀ (u r : List Char), lines (u ++ '\n' :: r) = lines u ++ lines r
  | [], r => rfl
  | c :: u, r => by
    have ih := lines_append u r
    by_cases h : c = '\n'
    · subst h
      rw [List.cons_append, lines_nl, lines_nl, ih]
      rfl
    · obtain ⟨l, ls, e1, e2⟩ := lines_cons c (u ++ '\n' :: r) h
      obtain ⟨l', ls', e1', e2'⟩ := lines_cons c u h
      rw [List.cons_append, e2, e2']
      rw [e1, e1', List.cons_append, List.cons.injEq] at ih
      rw [ih.1, ih.2]
      rfl

theorem lines_all : ∀ (u : List Char), u.all sp = true → ∀ l ∈ lines u, l.all sp = true
  | [], _, l, h => by simp [lines] at h; subst h; rfl
  | c :: u, hu, l, h => by
    rw [List.all_cons, Bool.and_eq_true] at hu
    by_cases hc : c = '\n'
    · subst hc
      rw [lines_nl] at h
      rcases List.mem_cons.1 h with rfl | h
      · rfl
      · exact lines_all u hu.2 l h
    · obtain ⟨x, ls, e1, e2⟩ := lines_cons c u hc
      have ih := lines_all u hu.2
      rw [e1] at ih
      rw [e2] at h
      rcases List.mem_cons.1 h with rfl | h
      · rw [List.all_cons, hu.1, ih x (List.mem_cons_self ..)]; rfl
      · exact ih l (List.mem_cons_of_mem _ h)

theorem gaps_cons (b : Bool) (l : List Char) (ls : List (List Char)) :
    gaps sp b (l :: ls) = if l.all sp then gaps sp true ls else (b, l) :: gaps sp false ls := rfl

theorem gaps_blank (b : Bool) : ∀ (ls ms : List (List Char)), ls ≠ [] → (∀ l ∈ ls, l.all sp = true) → gaps sp b (ls ++ ms) = gaps sp true ms
  | [], _, h, _ => absurd rfl h
  | l :: ls, ms, _, h => by
    rw [List.cons_append, gaps_cons, if_pos (h l (List.mem_cons_self ..))]
    cases ls with
    | nil => rfl
    | cons x ls => exact gaps_blank true (x :: ls) ms (by simp) (fun l hl => h l (List.mem_cons_of_mem _ hl))

/-- A match. -/
theorem endOf_some : ∀ (s r : List Char), endOf sp s = some r → ∃ u, s = u ++ r ∧ u ≠ [] ∧ u.all sp = true ∧ (r = [] ∨ r.head? = some '\n')
  | [], _, h => by cases h
  | c :: s, r, h => by
    unfold endOf at h
    split at h
    · next hc =>
      split at h
      · next r' e =>
        cases h
        obtain ⟨u, h1, h2, h3, h4⟩ := endOf_some s r e
        exact ⟨c :: u, by rw [h1]; rfl, by simp, by rw [List.all_cons, hc, h3]; rfl, h4⟩
      · split at h
        · next h' =>
          cases h
          refine ⟨[c], rfl, by simp, by simp [hc], ?_⟩
          rw [Bool.or_eq_true] at h'
          rcases h' with h' | h'
          · left; exact List.isEmpty_iff.1 h'
          · right; exact beq_iff_eq.1 h'
        · cases h
    · cases h

/-- A line of whitespace is matched. -/
theorem endOf_line : ∀ (u r : List Char), u ≠ [] → u.all sp = true → (r = [] ∨ r.head? = some '\n') → endOf sp (u ++ r) ≠ none
  | [], _, h, _, _ => absurd rfl h
  | c :: u, r, _, hu, hr => by
    rw [List.all_cons, Bool.and_eq_true] at hu
    rw [List.cons_append]
    unfold endOf
    rw [if_pos hu.1]
    split
    · simp
    · next e =>
      cases u with
      | nil =>
        rw [if_pos]
        · simp
        · rcases hr with h | h
          · subst h; rfl
          · simp [h]
      | cons d u => exact absurd e (endOf_line (d :: u) r (by simp) hu.2 hr)

theorem endOf_all (s : List Char) (h : s ≠ []) (ha : s.all sp = true) : endOf sp s = some [] := by
  induction s with
  | nil => exact absurd rfl h
  | cons c s ih =>
    rw [List.all_cons, Bool.and_eq_true] at ha
    unfold endOf
    rw [if_pos ha.1]
    cases s with
    | nil => rfl
    | cons d s => rw [ih (by simp) ha.2]

theorem endOf_length (s r : List Char) (h : endOf sp s = some r) : r.length < s.length := by
  obtain ⟨u, h1, h2, _⟩ := endOf_some sp s r h
  rw [h1, List.length_append]
  have := List.length_pos_iff.2 h2
  omega

/-! ### Emptying blank lines -/

theorem emptyBlank_gaps : ∀ (n : Nat) (s : List Char), s.length ≤ n →
    (∀ b, gaps sp b (lines (emptyBlank sp n true s)) = gaps sp b (lines s)) ∧
    (∃ l ls ls', lines s = l :: ls ∧ lines (emptyBlank sp n false s) = l :: ls' ∧ ∀ b, gaps sp b ls' = gaps sp b ls)
  | 0, s, _ => by
    obtain ⟨l, ls, e⟩ := List.exists_cons_of_ne_nil (lines_ne s)
    exact ⟨fun _ => rfl, l, ls, ls, e, e, fun _ => rfl⟩
  | n + 1, [], _ => ⟨fun _ => rfl, [], [], [], rfl, rfl, fun _ => rfl⟩
  | n + 1, c :: s, h => by
    have h' : s.length ≤ n := by rw [List.length_cons] at h; omega
    have ih := emptyBlank_gaps n s h'
    have copy : ∃ l ls ls', lines (c :: s) = l :: ls ∧ lines (c :: emptyBlank sp n (c == '\n') s) = l :: ls' ∧ ∀ b, gaps sp b ls' = gaps sp b ls := by
      by_cases hc : c = '\n'
      · subst hc
        exact ⟨[], lines s, _, rfl, rfl, ih.1⟩
      · have hb : (c == '\n') = false := beq_eq_false_iff_ne.2 hc
        rw [hb]
        obtain ⟨l, ls, ls', e1, e2, e3⟩ := ih.2
        obtain ⟨x, xs, f1, f2⟩ := lines_cons c s hc
        obtain ⟨y, ys, g1, g2⟩ := lines_cons c (emptyBlank sp n false s) hc
        rw [e1] at f1
        rw [e2] at g1
        cases f1
        cases g1
        exact ⟨c :: l, ls, ls', f2, g2, e3⟩
    constructor
    · intro b
      unfold emptyBlank
      simp only [if_true]
      split
      · next r e =>
        have hl := endOf_length sp _ _ e
        obtain ⟨u, h1, h2, h3, h4⟩ := endOf_some sp _ _ e
        rw [(emptyBlank_gaps n r (by rw [List.length_cons] at hl h; omega)).1 b, h1]
        rcases h4 with rfl | h4
        · rw [List.append_nil]
          have e1 := gaps_blank sp b (lines u) [] (lines_ne u) (lines_all sp u h3)
          rw [List.append_nil] at e1
          rw [e1]
          rfl
        · cases r with
          | nil => cases h4
          | cons d r =>
            cases h4
            rw [lines_append, gaps_blank sp b (lines u) _ (lines_ne u) (lines_all sp u h3), lines_nl]
            rfl
      · obtain ⟨l, ls, ls', e1, e2, e3⟩ := copy
        rw [e1, e2, gaps_cons, gaps_cons, e3, e3]
    · exact copy

/-- The first line. -/
theorem first_line : ∀ (s : List Char), ∃ l ls, lines s = l :: ls ∧ ∃ r, s = l ++ r ∧ (r = [] ∨ r.head? = some '\n') ∧ '\n' ∉ l
  | [] => ⟨[], [], rfl, [], rfl, Or.inl rfl, by simp⟩
  | c :: s => by
    by_cases h : c = '\n'
    · subst h
      exact ⟨[], lines s, rfl, '\n' :: s, rfl, Or.inr rfl, by simp⟩
    · obtain ⟨l, ls, e, r, h1, h2, h3⟩ := first_line s
      obtain ⟨x, xs, f1, f2⟩ := lines_cons c s h
      rw [e] at f1
      cases f1
      refine ⟨c :: l, ls, f2, r, by rw [h1]; rfl, h2, ?_⟩
      simp [h3, Ne.symm h]

/-- No blank line that is not empty is left. -/
theorem emptyBlank_clean : ∀ (n : Nat) (s : List Char), s.length ≤ n →
    (∀ l ∈ lines (emptyBlank sp n true s), l.all sp = true → l = []) ∧
    (∃ l ls ls', lines s = l :: ls ∧ lines (emptyBlank sp n false s) = l :: ls' ∧ ∀ l ∈ ls', l.all sp = true → l = [])
  | 0, s, h => by
    have : s = [] := List.length_eq_zero_iff.1 (Nat.le_zero.1 h)
    subst this
    exact ⟨by intro l hl _; simpa [lines, emptyBlank] using hl, [], [], [], rfl, rfl, (fun _ h => by cases h)⟩
  | n + 1, [], _ => ⟨by intro l hl _; simpa [lines, emptyBlank] using hl, [], [], [], rfl, rfl, (fun _ h => by cases h)⟩
  | n + 1, c :: s, h => by
    have h' : s.length ≤ n := by rw [List.length_cons] at h; omega
    have ih := emptyBlank_clean n s h'
    have copy : ∃ l ls ls', lines (c :: s) = l :: ls ∧ lines (c :: emptyBlank sp n (c == '\n') s) = l :: ls' ∧ ∀ l ∈ ls', l.all sp = true → l = [] := by
      by_cases hc : c = '\n'
      · subst hc
        exact ⟨[], lines s, _, rfl, rfl, ih.1⟩
      · have hb : (c == '\n') = false := beq_eq_false_iff_ne.2 hc
        rw [hb]
        obtain ⟨l, ls, ls', e1, e2, e3⟩ := ih.2
        obtain ⟨x, xs, f1, f2⟩ := lines_cons c s hc
        obtain ⟨y, ys, g1, g2⟩ := lines_cons c (emptyBlank sp n false s) hc
        rw [e1] at f1
        rw [e2] at g1
        cases f1
        cases g1
        exact ⟨c :: l, ls, ls', f2, g2, e3⟩
    constructor
    · unfold emptyBlank
      simp only [if_true]
      split
      · next r e =>
        have hl := endOf_length sp _ _ e
        exact (emptyBlank_clean n r (by rw [List.length_cons] at hl h; omega)).1
      · next e =>
        obtain ⟨l, ls, ls', e1, e2, e3⟩ := copy
        rw [e2]
        intro x hx hb
        rcases List.mem_cons.1 hx with rfl | hx
        · obtain ⟨y, ys, f, r, g1, g2, _⟩ := first_line (c :: s)
          rw [e1] at f
          cases f
          cases x with
          | nil => rfl
          | cons d x =>
            rw [g1] at e
            exact absurd e (endOf_line sp _ r (by simp) hb g2)
        · exact e3 x hx hb
    · exact copy

/-! ### Collapsing -/

theorem copy_line (R : List (List Char) → List (List Char) → Prop) (c : Char) (s : List Char) (f : Bool → List Char) (h1 : R (lines (f true)) (lines s))
    (h0 : ∃ l ls ls', lines s = l :: ls ∧ lines (f false) = l :: ls' ∧ R ls' ls) :
    ∃ l ls ls', lines (c :: s) = l :: ls ∧ lines (c :: f (c == '\n')) = l :: ls' ∧ R ls' ls := by
  by_cases hc : c = '\n'
  · subst hc
    exact ⟨[], lines s, _, rfl, rfl, h1⟩
  · have hb : (c == '\n') = false := beq_eq_false_iff_ne.2 hc
    rw [hb]
    obtain ⟨l, ls, ls', e1, e2, e3⟩ := h0
    obtain ⟨x, xs, f1, f2⟩ := lines_cons c s hc
    obtain ⟨y, ys, g1, g2⟩ := lines_cons c (f false) hc
    rw [e1] at f1
    rw [e2] at g1
    cases f1
    cases g1
    exact ⟨c :: l, ls, ls', f2, g2, e3⟩

theorem gaps_dropWhile : ∀ (s : List Char), gaps sp true (lines (s.dropWhile (· == '\n'))) = gaps sp true (lines s)
  | [] => rfl
  | c :: s => by
    by_cases h : c = '\n'
    · subst h
      rw [List.dropWhile_cons_of_pos (by rfl), gaps_dropWhile s, lines_nl]
      rfl
    · rw [List.dropWhile_cons_of_neg (by simp [h])]

theorem mem_lines_dropWhile : ∀ (s : List Char), ∀ l ∈ lines (s.dropWhile (· == '\n')), l ∈ lines s
  | [], _, h => h
  | c :: s, l, hl => by
    by_cases h : c = '\n'
    · subst h
      rw [List.dropWhile_cons_of_pos (by rfl)] at hl
      rw [lines_nl]
      exact List.mem_cons_of_mem _ (mem_lines_dropWhile s l hl)
    · rw [List.dropWhile_cons_of_neg (by simp [h])] at hl
      exact hl

theorem length_dropWhile : ∀ (s : List Char), (s.dropWhile (· == '\n')).length ≤ s.length
  | [] => Nat.le_refl _
  | c :: s => by
    by_cases h : c = '\n'
    · subst h
      rw [List.dropWhile_cons_of_pos (by rfl)]
      exact Nat.le_succ_of_le (length_dropWhile s)
    · rw [List.dropWhile_cons_of_neg (by simp [h])]
      exact Nat.le_refl _

/-- The same paragraphs, and no other lines. -/
theorem collapse_lines : ∀ (n : Nat) (s : List Char), s.length ≤ n →
    ((∀ b, gaps sp b (lines (collapse n true s)) = gaps sp b (lines s)) ∧ ∀ l ∈ lines (collapse n true s), l ∈ lines s) ∧
    (∃ l ls ls', lines s = l :: ls ∧ lines (collapse n false s) = l :: ls' ∧ (∀ b, gaps sp b ls' = gaps sp b ls) ∧ ∀ l ∈ ls', l ∈ ls)
  | 0, s, _ => by
    obtain ⟨l, ls, e⟩ := List.exists_cons_of_ne_nil (lines_ne s)
    exact ⟨⟨fun _ => rfl, fun _ h => h⟩, l, ls, ls, e, e, fun _ => rfl, fun _ h => h⟩
  | n + 1, [], _ => ⟨⟨fun _ => rfl, fun _ h => h⟩, [], [], [], rfl, rfl, fun _ => rfl, fun _ h => h⟩
  | n + 1, c :: s, h => by
    have h' : s.length ≤ n := by rw [List.length_cons] at h; omega
    have ih := collapse_lines n s h'
    have copy := copy_line (fun ls' ls => (∀ b, gaps sp b ls' = gaps sp b ls) ∧ ∀ l ∈ ls', l ∈ ls) c s (fun b => collapse n b s) ih.1 ih.2
    constructor
    · unfold collapse
      split
      · next hc =>
        simp only [Bool.true_and, Bool.and_eq_true, beq_iff_eq] at hc
        obtain ⟨rfl, _⟩ := hc
        have ih2 := (collapse_lines n (s.dropWhile (· == '\n')) (Nat.le_trans (length_dropWhile s) h')).1
        rw [lines_nl, lines_nl]
        constructor
        · intro b
          rw [gaps_cons, gaps_cons]
          simp only [List.all_nil, if_true]
          rw [ih2.1, gaps_dropWhile]
        · intro l hl
          rcases List.mem_cons.1 hl with rfl | hl
          · exact List.mem_cons_self ..
          · exact List.mem_cons_of_mem _ (mem_lines_dropWhile s l (ih2.2 l hl))
      · obtain ⟨l, ls, ls', e1, e2, e3, e4⟩ := copy
        rw [e1, e2]
        constructor
        · intro b
          rw [gaps_cons, gaps_cons, e3, e3]
        · intro x hx
          rcases List.mem_cons.1 hx with rfl | hx
          · exact List.mem_cons_self ..
          · exact List.mem_cons_of_mem _ (e4 x hx)
    · exact copy

/-- No blank line after a blank line, if blank lines are empty. -/
def noDouble : Bool → List Char → Prop
  | _, [] => True
  | b, c :: s => ¬ (b = true ∧ c = '\n' ∧ s.head? = some '\n') ∧ noDouble (c == '\n') s

/-- The last line is not blank, if blank lines are empty. -/
def noTrail : Bool → List Char → Prop
  | _, [] => True
  | b, c :: s => ¬ (b = true ∧ c = '\n' ∧ s = []) ∧ noTrail (c == '\n') s

theorem collapse_head (n : Nat) (b : Bool) (s : List Char) : (collapse n b s).head? = s.head? := by
  cases n with
  | zero => rfl
  | succ n =>
    cases s with
    | nil => rfl
    | cons c s =>
      unfold collapse
      split
      · next h =>
        simp only [Bool.and_eq_true, beq_iff_eq] at h
        rw [h.1.2]
        rfl
      · rfl

theorem collapse_noDouble : ∀ (n : Nat) (b : Bool) (s : List Char), s.length ≤ n → noDouble b (collapse n b s)
  | 0, b, s, h => by
    have : s = [] := List.length_eq_zero_iff.1 (Nat.le_zero.1 h)
    subst this
    exact True.intro
  | n + 1, b, [], _ => True.intro
  | n + 1, b, c :: s, h => by
    have h' : s.length ≤ n := by rw [List.length_cons] at h; omega
    unfold collapse
    split
    · next hc =>
      refine ⟨?_, collapse_noDouble n true _ (Nat.le_trans (length_dropWhile s) h')⟩
      rintro ⟨_, _, e⟩
      rw [collapse_head] at e
      have := List.head?_dropWhile_not (p := (· == '\n')) (l := s)
      rw [e] at this
      simp at this
    · next hc =>
      refine ⟨?_, collapse_noDouble n _ s h'⟩
      rintro ⟨h1, h2, h3⟩
      rw [collapse_head] at h3
      rw [h1, h2, h3] at hc
      exact hc rfl

theorem noTrail_dropWhile : ∀ (s : List Char), noTrail true s → noTrail true (s.dropWhile (· == '\n')) ∧ (s.dropWhile (· == '\n') = [] → s = [])
  | [], h => ⟨h, fun _ => rfl⟩
  | c :: s, h => by
    by_cases hc : c = '\n'
    · subst hc
      rw [List.dropWhile_cons_of_pos (by rfl)]
      have ih := noTrail_dropWhile s h.2
      refine ⟨ih.1, ?_⟩
      intro e
      exact absurd ⟨rfl, rfl, ih.2 e⟩ h.1
    · rw [List.dropWhile_cons_of_neg (by simp [hc])]
      exact ⟨h, fun e => by cases e⟩

theorem collapse_noTrail : ∀ (n : Nat) (b : Bool) (s : List Char), s.length ≤ n → noTrail b s → noTrail b (collapse n b s)
  | 0, b, s, _, h => h
  | n + 1, b, [], _, _ => True.intro
  | n + 1, b, c :: s, h, ht => by
    have h' : s.length ≤ n := by rw [List.length_cons] at h; omega
    have hnil : ∀ (b : Bool) (x : List Char), collapse n b x = [] → x = [] := by
      intro b x e
      have := collapse_head n b x
      rw [e] at this
      cases x with
      | nil => rfl
      | cons _ _ => cases this
    unfold collapse
    split
    · next hc =>
      simp only [Bool.and_eq_true, beq_iff_eq] at hc
      obtain ⟨⟨rfl, rfl⟩, hs⟩ := hc
      have d := noTrail_dropWhile s ht.2
      refine ⟨?_, collapse_noTrail n true _ (Nat.le_trans (length_dropWhile s) h') d.1⟩
      rintro ⟨_, _, e⟩
      have := d.2 (hnil _ _ e)
      rw [this] at hs
      cases hs
    · refine ⟨?_, collapse_noTrail n _ s h' ht.2⟩
      rintro ⟨h1, h2, e⟩
      exact ht.1 ⟨h1, h2, hnil _ _ e⟩

/-- If newline is whitespace, blank lines at the end are emptied with what ends them. -/
theorem emptyBlank_noTrail (hn : sp '\n' = true) : ∀ (n : Nat) (s : List Char), s.length ≤ n →
    (noTrail true (emptyBlank sp n true s) ∧ (emptyBlank sp n true s = [] → s.all sp = true)) ∧ noTrail false (emptyBlank sp n false s)
  | 0, s, h => by
    have : s = [] := List.length_eq_zero_iff.1 (Nat.le_zero.1 h)
    subst this
    exact ⟨⟨True.intro, fun _ => rfl⟩, True.intro⟩
  | n + 1, [], _ => ⟨⟨True.intro, fun _ => rfl⟩, True.intro⟩
  | n + 1, c :: s, h => by
    have h' : s.length ≤ n := by rw [List.length_cons] at h; omega
    have ih := emptyBlank_noTrail hn n s h'
    have tl : noTrail (c == '\n') (emptyBlank sp n (c == '\n') s) := by
      cases hc : c == '\n'
      · exact ih.2
      · exact ih.1.1
    constructor
    · unfold emptyBlank
      simp only [if_true]
      split
      · next r e =>
        have hl := endOf_length sp _ _ e
        obtain ⟨u, h1, h2, h3, h4⟩ := endOf_some sp _ _ e
        have ihr := emptyBlank_noTrail hn n r (by rw [List.length_cons] at hl h; omega)
        refine ⟨ihr.1.1, ?_⟩
        intro e2
        rw [h1, List.all_append, h3, ihr.1.2 e2]
        rfl
      · next e =>
        refine ⟨⟨?_, tl⟩, fun e => by cases e⟩
        rintro ⟨_, rfl, e2⟩
        have := ih.1.2 e2
        rw [endOf_all sp ('\n' :: s) (by simp) (by rw [List.all_cons, hn, this]; rfl)] at e
        cases e
    · refine ⟨?_, tl⟩
      rintro ⟨e, _⟩
      cases e

/-! ### Nothing left to do -/

/-- No blank line that is not empty. -/
def cleanAt (sp : Char → Bool) (b : Bool) (s : List Char) : Prop := ∀ l ∈ (if b then lines s else (lines s).tail), l.all sp = true → l = []

theorem cleanAt_tail {b : Bool} {c : Char} {s : List Char} (h : cleanAt sp b (c :: s)) : cleanAt sp (c == '\n') s := by
  have h : ∀ l ∈ (lines (c :: s)).tail, l.all sp = true → l = [] := by
    intro l hl
    refine h l ?_
    cases b
    · exact hl
    · exact List.mem_of_mem_tail hl
  intro l hl
  refine h l ?_
  by_cases hc : c = '\n'
  · subst hc; exact hl
  · have hb : (c == '\n') = false := beq_eq_false_iff_ne.2 hc
    obtain ⟨x, xs, f1, f2⟩ := lines_cons c s hc
    rw [hb, f1] at hl
    rw [f2]
    exact hl

theorem no_match {s u r : List Char} (h1 : s = u ++ r) (h2 : u ≠ []) (h3 : u.all sp = true) (h4 : r = [] ∨ r.head? = some '\n')
    (hs : s.head? ≠ some '\n') (hc : cleanAt sp true s) : False := by
  obtain ⟨l, ls, e, r', g1, g2, g3⟩ := first_line s
  have hlen : l.length ≤ u.length := by
    rcases Nat.lt_or_ge u.length l.length with h | h
    · exfalso
      rw [h1] at g1
      obtain ⟨w, hw1, hw2⟩ : ∃ w, l = u ++ w ∧ r = w ++ r' := by
        refine ⟨l.drop u.length, ?_, ?_⟩
        · have := congrArg (List.take u.length) g1
          rw [List.take_left, List.take_append_of_le_length (Nat.le_of_lt h)] at this
          exact (List.take_append_drop u.length l).symm.trans (by rw [← this])
        · have := congrArg (List.drop u.length) g1
          rw [List.drop_left, List.drop_append_of_le_length (Nat.le_of_lt h)] at this
          exact this
      have hwn : w ≠ [] := by
        intro e
        rw [hw1, e, List.append_nil] at h
        omega
      obtain ⟨d, w', rfl⟩ := List.exists_cons_of_ne_nil hwn
      rcases h4 with h4 | h4
      · rw [h4] at hw2; cases hw2
      · rw [hw2] at h4
        cases h4
        exact g3 (by rw [hw1]; simp)
    · exact h
  have ha : l.all sp = true := by
    have : l = u.take l.length := by
      have := congrArg (List.take l.length) (g1.symm.trans h1)
      rw [List.take_left, List.take_append_of_le_length hlen] at this
      exact this
    rw [List.all_eq_true] at h3 ⊢
    intro x hx
    rw [this] at hx
    exact h3 x (List.mem_of_mem_take hx)
  have := hc l (by simp [e]) ha
  subst this
  rw [List.nil_append] at g1
  subst g1
  rcases g2 with h | h
  · subst h
    cases u with
    | nil => exact h2 rfl
    | cons => cases h1
  · exact hs h

theorem emptyBlank_same : ∀ (n : Nat) (b : Bool) (s : List Char), noDouble b s → (sp '\n' = true → noTrail b s) → cleanAt sp b s → emptyBlank sp n b s = s
  | 0, _, _, _, _, _ => rfl
  | n + 1, _, [], _, _, _ => rfl
  | n + 1, b, c :: s, hd, ht, hc => by
    have ih := emptyBlank_same n (c == '\n') s hd.2 (fun h => (ht h).2) (cleanAt_tail sp hc)
    unfold emptyBlank
    cases b with
    | false => simp only [Bool.false_eq_true, if_false, ih]
    | true =>
      simp only [if_true]
      split
      · next r e =>
        exfalso
        obtain ⟨u, h1, h2, h3, h4⟩ := endOf_some sp _ _ e
        by_cases hcn : c = '\n'
        · subst hcn
          cases u with
          | nil => exact h2 rfl
          | cons d u =>
            rw [List.cons_append, List.cons.injEq] at h1
            obtain ⟨rfl, h1⟩ := h1
            rw [List.all_cons, Bool.and_eq_true] at h3
            have hs : s.head? ≠ some '\n' := fun h => hd.1 ⟨rfl, rfl, h⟩
            cases u with
            | nil =>
              rcases h4 with h4 | h4
              · rw [h4] at h1; exact (ht h3.1).1 ⟨rfl, rfl, h1⟩
              · rw [List.nil_append] at h1; rw [← h1] at h4; exact hs h4
            | cons d u => exact no_match sp h1 (by simp) h3.2 h4 hs (cleanAt_tail sp hc)
        · exact no_match sp h1 h2 h3 h4 (by simp [hcn]) hc
      · rw [ih]

theorem collapse_same : ∀ (n : Nat) (b : Bool) (s : List Char), noDouble b s → collapse n b s = s
  | 0, _, _, _ => rfl
  | n + 1, _, [], _ => rfl
  | n + 1, b, c :: s, hd => by
    unfold collapse
    rw [if_neg]
    · rw [collapse_same n _ s hd.2]
    · intro h
      simp only [Bool.and_eq_true, beq_iff_eq] at h
      exact hd.1 ⟨h.1.1, h.1.2, h.2⟩

theorem noDouble_spec : ∀ (s : List Char) (b : Bool), noDouble b s → ∀ a t, s ≠ a ++ '\n' :: '\n' :: '\n' :: t
  | [], _, _, a, t, e => by cases a <;> cases e
  | c :: s, b, h, a, t, e => by
    cases a with
    | nil =>
      rw [List.nil_append, List.cons.injEq] at e
      obtain ⟨rfl, rfl⟩ := e
      exact h.2.1 ⟨rfl, rfl, rfl⟩
    | cons d a =>
      rw [List.cons_append, List.cons.injEq] at e
      exact noDouble_spec s _ h.2 a t e.2

theorem noTrail_spec : ∀ (s : List Char) (b : Bool), noTrail b s → ∀ a, s ≠ a ++ ['\n', '\n']
  | [], _, _, a, e => by cases a <;> cases e
  | c :: s, b, h, a, e => by
    cases a with
    | nil =>
      rw [List.nil_append, List.cons.injEq] at e
      obtain ⟨rfl, rfl⟩ := e
      exact h.2.1 ⟨rfl, rfl, rfl⟩
    | cons d a =>
      rw [List.cons_append, List.cons.injEq] at e
      exact noTrail_spec s _ h.2 a e.2

end Notmuch.BlankLinesProofs
