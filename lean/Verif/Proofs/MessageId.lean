import Verif.Model.MessageId
import Verif.Spec.MessageId

/-! # Proofs about message ids in headers -/

namespace Notmuch.MessageId
open Notmuch.MessageIdSpec

theorem dropWhile_all {α : Type} {p : α → Bool} {l : List α} (h : ∀ a ∈ l, p a = true) : l.dropWhile p = [] := by
  have := List.dropWhile_append_of_pos (l₂ := []) h
  simpa using this

theorem deref_nil : deref [] = 0 := rfl
theorem deref_cons (c : UInt8) (s : Str) : deref (c :: s) = c := rfl
theorem adv_cons (c : UInt8) (s : Str) : adv (c :: s) = some s := rfl

theorem deref_zero {s : Str} (h : 0 ∉ s) : deref s = 0 ↔ s = [] := by
  cases s with
  | nil => simp [deref]
  | cons c s =>
    simp only [deref, List.mem_cons, not_or] at h ⊢
    constructor
    · intro hc; exact absurd hc.symm h.1
    · simp

/-- Skipping a comment, without fuel. -/
def skipC : Str → Nat → Str
  | [], _ => []
  | c :: s, 0 => c :: s
  | c :: s, n + 1 =>
    if c = 40 then skipC s (n + 2)
    else if c = 41 then skipC s n
    else if c = 92 then
      match s with
      | [] => []
      | _ :: s' => skipC s' (n + 1)
    else skipC s (n + 1)

theorem skipC_cons (c : UInt8) (s : Str) (n : Nat) : skipC (c :: s) (n + 1) =
    if c = 40 then skipC s (n + 2) else if c = 41 then skipC s n else if c = 92 then skipC (s.drop 1) (n + 1) else skipC s (n + 1) := by
  cases s with
  | nil => simp [skipC]
  | cons d s => simp [skipC]

theorem skipC_suffix : ∀ (k : Nat) (s : Str) (n : Nat), s.length ≤ k → skipC s n <:+ s := by
  intro k
  induction k with
  | zero =>
    intro s n h
    have : s = [] := by simpa using h
    subst this
    simp [skipC]
  | succ k ih =>
    intro s n h
    cases s with
    | nil => simp [skipC]
    | cons c s =>
      simp only [List.length_cons] at h
      cases n with
      | zero => simp [skipC]
      | succ n =>
        rw [skipC_cons]
        repeat' split
        · exact (ih _ _ (by omega)).trans (List.suffix_cons _ _)
        · exact (ih _ _ (by omega)).trans (List.suffix_cons _ _)
        · exact (ih _ _ (by simp; omega)).trans ((List.drop_suffix _ _).trans (List.suffix_cons _ _))
        · exact (ih _ _ (by omega)).trans (List.suffix_cons _ _)

theorem skipComment_cons (fuel : Nat) (c : UInt8) (s : Str) (n : Nat) : skipComment (fuel + 1) (c :: s) n =
    if c ≠ 0 ∧ n ≠ 0 then
      if c = 40 then skipComment fuel s (n + 1)
      else if c = 41 then skipComment fuel s (n - 1)
      else if c = 92 then
        if deref s ≠ 0 then (adv s).bind (fun s => skipComment fuel s n) else skipComment fuel s n
      else skipComment fuel s n
    else some (c :: s) := rfl

theorem skipComment_eq : ∀ (fuel : Nat) (s : Str) (n : Nat), 0 ∉ s → s.length < fuel → skipComment fuel s n = some (skipC s n) := by
  intro fuel
  induction fuel with
  | zero => intro s n _ h; omega
  | succ fuel ih =>
    intro s n h0 hl
    cases s with
    | nil => simp [skipComment, skipC, deref]
    | cons c s =>
      simp only [List.length_cons] at hl
      simp only [List.mem_cons, not_or] at h0
      have hc : c ≠ 0 := fun h => h0.1 h.symm
      cases n with
      | zero => simp [skipComment, skipC]
      | succ n =>
        rw [skipComment_cons, skipC_cons]
        rw [if_pos ⟨hc, by omega⟩]
        by_cases h40 : c = 40
        · rw [if_pos h40, if_pos h40]; simp [ih s _ h0.2 (by omega)]
        · rw [if_neg h40, if_neg h40]
          by_cases h41 : c = 41
          · rw [if_pos h41, if_pos h41]; simp [ih s _ h0.2 (by omega)]
          · rw [if_neg h41, if_neg h41]
            by_cases h92 : c = 92
            · rw [if_pos h92, if_pos h92]
              cases s with
              | nil =>
                rw [if_neg (by simp [deref]), ih [] _ (by simp) (by simp; omega)]
                simp [skipC]
              | cons d s =>
                simp only [List.length_cons] at hl
                simp only [List.mem_cons, not_or] at h0
                rw [if_pos (fun h => h0.2.1 h.symm)]
                simp [adv_cons, ih s _ h0.2.2 (by omega)]
            · rw [if_neg h92, if_neg h92]; simp [ih s _ h0.2 (by omega)]

theorem skipC_comment {c : Str} (h : CommentText c) : ∀ (n : Nat) (s : Str), skipC (c ++ s) (n + 1) = skipC s (n + 1) := by
  induction h with
  | nil => intro n s; rfl
  | plain h0 h1 h2 h3 _ ih =>
    intro n s
    rw [List.cons_append, skipC_cons, if_neg h1, if_neg h2, if_neg h3, ih]
  | escaped h0 _ ih =>
    intro n s
    rw [List.cons_append, List.cons_append, skipC_cons, if_neg (by decide), if_neg (by decide), if_pos rfl]
    exact ih n s
  | nested _ _ ih1 ih2 =>
    intro n s
    simp only [List.append_assoc, List.cons_append]
    rw [skipC_cons, if_pos rfl, ih1, skipC_cons, if_neg (by decide), if_pos rfl, ih2]

/-- The text does not start with whitespace or a comment. -/
def Starts (s : Str) : Prop := ∀ c, s.head? = some c → isSpace c = false ∧ c ≠ 40

theorem skip_starts {s : Str} (h : Starts s) (fuel : Nat) : skipSpaceAndComments (fuel + 1) s = some s := by
  rw [skipSpaceAndComments]
  cases s with
  | nil => simp [deref]
  | cons c s =>
    have := h c rfl
    rw [if_neg]
    simp only [deref_cons, deref_nil]
    rintro ⟨_, h | h⟩
    · rw [this.1] at h; simp at h
    · exact this.2 h

theorem skip_space (fuel : Nat) (c : UInt8) (x : Str) (hc : isSpace c = true) (h0 : 0 ∉ x) :
    skipSpaceAndComments (fuel + 2) (c :: x) = skipSpaceAndComments (fuel + 2) x := by
  have hc0 : c ≠ 0 := by rintro rfl; revert hc; decide
  have hsp : skipSpace (c :: x) = skipSpace x := by simp [skipSpace, List.dropWhile_cons, hc]
  by_cases hx : Starts x
  · rw [skip_starts hx]
    rw [skipSpaceAndComments]
    rw [if_pos (show deref (c :: x) ≠ 0 ∧ (isSpace (deref (c :: x)) = true ∨ deref (c :: x) = 40) from ⟨hc0, Or.inl hc⟩), hsp]
    have : skipSpace x = x := by
      cases x with
      | nil => rfl
      | cons d x => simp [skipSpace, List.dropWhile_cons, (hx d rfl).1]
    rw [this]
    have hn : ¬ deref x = 40 := by
      cases x with
      | nil => simp [deref]
      | cons d x => exact (hx d rfl).2
    rw [if_neg hn]
    exact skip_starts hx _
  · cases x with
    | nil => exact absurd (fun c hc => by simp at hc) hx
    | cons d x =>
      have hd : isSpace d = true ∨ d = 40 := by
        by_cases h1 : isSpace d = true
        · exact Or.inl h1
        · by_cases h2 : d = 40
          · exact Or.inr h2
          · exfalso; apply hx; intro c hc
            obtain rfl : d = c := by simpa using hc
            exact ⟨by simpa using h1, h2⟩
      have hd0 : d ≠ 0 := fun h => h0 (by simp [h])
      conv => lhs; rw [skipSpaceAndComments]
      conv => rhs; rw [skipSpaceAndComments]
      rw [if_pos (show deref (c :: d :: x) ≠ 0 ∧ (isSpace (deref (c :: d :: x)) = true ∨ deref (c :: d :: x) = 40) from ⟨hc0, Or.inl hc⟩), if_pos (show deref (d :: x) ≠ 0 ∧ (isSpace (deref (d :: x)) = true ∨ deref (d :: x) = 40) from ⟨hd0, hd⟩), hsp]

theorem skip_comment (fuel : Nat) (x : Str) (h0 : 0 ∉ x) :
    skipSpaceAndComments (fuel + 1) (40 :: x) = skipSpaceAndComments fuel (skipC x 1) := by
  rw [skipSpaceAndComments, if_pos ⟨by simp [deref], Or.inr rfl⟩]
  have : skipSpace (40 :: x) = 40 :: x := by
    have : isSpace 40 = false := by decide
    simp [skipSpace, List.dropWhile_cons, this]
  rw [this]
  simp only [deref_cons, if_true, adv_cons]
  rw [skipComment_eq _ _ _ h0 (by omega)]

theorem skip_total : ∀ (k : Nat) (s : Str) (fuel : Nat), s.length ≤ k → 0 ∉ s → s.length < fuel →
    ∃ r, skipSpaceAndComments fuel s = some r ∧ r <:+ s ∧ Starts r := by
  intro k
  induction k with
  | zero =>
    intro s fuel h _ hf
    have : s = [] := by simpa using h
    subst this
    obtain ⟨f, rfl⟩ : ∃ f, fuel = f + 1 := ⟨fuel - 1, by simp at hf; omega⟩
    exact ⟨[], skip_starts (fun c hc => by simp at hc) _, List.suffix_refl _, fun c hc => by simp at hc⟩
  | succ k ih =>
    intro s fuel h h0 hf
    obtain ⟨f, rfl⟩ : ∃ f, fuel = f + 1 := ⟨fuel - 1, by omega⟩
    by_cases hs : Starts s
    · exact ⟨s, skip_starts hs _, List.suffix_refl _, hs⟩
    · cases s with
      | nil => exact absurd (fun c hc => by simp at hc) hs
      | cons c x =>
        simp only [List.length_cons] at h hf
        have h0x : 0 ∉ x := fun hm => h0 (by simp [hm])
        by_cases h1 : isSpace c = true
        · obtain ⟨f', rfl⟩ : ∃ f', f = f' + 1 := ⟨f - 1, by omega⟩
          rw [skip_space f' c x h1 h0x]
          obtain ⟨r, e, h2, h3⟩ := ih x (f' + 2) (by omega) h0x (by omega)
          exact ⟨r, e, h2.trans (List.suffix_cons _ _), h3⟩
        · by_cases h2 : c = 40
          · subst h2
            rw [skip_comment f x h0x]
            have hsuf := skipC_suffix x.length x 1 (Nat.le_refl _)
            have hlen := hsuf.length_le
            obtain ⟨r, e, h3, h4⟩ := ih (skipC x 1) f (by omega) (fun hm => h0x (hsuf.subset hm)) (by omega)
            exact ⟨r, e, (h3.trans hsuf).trans (List.suffix_cons _ _), h4⟩
          · exfalso
            apply hs
            intro d hd
            obtain rfl : c = d := by simpa using hd
            exact ⟨by simpa using h1, h2⟩

theorem _root_.Notmuch.MessageIdSpec.Blank.no_nul {b : Str} (h : Blank b) : 0 ∉ b := by
  have hct : ∀ {c : Str}, CommentText c → 0 ∉ c := by
    intro c h
    induction h with
    | nil => simp
    | plain h0 _ _ _ _ ih => simp; exact ⟨fun h => h0 h.symm, ih⟩
    | escaped h0 _ ih => simp; exact ⟨fun h => h0 h.symm, ih⟩
    | nested _ _ ih1 ih2 => simp; exact ⟨ih1, ih2⟩
  induction h with
  | nil => simp
  | space hc _ ih =>
    simp
    refine ⟨?_, ih⟩
    rintro rfl
    revert hc; decide
  | comment hs _ ih => simp; exact ⟨hct hs, ih⟩

theorem skip_blank {b : Str} (h : Blank b) : ∀ (rest : Str), Starts rest → 0 ∉ rest → ∀ fuel, (b ++ rest).length < fuel →
    skipSpaceAndComments fuel (b ++ rest) = some rest := by
  induction h with
  | nil =>
    intro rest hr _ fuel hf
    obtain ⟨f, rfl⟩ : ∃ f, fuel = f + 1 := ⟨fuel - 1, by omega⟩
    exact skip_starts hr _
  | space hc hb ih =>
    rename_i c t
    intro rest hr h0 fuel hf
    simp only [List.cons_append, List.length_cons] at hf
    obtain ⟨f, rfl⟩ : ∃ f, fuel = f + 2 := ⟨fuel - 2, by omega⟩
    have : 0 ∉ t ++ rest := by simp; exact ⟨hb.no_nul, h0⟩
    rw [List.cons_append, skip_space f c _ hc this]
    exact ih rest hr h0 _ (by omega)
  | comment hs hb ih =>
    rename_i s t
    intro rest hr h0 fuel hf
    simp only [List.cons_append, List.append_assoc, List.length_cons, List.length_append] at hf
    obtain ⟨f, rfl⟩ : ∃ f, fuel = f + 1 := ⟨fuel - 1, by omega⟩
    have h0' : 0 ∉ s ++ 41 :: (t ++ rest) := by
      have := (Blank.comment hs hb).no_nul
      simp at this ⊢
      exact ⟨this.1, this.2, h0⟩
    simp only [List.cons_append, List.append_assoc]
    rw [skip_comment f _ h0', skipC_comment hs, skipC_cons, if_neg (by decide), if_pos rfl]
    have : skipC (t ++ rest) 0 = t ++ rest := by cases t ++ rest <;> rfl
    rw [this]
    exact ih rest hr h0 f (by simp; omega)

/-- Collapsing, without a buffer. -/
def coll : Str → Str
  | [] => []
  | c :: s =>
    if c = 32 ∨ c = 9 then
      match s with
      | [] => []
      | d :: s' => d :: coll s'
    else c :: coll s

theorem coll_cons (c : UInt8) (s : Str) : coll (c :: s) = if c = 32 ∨ c = 9 then s.take 1 ++ coll (s.drop 1) else c :: coll s := by
  cases s with
  | nil => simp [coll]
  | cons d s => simp [coll]

theorem coll_sublist : ∀ (k : Nat) (s : Str), s.length ≤ k → (coll s).Sublist s := by
  intro k
  induction k with
  | zero =>
    intro s h
    have : s = [] := by simpa using h
    subst this
    simp [coll]
  | succ k ih =>
    intro s h
    cases s with
    | nil => simp [coll]
    | cons c s =>
      simp only [List.length_cons] at h
      rw [coll_cons]
      split
      · cases s with
        | nil => simp [coll]
        | cons d s =>
          simp only [List.length_cons] at h
          exact ((ih s (by omega)).cons_cons d).cons c
      · exact (ih s (by omega)).cons_cons c

theorem collapse_eq : ∀ (fuel : Nat) (done rest : Str) (k : Nat), 0 ∉ rest → rest.length < fuel →
    ∃ k', collapse fuel (done ++ rest ++ List.replicate (k + 1) 0) done.length (rest.length + k) = some (done ++ coll rest ++ List.replicate (k' + 1) 0) := by
  intro fuel
  induction fuel with
  | zero => intro done rest k _ h; omega
  | succ fuel ih =>
    intro done rest k h0 hf
    cases rest with
    | nil =>
      refine ⟨k, ?_⟩
      rw [collapse]
      simp [coll, List.replicate_succ]
    | cons c rest =>
      simp only [List.mem_cons, not_or] at h0
      simp only [List.length_cons] at hf
      have hc0 : c ≠ 0 := fun h => h0.1 h.symm
      rw [collapse]
      have hget : (done ++ c :: rest ++ List.replicate (k + 1) 0)[done.length]? = some c := by simp
      rw [hget]
      simp only [if_neg hc0]
      rw [coll_cons]
      by_cases hb : c = 32 ∨ c = 9
      · rw [if_pos hb, if_pos hb]
        have hmm : memmoveDown (done ++ c :: rest ++ List.replicate (k + 1) 0) done.length ((c :: rest).length + k) =
            some (done ++ rest ++ List.replicate (k + 2) 0) := by
          unfold memmoveDown
          rw [if_pos (by simp; omega)]
          congr 1
          have h1 : (done ++ c :: rest ++ List.replicate (k + 1) 0).take done.length = done := by simp
          have h2 : (done ++ c :: rest ++ List.replicate (k + 1) 0).drop (done.length + 1) = rest ++ List.replicate (k + 1) 0 := by
            rw [List.append_assoc, ← List.drop_drop]; simp
          have h3 : (done ++ c :: rest ++ List.replicate (k + 1) 0).drop (done.length + ((c :: rest).length + k)) = [0] := by
            have : done ++ c :: rest ++ List.replicate (k + 1) 0 = (done ++ c :: rest ++ List.replicate k 0) ++ [0] := by
              rw [List.replicate_succ', ← List.append_assoc]
            rw [this, List.drop_append_of_le_length (by simp; omega), List.drop_eq_nil_of_le (by simp; omega)]
            rfl
          rw [h1, h2, h3, List.take_of_length_le (by simp; omega), List.append_assoc, List.append_assoc, List.append_assoc, ← List.replicate_succ']
        rw [hmm]
        simp only
        cases rest with
        | nil =>
          obtain ⟨f, rfl⟩ : ∃ f, fuel = f + 1 := ⟨fuel - 1, by simp at hf; omega⟩
          refine ⟨k + 1, ?_⟩
          rw [collapse]
          have : (done ++ [] ++ List.replicate (k + 2) 0)[done.length + 1]? = some (0 : UInt8) := by
            rw [List.append_nil, List.getElem?_append_right (by omega)]
            simp
          rw [this]
          simp [coll]
        | cons d rest =>
          obtain ⟨k', e⟩ := ih (done ++ [d]) rest (k + 1) (fun h => h0.2 (by simp [h])) (by simp at hf; omega)
          refine ⟨k', ?_⟩
          have e1 : done ++ d :: rest ++ List.replicate (k + 2) 0 = done ++ [d] ++ rest ++ List.replicate (k + 1 + 1) 0 := by simp
          have e2 : (c :: d :: rest).length + k - 1 = rest.length + (k + 1) := by simp; omega
          have e3 : done.length + 1 = (done ++ [d]).length := by simp
          rw [e1, e2, e3, e]
          simp
      · rw [if_neg hb, if_neg hb]
        obtain ⟨k', e⟩ := ih (done ++ [c]) rest k h0.2 (by omega)
        refine ⟨k', ?_⟩
        have e1 : done ++ c :: rest ++ List.replicate (k + 1) 0 = done ++ [c] ++ rest ++ List.replicate (k + 1) 0 := by simp
        have e2 : (c :: rest).length + k - 1 = rest.length + k := by rw [List.length_cons]; omega
        have e3 : done.length + 1 = (done ++ [c]).length := by simp
        rw [e1, e2, e3, e]
        simp

theorem collapse_result (r : Str) (h0 : 0 ∉ r) :
    ∃ buf, collapse (r.length + 2) (r ++ [0]) 0 r.length = some buf ∧ buf.takeWhile (· ≠ 0) = coll r := by
  obtain ⟨k', e⟩ := collapse_eq (r.length + 2) [] r 0 h0 (by omega)
  refine ⟨_, by simpa using e, ?_⟩
  have hs := coll_sublist r.length r (Nat.le_refl _)
  have : ∀ x ∈ coll r, (decide (x ≠ 0)) = true := by
    intro x hx
    have := hs.subset hx
    simp
    rintro rfl
    exact h0 this
  rw [List.takeWhile_append_of_pos this, List.replicate_succ]
  simp

/-- `parse` after the `<` has been found. -/
theorem parse_found (t s0 s1 s : Str) (ht : t ≠ []) (h0 : 0 ∉ t) (e1 : skipSpaceAndComments (t.length + 1) t = some s0)
    (e2 : s0.dropWhile (fun c => c ≠ 0 ∧ c ≠ 60) = 60 :: s1) (e3 : skipSpaceAndComments (s1.length + 1) s1 = some s) (hs : 0 ∉ s) :
    let w := s.takeWhile (fun c => c ≠ 62)
    (∀ rest, s = w ++ 62 :: rest → parse (some t) = some (if 2 ≤ w.length then some (coll w) else none, some rest)) ∧
    (s = w → parse (some t) = some (if 1 ≤ w.length then some (coll w) else none, some [])) := by
  have hne : ∀ (l : Str), 0 ∉ l → l.takeWhile (fun c => decide (c ≠ 0 ∧ c ≠ 62)) = l.takeWhile (fun c => decide (c ≠ 62)) := by
    intro l
    induction l with
    | nil => simp
    | cons c l ih =>
      intro hl
      simp only [List.mem_cons, not_or] at hl
      have hc0 : c ≠ 0 := fun h => hl.1 h.symm
      rw [List.takeWhile_cons, List.takeWhile_cons, ih hl.2]
      simp [hc0]
  have hd : deref t ≠ 0 := fun h => ht ((deref_zero h0).1 h)
  intro w
  have hw0 : 0 ∉ w := fun h => hs (List.takeWhile_subset _ h)
  unfold parse
  simp only [if_neg hd, e1]
  rw [e2]
  simp only [deref_cons, if_true, adv_cons, e3]
  rw [hne s hs]
  simp only [← show w = s.takeWhile (fun c => decide (c ≠ 62)) from rfl]
  constructor
  · intro rest hsr
    have hdrop : s.drop w.length = 62 :: rest := by
      conv => lhs; rw [hsr]
      simp
    rw [hdrop]
    simp only [deref_cons, List.drop_succ_cons, List.drop_zero, and_true]
    rw [if_pos (show ¬ (62 : UInt8) = 0 by decide)]
    by_cases h2 : 2 ≤ w.length
    · rw [if_pos (show w.length > 0 by omega), if_neg (by omega), if_pos h2]
      have : s.take (w.length - 1 + 1) = w := by
        rw [show w.length - 1 + 1 = w.length by omega]
        conv => lhs; rw [hsr]
        simp
      rw [this]
      obtain ⟨buf, b1, b2⟩ := collapse_result w hw0
      rw [b1]
      simp only
      rw [b2]
    · rw [if_neg h2, if_pos (by split <;> omega)]
  · intro hsw
    have hdrop : s.drop w.length = [] := by rw [← hsw]; simp
    rw [hdrop]
    have hx1 : ¬ (w.length > 0 ∧ deref [] = 62) := fun h => absurd h.2 (by decide)
    have hx2 : ¬ deref [] ≠ 0 := by decide
    simp only [if_neg hx1, if_neg hx2]
    by_cases h2 : 1 ≤ w.length
    · rw [if_neg (by omega), if_pos h2]
      have : s.take (w.length + 1) = w := by
        rw [← hsw, List.take_of_length_le (by omega)]
      rw [this]
      obtain ⟨buf, b1, b2⟩ := collapse_result w hw0
      rw [b1]
      simp only
      rw [b2]
    · rw [if_neg h2, if_pos (by omega)]

theorem coll_head (c : UInt8) (s : Str) (h : isSpace c = false) : ∃ r, coll (c :: s) = c :: r := by
  rw [coll_cons, if_neg]
  · exact ⟨_, rfl⟩
  · rintro (rfl | rfl) <;> revert h <;> decide

/-- Every call of `parse`. -/
theorem parse_any (t : Str) (h0 : 0 ∉ t) (ht : t ≠ []) :
    ∃ i n, parse (some t) = some (i, some n) ∧ n <:+ t ∧ n.length < t.length ∧
      ∀ v, i = some v → v.Sublist t ∧ 62 ∉ v ∧ ∃ c r, v = c :: r ∧ isSpace c = false ∧ c ≠ 40 := by
  obtain ⟨s0, e1, hs0, _⟩ := skip_total t.length t (t.length + 1) (Nat.le_refl _) h0 (by omega)
  have h00 : 0 ∉ s0 := fun h => h0 (hs0.subset h)
  cases hd : s0.dropWhile (fun c => decide (c ≠ 0 ∧ c ≠ 60)) with
  | nil =>
    refine ⟨none, [], ?_, List.nil_suffix, ?_, by simp⟩
    · have hdt : deref t ≠ 0 := fun h => ht ((deref_zero h0).1 h)
      unfold parse
      simp only [if_neg hdt, e1]
      rw [hd]
      simp [deref]
    · exact List.length_pos_iff.2 ht
  | cons c s1 =>
    have hsuf0 : c :: s1 <:+ s0 := hd ▸ List.dropWhile_suffix _
    have hc : c = 60 := by
      have := List.head?_dropWhile_not (p := fun c : UInt8 => decide (c ≠ 0 ∧ c ≠ 60)) (l := s0)
      rw [hd] at this
      simp at this
      apply this
      rintro rfl
      exact h00 (hsuf0.subset (by simp))
    subst hc
    have h10 : 0 ∉ s1 := fun h => h00 (hsuf0.subset (by simp [h]))
    obtain ⟨s, e3, hs1, hst⟩ := skip_total s1.length s1 (s1.length + 1) (Nat.le_refl _) h10 (by omega)
    have hs0' : 0 ∉ s := fun h => h10 (hs1.subset h)
    have hst' : s <:+ t := hs1.trans ((List.suffix_cons 60 s1).trans (hsuf0.trans hs0))
    have hlt : s.length < t.length := by
      have a := hs1.length_le
      have b := (hsuf0.trans hs0).length_le
      simp only [List.length_cons] at b
      omega
    have hf := parse_found t s0 s1 s ht h0 e1 hd e3 hs0'
    simp only at hf
    have hsplit : s.takeWhile (fun c => decide (c ≠ 62)) ++ s.dropWhile (fun c => decide (c ≠ 62)) = s := List.takeWhile_append_dropWhile
    have hsane : ∀ v, some (coll (s.takeWhile (fun c => decide (c ≠ 62)))) = some v → 1 ≤ (s.takeWhile (fun c => decide (c ≠ 62))).length →
        v.Sublist t ∧ 62 ∉ v ∧ ∃ c r, v = c :: r ∧ isSpace c = false ∧ c ≠ 40 := by
      intro v hv hl
      obtain rfl := Option.some.inj hv
      have hsub := coll_sublist _ (s.takeWhile (fun c => decide (c ≠ 62))) (Nat.le_refl _)
      refine ⟨(hsub.trans (List.takeWhile_sublist _)).trans hst'.sublist, ?_, ?_⟩
      · intro hm
        have := List.all_eq_true.1 List.all_takeWhile _ (hsub.subset hm)
        simp at this
      · cases s with
        | nil => simp at hl
        | cons c s' =>
          have hcc := hst c rfl
          rw [List.takeWhile_cons]
          split
          · obtain ⟨r, hr⟩ := coll_head c (s'.takeWhile (fun c => decide (c ≠ 62))) hcc.1
            exact ⟨c, r, hr, hcc.1, hcc.2⟩
          · rename_i hx
            rw [List.takeWhile_cons, if_neg hx] at hl
            simp at hl
    cases hdw : s.dropWhile (fun c => decide (c ≠ 62)) with
    | nil =>
      rw [hdw, List.append_nil] at hsplit
      refine ⟨_, [], hf.2 hsplit.symm, List.nil_suffix, by simp; omega, ?_⟩
      intro v hv
      split at hv
      · rename_i hl
        exact hsane v hv hl
      · simp at hv
    | cons e rest =>
      have he : e = 62 := by
        have := List.head?_dropWhile_not (p := fun c : UInt8 => decide (c ≠ 62)) (l := s)
        rw [hdw] at this
        simpa using this
      subst he
      rw [hdw] at hsplit
      have hrs : rest <:+ s := ⟨s.takeWhile (fun c => decide (c ≠ 62)) ++ [62], by rw [List.append_assoc]; exact hsplit⟩
      refine ⟨_, rest, hf.1 rest hsplit.symm, hrs.trans hst', Nat.lt_of_le_of_lt hrs.length_le hlt, ?_⟩
      intro v hv
      split at hv
      · rename_i hl
        exact hsane v hv (by omega)
      · simp at hv

theorem parse_at (pre b w rest : Str) (hp : Before pre) (hb : Blank b) (hw : ∀ c ∈ w, c ≠ 0 ∧ c ≠ 62) (hws : Starts w) (hr : 0 ∉ rest) :
    parse (some (pre ++ [60] ++ b ++ w ++ [62] ++ rest)) = some (if 2 ≤ w.length then some (coll w) else none, some rest) := by
  obtain ⟨bl, other, rfl, h1, h2, h3⟩ := hp
  have hw0 : 0 ∉ w := fun h => (hw 0 h).1 rfl
  have ho0 : 0 ∉ other := fun h => (h2 0 h).2 rfl
  have hb0 := hb.no_nul
  have hbl0 := h1.no_nul
  have hrest : 0 ∉ other ++ 60 :: (b ++ (w ++ 62 :: rest)) := by simp; exact ⟨ho0, hb0, hw0, hr⟩
  have hst : Starts (other ++ 60 :: (b ++ (w ++ 62 :: rest))) := by
    intro c hc
    cases other with
    | nil => obtain rfl : (60 : UInt8) = c := by simpa using hc
             decide
    | cons d o => exact h3 c (by simpa using hc)
  have hst2 : Starts (w ++ 62 :: rest) := by
    intro c hc
    cases w with
    | nil => obtain rfl : (62 : UInt8) = c := by simpa using hc
             decide
    | cons d o => exact hws c (by simpa using hc)
  have e : bl ++ other ++ [60] ++ b ++ w ++ [62] ++ rest = bl ++ (other ++ 60 :: (b ++ (w ++ 62 :: rest))) := by simp
  have e1 := skip_blank h1 _ hst hrest ((bl ++ (other ++ 60 :: (b ++ (w ++ 62 :: rest)))).length + 1) (by omega)
  have e2 : (other ++ 60 :: (b ++ (w ++ 62 :: rest))).dropWhile (fun c => decide (c ≠ 0 ∧ c ≠ 60)) = 60 :: (b ++ (w ++ 62 :: rest)) := by
    rw [List.dropWhile_append_of_pos (by intro c hc; have := h2 c hc; simp [this])]
    simp
  have hwr : 0 ∉ w ++ 62 :: rest := by simp; exact ⟨hw0, hr⟩
  have e3 := skip_blank hb (w ++ 62 :: rest) hst2 hwr ((b ++ (w ++ 62 :: rest)).length + 1) (by omega)
  have hf := parse_found _ _ _ _ (by simp) (by simp; exact ⟨hbl0, ho0, hb0, hw0, hr⟩) e1 e2 e3 hwr
  have htw : (w ++ 62 :: rest).takeWhile (fun c => decide (c ≠ 62)) = w := by
    rw [List.takeWhile_append_of_pos (by intro c hc; have := hw c hc; simp [this])]
    simp
  simp only [htw] at hf
  rw [e]
  exact hf.1 rest rfl

theorem coll_plain : ∀ (w : Str), (∀ c ∈ w, c ≠ 32 ∧ c ≠ 9) → coll w = w := by
  intro w
  induction w with
  | nil => intro _; rfl
  | cons c w ih =>
    intro h
    have := h c (by simp)
    rw [coll_cons, if_neg (by rintro (h | h) <;> simp_all), ih (fun d hd => h d (by simp [hd]))]

theorem coll_single : ∀ (k : Nat) (w : Str), w.length ≤ k → SingleBlanks w → coll w = w.filter (fun c => c ≠ 32 ∧ c ≠ 9) := by
  intro k
  induction k with
  | zero =>
    intro w h _
    have : w = [] := by simpa using h
    subst this
    rfl
  | succ k ih =>
    intro w h hs
    cases w with
    | nil => rfl
    | cons c w =>
      simp only [List.length_cons] at h
      have hs' : SingleBlanks w := fun a b x y e => hs (c :: a) b x y (by rw [e]; rfl)
      rw [coll_cons]
      by_cases hb : c = 32 ∨ c = 9
      · rw [if_pos hb, List.filter_cons_of_neg (by simp; intro h1; exact hb.resolve_left h1)]
        cases w with
        | nil => rfl
        | cons d w =>
          simp only [List.length_cons] at h
          have hd := hs [] w c d rfl
          have hd' : ¬ (d = 32 ∨ d = 9) := fun h => hd ⟨hb, h⟩
          have hs'' : SingleBlanks w := fun a b x y e => hs' (d :: a) b x y (by rw [e]; rfl)
          rw [List.take_succ_cons, List.take_zero, List.drop_succ_cons, List.drop_zero, List.singleton_append]
          rw [ih w (by omega) hs'', List.filter_cons_of_pos (by simpa [not_or] using hd')]
      · rw [if_neg hb, ih w (by omega) hs', List.filter_cons_of_pos (by simpa [not_or] using hb)]

theorem referencesLoop_total (mid : Str) : ∀ (k : Nat) (refs : Str) (fuel : Nat) (h : List Str) (l : Option Str), refs.length ≤ k → 0 ∉ refs → refs.length < fuel →
    ∃ new, referencesLoop mid fuel refs h l = some (h ++ new, new.getLast?.or l) ∧ mid ∉ new ∧
      ∀ v ∈ new, v.Sublist refs ∧ 62 ∉ v ∧ ∃ c r, v = c :: r ∧ isSpace c = false ∧ c ≠ 40 := by
  intro k
  induction k with
  | zero =>
    intro refs fuel h l hl _ hf
    have : refs = [] := by simpa using hl
    subst this
    obtain ⟨f, rfl⟩ : ∃ f, fuel = f + 1 := ⟨fuel - 1, by simp at hf; omega⟩
    exact ⟨[], by simp [referencesLoop, deref], by simp, by simp⟩
  | succ k ih =>
    intro refs fuel h l hl h0 hf
    obtain ⟨f, rfl⟩ : ∃ f, fuel = f + 1 := ⟨fuel - 1, by omega⟩
    by_cases hn : refs = []
    · subst hn
      exact ⟨[], by simp [referencesLoop, deref], by simp, by simp⟩
    · have hd : deref refs ≠ 0 := fun h => hn ((deref_zero h0).1 h)
      obtain ⟨i, n, e, h1, h2, h3⟩ := parse_any refs h0 hn
      have hn0 : 0 ∉ n := fun h => h0 (h1.subset h)
      rw [referencesLoop, if_pos hd, e]
      simp only [Option.getD_some]
      have lift : ∀ (v : Str), (v.Sublist n ∧ 62 ∉ v ∧ ∃ c r, v = c :: r ∧ isSpace c = false ∧ c ≠ 40) →
          (v.Sublist refs ∧ 62 ∉ v ∧ ∃ c r, v = c :: r ∧ isSpace c = false ∧ c ≠ 40) := fun v hv => ⟨hv.1.trans h1.sublist, hv.2⟩
      cases i with
      | none =>
        obtain ⟨new, a, b, c⟩ := ih n f h l (by omega) hn0 (by omega)
        exact ⟨new, a, b, fun v hv => lift v (c v hv)⟩
      | some v =>
        simp only
        split
        · rename_i hv
          obtain ⟨new, a, b, c⟩ := ih n f (h ++ [v]) (some v) (by omega) hn0 (by omega)
          refine ⟨v :: new, ?_, ?_, ?_⟩
          · rw [a]
            simp only [List.append_assoc, List.cons_append, List.nil_append, Option.some.injEq, Prod.mk.injEq, true_and]
            cases new with
            | nil => simp
            | cons x new =>
              rw [List.getLast?_cons_cons]
              cases hg : (x :: new).getLast? with
              | none => simp at hg
              | some y => rfl
          · simp; exact ⟨fun h => hv h.symm, b⟩
          · intro u hu
            rcases List.mem_cons.1 hu with rfl | hu
            · exact h3 _ rfl
            · exact lift u (c u hu)
        · obtain ⟨new, a, b, c⟩ := ih n f h l (by omega) hn0 (by omega)
          exact ⟨new, a, b, fun v hv => lift v (c v hv)⟩

end Notmuch.MessageId
