import Verif.Spec.Mbox
import Verif.Proofs.DumpRestore

namespace Notmuch.Mbox

open Notmuch.DumpRestore (splitLines)

/-- The first line, and the rest. -/
def firstLine : Str → Str × Str
  | [] => ([], [])
  | c :: s => if c = 10 then ([10], s) else (c :: (firstLine s).1, (firstLine s).2)

theorem splitLines_first (c : UInt8) (s : Str) : splitLines (c :: s) = (firstLine (c :: s)).1 :: splitLines (firstLine (c :: s)).2 := by
  induction s generalizing c with
  | nil =>
    by_cases hc : c = 10
    · subst hc; rfl
    · simp [splitLines, firstLine, hc]
  | cons d s ih =>
    rw [splitLines, firstLine]
    by_cases hc : c = 10
    · rw [if_pos hc, if_pos hc]
    · rw [if_neg hc, if_neg hc, ih d]

theorem gzTake_cases : ∀ (n : Nat) (s : Str), s ≠ [] → 1 ≤ n →
    (gzTake n s).1 ≠ [] ∧ ((gzTake n s).1.getLast? = some 10 ∧ gzTake n s = firstLine s ∨
      10 ∉ (gzTake n s).1 ∧ s = (gzTake n s).1 ++ (gzTake n s).2 ∧ firstLine s = ((gzTake n s).1 ++ (firstLine (gzTake n s).2).1, (firstLine (gzTake n s).2).2))
  | _, [], h, _ => absurd rfl h
  | 0, c :: s, _, h => by omega
  | n + 1, c :: s, _, _ => by
    rw [gzTake, firstLine]
    by_cases hc : c = 10
    · rw [if_pos hc, if_pos hc]
      exact ⟨by simp, .inl ⟨rfl, rfl⟩⟩
    · rw [if_neg hc, if_neg hc]
      refine ⟨by simp, ?_⟩
      cases s with
      | nil =>
        refine .inr ⟨?_, ?_, ?_⟩
        · cases n <;> simp [gzTake, Ne.symm hc]
        · cases n <;> simp [gzTake]
        · cases n <;> simp [gzTake, firstLine]
      | cons d s =>
        cases n with
        | zero => exact .inr ⟨by simp [gzTake, Ne.symm hc], by simp [gzTake], by simp [gzTake]⟩
        | succ n =>
          obtain ⟨h1, h2 | ⟨h2, h3, h4⟩⟩ := gzTake_cases (n + 1) (d :: s) (by simp) (by omega)
          · refine .inl ⟨?_, ?_⟩
            · rw [List.getLast?_cons_of_ne_nil h1]; exact h2.1
            · rw [h2.2]
          · refine .inr ⟨?_, ?_, ?_⟩
            · rw [List.mem_cons]; rintro (h | h)
              · exact hc h.symm
              · exact h2 h
            · rw [List.cons_append, ← h3]
            · rw [h4]; rfl

theorem takeWhile_all {s : Str} (h : 0 ∉ s) : s.takeWhile (fun c => decide (c ≠ 0)) = s := by
  induction s with
  | nil => rfl
  | cons c s ih =>
    rw [List.mem_cons, not_or] at h
    rw [List.takeWhile_cons_of_pos (by simpa using Ne.symm h.1), ih h.2]

theorem mem_firstLine {s : Str} {c : UInt8} (h : c ∈ (firstLine s).1 ∨ c ∈ (firstLine s).2) : c ∈ s := by
  induction s with
  | nil => rcases h with h | h <;> exact h
  | cons d s ih =>
    rw [firstLine] at h
    by_cases hd : d = 10
    · rw [if_pos hd] at h
      rcases h with h | h
      · rw [List.mem_singleton] at h; rw [h, hd]; exact List.mem_cons_self
      · exact List.mem_cons_of_mem _ h
    · rw [if_neg hd] at h
      rcases h with h | h
      · rcases List.mem_cons.mp h with h | h
        · rw [h]; exact List.mem_cons_self
        · exact List.mem_cons_of_mem _ (ih (.inl h))
      · exact List.mem_cons_of_mem _ (ih (.inr h))

theorem mem_gzTake {n : Nat} {s : Str} {c : UInt8} (h : c ∈ (gzTake n s).1 ∨ c ∈ (gzTake n s).2) : c ∈ s := by
  induction s generalizing n with
  | nil => cases n <;> (rcases h with h | h <;> exact h)
  | cons d s ih =>
    cases n with
    | zero =>
      rcases h with h | h
      · cases h
      · exact h
    | succ n =>
      rw [gzTake] at h
      by_cases hd : d = 10
      · rw [if_pos hd] at h
        rcases h with h | h
        · rw [List.mem_singleton] at h; rw [h, hd]; exact List.mem_cons_self
        · exact List.mem_cons_of_mem _ h
      · rw [if_neg hd] at h
        rcases h with h | h
        · rcases List.mem_cons.mp h with h | h
          · rw [h]; exact List.mem_cons_self
          · exact List.mem_cons_of_mem _ (ih (.inl h))
        · exact List.mem_cons_of_mem _ (ih (.inr h))

theorem getlineLoop_spec : ∀ (fuel len : Nat) (acc rest : Str), rest.length < fuel → acc.length + 2 ≤ len → 0 ∉ rest → (10 ∉ acc) →
    (rest = [] → getlineLoop false fuel len acc rest = some (if acc = [] then .eof else .line acc [] len)) ∧
    (rest ≠ [] → ∃ len', 2 ≤ len' ∧ getlineLoop false (fuel + 1) len acc rest = some (.line (acc ++ (firstLine rest).1) (firstLine rest).2 len'))
  | 0, _, _, _, hf, _, _, _ => by omega
  | fuel + 1, len, acc, rest, hf, hl, h0, ha => by
    refine ⟨?_, ?_⟩
    · rintro rfl
      have hg : gzTake (len - acc.length - 1) [] = ([], []) := by unfold gzTake; rfl
      rw [getlineLoop]
      simp only [hg, Bool.and_false, Bool.false_eq_true, if_false, if_true]
    · intro hne
      obtain ⟨h1, h2⟩ := gzTake_cases (len - acc.length - 1) rest hne (by omega)
      have h0' : 0 ∉ (gzTake (len - acc.length - 1) rest).1 := fun h => h0 (mem_gzTake (.inl h))
      have h0'' : 0 ∉ (gzTake (len - acc.length - 1) rest).2 := fun h => h0 (mem_gzTake (.inr h))
      rw [getlineLoop]
      simp only [Bool.and_false, Bool.false_eq_true, if_false, if_neg h1, takeWhile_all h0']
      rcases h2 with ⟨h2, h3⟩ | ⟨h2, h3, h4⟩
      · rw [List.getLast?_append, h2]
        simp only [Option.some_or, if_true]
        exact ⟨len, by omega, by rw [h3]⟩
      · have hlast : ∃ c, (acc ++ (gzTake (len - acc.length - 1) rest).1).getLast? = some c ∧ c ≠ 10 := by
          obtain ⟨c, hc⟩ : ∃ c, (gzTake (len - acc.length - 1) rest).1.getLast? = some c := by
            cases h : (gzTake (len - acc.length - 1) rest).1.getLast? with
            | none => exact absurd (List.getLast?_eq_none_iff.mp h) h1
            | some c => exact ⟨c, rfl⟩
          refine ⟨c, by rw [List.getLast?_append, hc]; rfl, ?_⟩
          rintro rfl
          exact h2 (List.mem_of_getLast? hc)
        obtain ⟨c, hc, hcn⟩ := hlast
        rw [hc]
        simp only [if_neg hcn]
        have hlen : (gzTake (len - acc.length - 1) rest).2.length < fuel := by
          have := congrArg List.length h3
          rw [List.length_append] at this
          have := List.length_pos_iff.mpr h1
          omega
        have hchunk : (gzTake (len - acc.length - 1) rest).1.length ≤ len - acc.length - 1 := by
          have : ∀ (n : Nat) (s : Str), (gzTake n s).1.length ≤ n := by
            intro n s
            induction s generalizing n with
            | nil => cases n <;> simp [gzTake]
            | cons d s ih =>
              cases n with
              | zero => simp [gzTake]
              | succ n =>
                rw [gzTake]
                split
                · simp
                · have := ih n; simp only [List.length_cons]; omega
          exact this _ _
        have hacc : 10 ∉ acc ++ (gzTake (len - acc.length - 1) rest).1 := by
          rw [List.mem_append]; rintro (h | h)
          · exact ha h
          · exact h2 h
        have ih := getlineLoop_spec fuel (2 * len) (acc ++ (gzTake (len - acc.length - 1) rest).1) (gzTake (len - acc.length - 1) rest).2 hlen
          (by rw [List.length_append]; omega) h0'' hacc
        rw [h4]
        by_cases hr : (gzTake (len - acc.length - 1) rest).2 = []
        · have hmono : ∀ f r, getlineLoop false (f + 1) (2 * len) r [] = some (if r = [] then .eof else .line r [] (2 * len)) := by
            intro f r
            have hg : gzTake (2 * len - r.length - 1) [] = ([], []) := by unfold gzTake; rfl
            rw [getlineLoop]
            simp only [hg, Bool.and_false, Bool.false_eq_true, if_false, if_true]
          refine ⟨2 * len, by omega, ?_⟩
          rw [hr, hmono]
          rw [if_neg (by intro h; rw [List.append_eq_nil_iff] at h; exact h1 h.2)]
          show _ = some (Line.line (acc ++ (_ ++ [])) [] (2 * len))
          rw [List.append_nil]
        · obtain ⟨len', hl', e⟩ := ih.2 hr
          refine ⟨len', hl', ?_⟩
          rw [e, List.append_assoc]

/-- One call of `gz_getline`. -/
theorem getline_spec (len : Option Nat) (hlen : ∀ n, len = some n → 2 ≤ n) (s : Str) (h0 : 0 ∉ s) :
    (s = [] → getline (s.length + 2) len ⟨s, false⟩ = some .eof) ∧
    (s ≠ [] → ∃ len', 2 ≤ len' ∧ getline (s.length + 2) len ⟨s, false⟩ = some (.line (firstLine s).1 (firstLine s).2 len')) := by
  have hl : 2 ≤ len.getD 120 := by
    cases len with
    | none => decide
    | some n => exact hlen n rfl
  unfold getline
  constructor
  · rintro rfl
    exact (getlineLoop_spec 2 _ [] [] (by decide) hl h0 (by simp)).1 rfl
  · intro hne
    exact (getlineLoop_spec (s.length + 1) _ [] s (by omega) hl h0 (by simp)).2 hne

theorem firstLine_lt {s : Str} (h : s ≠ []) : (firstLine s).2.length < s.length := by
  induction s with
  | nil => exact absurd rfl h
  | cons c s ih =>
    rw [firstLine]
    split
    · simp
    · cases s with
      | nil => simp [firstLine]
      | cons d s => have := ih (by simp); simp only [List.length_cons] at *; omega

theorem allLines_spec : ∀ (fuel : Nat) (len : Option Nat) (s : Str), (∀ n, len = some n → 2 ≤ n) → 0 ∉ s → s.length < fuel → allLines false fuel len s = some (splitLines s)
  | 0, _, _, _, _, h => by omega
  | fuel + 1, len, s, hl, h0, hf => by
    rw [allLines]
    obtain ⟨h1, h2⟩ := getline_spec len hl s h0
    cases s with
    | nil => rw [h1 rfl]; rfl
    | cons c s =>
      obtain ⟨len', hl', e⟩ := h2 (by simp)
      rw [e]
      have hlt := firstLine_lt (s := c :: s) (by simp)
      simp only
      rw [allLines_spec fuel (some len') _ (fun n h => by cases h; exact hl') (fun h => h0 (mem_firstLine (.inr h))) (by simp only [List.length_cons] at *; omega)]
      rw [splitLines_first]
      rfl

theorem mboxLoop_spec : ∀ (fuel : Nat) (len : Option Nat) (last s : Str), (∀ n, len = some n → 2 ≤ n) → 0 ∉ s → s.length < fuel →
    mboxLoop false fuel len last s = some ((splitLines s).flatMap quoteLine)
  | 0, _, _, _, _, _, h => by omega
  | fuel + 1, len, last, s, hl, h0, hf => by
    rw [mboxLoop]
    obtain ⟨h1, h2⟩ := getline_spec len hl s h0
    cases s with
    | nil => rw [h1 rfl]; rfl
    | cons c s =>
      obtain ⟨len', hl', e⟩ := h2 (by simp)
      rw [e]
      have hlt := firstLine_lt (s := c :: s) (by simp)
      simp only
      rw [mboxLoop_spec fuel (some len') _ _ (fun n h => by cases h; exact hl') (fun h => h0 (mem_firstLine (.inr h))) (by simp only [List.length_cons] at *; omega)]
      rw [splitLines_first]
      rfl

/-! ## Damaged files -/

theorem gzTake_le (n : Nat) (s : Str) : (gzTake n s).1.length ≤ n := by
  induction s generalizing n with
  | nil => cases n <;> simp [gzTake]
  | cons d s ih =>
    cases n with
    | zero => simp [gzTake]
    | succ n =>
      rw [gzTake]
      split
      · simp
      · have := ih n; simp only [List.length_cons]; omega

theorem getlineLoop_bad : ∀ (fuel len : Nat) (acc rest : Str), acc.length + 2 ≤ len → getlineLoop true fuel len acc rest ≠ some .eof
  | 0, _, _, _, _ => by unfold getlineLoop; simp
  | fuel + 1, len, acc, rest, hl => by
    rw [getlineLoop]
    simp only [Bool.and_true]
    by_cases he : hitEnd (len - acc.length - 1) rest = true
    · rw [if_pos he]; simp
    · rw [if_neg he]
      by_cases hc : (gzTake (len - acc.length - 1) rest).1 = []
      · rw [if_pos hc]
        by_cases hr : rest = []
        · subst hr
          refine absurd ?_ he
          have hg : gzTake (len - acc.length - 1) [] = ([], []) := by unfold gzTake; rfl
          unfold hitEnd
          rw [hg]
          simp only [List.isEmpty_nil, List.length_nil, List.getLast?_nil, Bool.true_and, ne_eq, reduceCtorEq, not_false_eq_true, decide_true, Bool.and_true, decide_eq_true_eq]
          omega
        · exact absurd hc (gzTake_cases _ rest hr (by omega)).1
      · rw [if_neg hc]
        split
        · simp
        · split
          · simp
          · refine getlineLoop_bad fuel _ _ _ ?_
            have h1 := gzTake_le (len - acc.length - 1) rest
            have h2 : ((gzTake (len - acc.length - 1) rest).1.takeWhile (fun c => decide (c ≠ 0))).length ≤ (gzTake (len - acc.length - 1) rest).1.length :=
              (List.takeWhile_sublist _).length_le
            rw [List.length_append]
            omega

theorem getlineLoop_len : ∀ (fuel len : Nat) (acc rest l r : Str) (len' : Nat), getlineLoop true fuel len acc rest = some (.line l r len') → len ≤ len'
  | 0, _, _, _, _, _, _, h => by unfold getlineLoop at h; cases h
  | fuel + 1, len, acc, rest, l, r, len', h => by
    rw [getlineLoop] at h
    simp only [Bool.and_true] at h
    split at h
    · cases h
    · split at h
      · split at h
        · cases h
        · cases h; exact Nat.le_refl _
      · split at h
        · cases h
        · split at h
          · cases h; exact Nat.le_refl _
          · have := getlineLoop_len fuel _ _ _ _ _ _ h
            omega

theorem mboxLoop_bad : ∀ (fuel : Nat) (len : Option Nat) (last s : Str), (∀ n, len = some n → 2 ≤ n) → mboxLoop true fuel len last s = none
  | 0, _, _, _, _ => rfl
  | fuel + 1, len, last, s, hl => by
    have h2 : 2 ≤ len.getD 120 := by
      cases len with
      | none => decide
      | some n => exact hl n rfl
    rw [mboxLoop]
    split
    · rename_i h
      exact absurd h (getlineLoop_bad _ _ _ _ (by simpa using h2))
    · rename_i l r len' h
      have := getlineLoop_len _ _ _ _ _ _ _ h
      rw [mboxLoop_bad fuel (some len') l r (fun n hn => by cases hn; omega)]
      rfl
    · rw [mboxLoop_bad fuel len last s hl]; rfl
    · rfl

/-! ## Reading it again -/

theorem splitLines_flatten (s : Str) : (splitLines s).flatten = s := by
  induction s with
  | nil => rfl
  | cons c s ih =>
    rw [splitLines]
    split
    · rename_i hc; rw [List.flatten_cons, ih, hc]; rfl
    · split
      · rename_i h; rw [h] at ih; rw [← ih]; rfl
      · rename_i l ls h
        rw [h, List.flatten_cons] at ih
        rw [List.flatten_cons, List.cons_append, ih]

theorem splitLines_complete_append {l : Str} (h : Complete l) (r : Str) : splitLines (l ++ r) = l :: splitLines r := by
  obtain ⟨b, rfl, hb⟩ := h
  induction b with
  | nil => simp [splitLines]
  | cons c b ih =>
    rw [List.mem_cons, not_or] at hb
    have := ih hb.2
    rw [List.cons_append, List.cons_append, splitLines, if_neg (Ne.symm hb.1), this]

theorem splitLines_flatMap (ls : List Str) (f : Str → Str) (h : ∀ l ∈ ls, Complete (f l)) (r : Str) :
    splitLines (ls.flatMap f ++ r) = ls.map f ++ splitLines r := by
  induction ls with
  | nil => rfl
  | cons l ls ih =>
    rw [List.flatMap_cons, List.append_assoc, splitLines_complete_append (h l List.mem_cons_self), ih (fun x hx => h x (List.mem_cons_of_mem _ hx))]
    rfl

theorem splitLines_complete : ∀ (s : Str), ∀ l ∈ splitLines (s ++ [10]), Complete l
  | [], l, hl => by
    have : splitLines ([] ++ [10]) = [[10]] := by decide
    rw [this, List.mem_singleton] at hl
    exact ⟨[], hl, by simp⟩
  | c :: s, l, hl => by
    have ih := splitLines_complete s
    rw [List.cons_append, splitLines] at hl
    split at hl
    · rcases List.mem_cons.mp hl with rfl | hl
      · exact ⟨[], rfl, by simp⟩
      · exact ih l hl
    · rename_i hc
      split at hl
      · rename_i h
        have := splitLines_flatten (s ++ [10])
        rw [h] at this
        simp at this
      · rename_i x ls h
        rcases List.mem_cons.mp hl with rfl | hl
        · obtain ⟨b, rfl, hb⟩ := ih x (by rw [h]; exact List.mem_cons_self)
          exact ⟨c :: b, rfl, by rw [List.mem_cons, not_or]; exact ⟨Ne.symm hc, hb⟩⟩
        · exact ih l (by rw [h]; exact List.mem_cons_of_mem _ hl)

theorem isFromLine_nl (l : Str) (h : 10 ∉ l) : isFromLine (l ++ [10]) = isFromLine l := by
  unfold isFromLine
  have e : bs "From " = [70, 114, 111, 109, 32] := by decide +kernel
  have key : ∀ (p t : Str), 10 ∉ p → p.isPrefixOf (t ++ [10]) = p.isPrefixOf t := by
    intro p
    induction p with
    | nil => intro t _; simp [List.isPrefixOf]
    | cons a p ih =>
      intro t hp
      rw [List.mem_cons, not_or] at hp
      cases t with
      | nil => simp [List.isPrefixOf, Ne.symm hp.1]
      | cons b t => simp [List.isPrefixOf, ih t hp.2]
  have hd : (l ++ [10]).dropWhile (fun c => decide (c = 62)) = l.dropWhile (fun c => decide (c = 62)) ++ [10] := by
    clear h
    induction l with
    | nil => decide
    | cons a l ih =>
      rw [List.cons_append]
      by_cases ha : a = 62
      · rw [List.dropWhile_cons_of_pos (by simpa using ha), List.dropWhile_cons_of_pos (by simpa using ha), ih]
      · rw [List.dropWhile_cons_of_neg (by simpa using ha), List.dropWhile_cons_of_neg (by simpa using ha)]; rfl
  rw [hd, key _ _ (by rw [e]; decide)]

/-- Adding the newline after the last line, or as a line of its own, gives the lines of the file with a newline at its end. -/
theorem quote_newline (s : Str) : (splitLines s).flatMap quoteLine ++ [10] = (splitLines (s ++ [10])).flatMap quoteLine := by
  have key : ∀ (n : Nat) (s : Str), s.length ≤ n → (splitLines s).flatMap quoteLine ++ [10] = (splitLines (s ++ [10])).flatMap quoteLine := by
    intro n
    induction n with
    | zero =>
      intro s hs
      have : s = [] := List.length_eq_zero_iff.mp (by omega)
      subst this
      decide +kernel
    | succ n ih =>
      intro s hs
      by_cases h10 : 10 ∈ s
      · obtain ⟨b, r, e, hb⟩ := List.append_of_mem h10 |> fun _ => (by
          have : ∀ s : Str, 10 ∈ s → ∃ b r, s = b ++ [10] ++ r ∧ 10 ∉ b := by
            intro s
            induction s with
            | nil => intro h; cases h
            | cons c s ih =>
              intro h
              by_cases hc : c = 10
              · exact ⟨[], s, by rw [hc]; rfl, by simp⟩
              · rcases List.mem_cons.mp h with h | h
                · exact absurd h.symm hc
                · obtain ⟨b, r, e, hb⟩ := ih h
                  exact ⟨c :: b, r, by rw [e]; rfl, by rw [List.mem_cons, not_or]; exact ⟨Ne.symm hc, hb⟩⟩
          exact this s h10)
        have hc : Complete (b ++ [10]) := ⟨b, rfl, hb⟩
        rw [e, splitLines_complete_append hc, List.append_assoc (b ++ [10]), splitLines_complete_append hc]
        rw [List.flatMap_cons, List.flatMap_cons, List.append_assoc, ih r (by rw [e] at hs; simp at hs; omega)]
      · cases s with
        | nil => decide +kernel
        | cons c s =>
          have h1 : splitLines ((c :: s) ++ [10] ++ []) = ((c :: s) ++ [10]) :: splitLines [] := splitLines_complete_append ⟨c :: s, rfl, h10⟩ []
          rw [List.append_nil] at h1
          have h2 : splitLines (c :: s) = [c :: s] := by
            have : ∀ (c : UInt8) (s : Str), 10 ∉ c :: s → splitLines (c :: s) = [c :: s] := by
              intro c s
              induction s generalizing c with
              | nil => intro h; rw [List.mem_cons, not_or] at h; simp [splitLines, Ne.symm h.1]
              | cons d s ih =>
                intro h
                rw [List.mem_cons, not_or] at h
                rw [splitLines, if_neg (Ne.symm h.1), ih d h.2]
            exact this c s h10
          rw [h1, h2]
          simp only [List.flatMap_cons, List.flatMap_nil, List.append_nil, splitLines]
          unfold quoteLine
          rw [isFromLine_nl _ h10]
          split <;> rfl
  exact key _ s (Nat.le_refl _)

theorem quoteLine_not_from (l : Str) : (bs "From ").isPrefixOf (quoteLine l) = false := by
  have e : bs "From " = [70, 114, 111, 109, 32] := by decide +kernel
  unfold quoteLine
  by_cases h : isFromLine l = true
  · rw [if_pos h, e]; rfl
  · rw [if_neg h]
    cases hp : (bs "From ").isPrefixOf l with
    | false => rfl
    | true =>
      refine absurd ?_ h
      unfold isFromLine
      cases l with
      | nil => rw [e] at hp; cases hp
      | cons c l =>
        have hc : c = 70 := by
          rw [e] at hp
          simp only [List.isPrefixOf, Bool.and_eq_true, beq_iff_eq] at hp
          exact hp.1.symm
        rw [List.dropWhile_cons_of_neg (by rw [hc]; decide)]
        exact hp

theorem unquote_quote (l : Str) : unquoteLine (quoteLine l) = l := by
  unfold quoteLine
  by_cases h : isFromLine l = true
  · rw [if_pos h, unquoteLine, if_pos ⟨rfl, h⟩]
  · rw [if_neg h]
    cases l with
    | nil => rfl
    | cons c l =>
      rw [unquoteLine, if_neg]
      rintro ⟨rfl, h2⟩
      refine h ?_
      unfold isFromLine
      rw [List.dropWhile_cons_of_pos (by decide)]
      exact h2

theorem quoteLine_complete {l : Str} (h : Complete l) : Complete (quoteLine l) := by
  obtain ⟨b, rfl, hb⟩ := h
  unfold quoteLine
  split
  · exact ⟨62 :: b, rfl, by rw [List.mem_cons, not_or]; exact ⟨by decide, hb⟩⟩
  · exact ⟨b, rfl, hb⟩

theorem group_append (ls : List Str) (h : ∀ l ∈ ls, (bs "From ").isPrefixOf l = false) (r : List Str) :
    group (ls ++ r) = (ls ++ (group r).1, (group r).2) := by
  induction ls with
  | nil => rfl
  | cons l ls ih =>
    rw [List.cons_append, group, h l List.mem_cons_self, ih (fun x hx => h x (List.mem_cons_of_mem _ hx))]
    rfl

theorem formatMbox_spec {fuel : Nat} {m : Mail} (h : Ok m) (hf : m.file.rest.length < fuel) :
    formatMbox fuel m = some (fromLine m ++ (splitLines (m.file.rest ++ [10])).flatMap quoteLine) := by
  have e : bs "\n" = [10] := by decide +kernel
  unfold formatMbox
  rw [h.1, mboxLoop_spec fuel none [] m.file.rest (fun n hn => by cases hn) h.2.1 hf]
  simp only [Option.map_some, e, List.append_assoc, quote_newline, fromLine]

theorem fromLine_complete {m : Mail} (h : Ok m) : Complete (fromLine m) := by
  obtain ⟨b, hb, hn⟩ := h.2.2.2
  have e : bs "From " = [70, 114, 111, 109, 32] := by decide +kernel
  have e2 : bs " " = [32] := by decide +kernel
  refine ⟨bs "From " ++ m.sender ++ bs " " ++ b, by rw [fromLine, hb]; simp only [List.append_assoc], ?_⟩
  rw [e, e2]
  simp only [List.mem_append, not_or]
  exact ⟨⟨⟨by decide, h.2.2.1⟩, by decide⟩, hn⟩

theorem fromLine_from (m : Mail) : (bs "From ").isPrefixOf (fromLine m) = true := by
  unfold fromLine
  rw [List.append_assoc, List.append_assoc, List.isPrefixOf_iff_prefix]
  exact List.prefix_append _ _

theorem mbox_spec : ∀ (fuel : Nat) (ms : List Mail), (∀ m ∈ ms, Ok m ∧ m.file.rest.length < fuel) →
    ∃ s, mbox fuel ms = some s ∧ (group (splitLines s)).1 = [] ∧ readMbox s = ms.map (fun m => (fromLine m, m.file.rest))
  | _, [], _ => ⟨[], rfl, rfl, rfl⟩
  | fuel, m :: ms, h => by
    obtain ⟨s, e, h0, hr⟩ := mbox_spec fuel ms (fun x hx => h x (List.mem_cons_of_mem _ hx))
    obtain ⟨hm, hf⟩ := h m List.mem_cons_self
    rw [mbox, formatMbox_spec hm hf]
    simp only [Option.bind_some]
    rw [e]
    refine ⟨_, rfl, ?_⟩
    have hs : splitLines (fromLine m ++ (splitLines (m.file.rest ++ [10])).flatMap quoteLine ++ s) =
        fromLine m :: ((splitLines (m.file.rest ++ [10])).map quoteLine ++ splitLines s) := by
      rw [List.append_assoc, splitLines_complete_append (fromLine_complete hm),
        splitLines_flatMap _ _ (fun l hl => quoteLine_complete (splitLines_complete _ l hl))]
    have hg : group (splitLines (fromLine m ++ (splitLines (m.file.rest ++ [10])).flatMap quoteLine ++ s)) =
        ([], (fromLine m, (splitLines (m.file.rest ++ [10])).map quoteLine) :: (group (splitLines s)).2) := by
      rw [hs, group, if_pos (fromLine_from m), group_append _ (fun l hl => by
        obtain ⟨x, _, rfl⟩ := List.mem_map.mp hl
        exact quoteLine_not_from x), h0, List.append_nil]
    refine ⟨by rw [hg], ?_⟩
    unfold readMbox
    rw [hg, List.map_cons, List.map_cons]
    congr 1
    rw [List.flatMap_map]
    have : (splitLines (m.file.rest ++ [10])).flatMap (fun l => unquoteLine (quoteLine l)) = m.file.rest ++ [10] := by
      simp only [unquote_quote]
      have : ∀ ls : List Str, ls.flatMap (fun l => l) = ls.flatten := by
        intro ls; induction ls with
        | nil => rfl
        | cons a l ih => rw [List.flatMap_cons, List.flatten_cons, ih]
      rw [this, splitLines_flatten]
    rw [this, List.dropLast_concat]

end Notmuch.Mbox
