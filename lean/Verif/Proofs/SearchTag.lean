import Verif.Spec.SearchTag

namespace Notmuch.SearchTag.Proofs
open Notmuch.SearchTag Notmuch.SearchTag.Spec

def total (ls : List Line) : Nat := (ls.map Line.size).sum

@[simp] theorem total_nil : total [] = 0 := rfl
@[simp] theorem total_cons (l : Line) (ls : List Line) : total (l :: ls) = l.size + total ls := by simp [total]
theorem total_app (a b : List Line) : total (a ++ b) = total a + total b := by simp [total]
theorem size_pos (l : Line) : 0 < l.size := Nat.succ_pos _

theorem getResult_app (pre : List Line) (l : Line) (ls : List Line) (k : Nat) (h : k < l.size) :
    getResult (pre ++ l :: ls) (total pre + k) = some l := by
  induction pre with
  | nil => simp [getResult, h]
  | cons a pre ih =>
    have h1 : ¬ (a.size + total pre + k < a.size) := by omega
    have h2 : a.size + total pre + k - a.size = total pre + k := by omega
    simp only [List.cons_append, total_cons, getResult, h1, if_false, h2, ih]

theorem resultBeg_app (pre : List Line) (l : Line) (ls : List Line) (k : Nat) (h : k < l.size) :
    resultBeg (pre ++ l :: ls) (total pre + k) = some (total pre) := by
  induction pre with
  | nil => simp [resultBeg, h]
  | cons a pre ih =>
    have h1 : ¬ (a.size + total pre + k < a.size) := by omega
    have h2 : a.size + total pre + k - a.size = total pre + k := by omega
    simp only [List.cons_append, total_cons, resultBeg, h1, if_false, h2, ih, Option.map_some]

theorem resultEnd_app (pre : List Line) (l : Line) (ls : List Line) (k : Nat) (h : k < l.size) :
    resultEnd (pre ++ l :: ls) (total pre + k) = some (total pre + l.size) := by
  induction pre with
  | nil => simp [resultEnd, h]
  | cons a pre ih =>
    have h1 : ¬ (a.size + total pre + k < a.size) := by omega
    have h2 : a.size + total pre + k - a.size = total pre + k := by omega
    simp only [List.cons_append, total_cons, resultEnd, h1, if_false, h2, ih, Option.map_some]
    congr 1; omega

theorem replaceAt_app (f : Line → Line) (pre : List Line) (l : Line) (ls : List Line) (k : Nat) (h : k < l.size) :
    replaceAt (pre ++ l :: ls) (total pre + k) f = pre ++ f l :: ls := by
  induction pre with
  | nil => simp [replaceAt, h]
  | cons a pre ih =>
    have h1 : ¬ (a.size + total pre + k < a.size) := by omega
    have h2 : a.size + total pre + k - a.size = total pre + k := by omega
    simp only [List.cons_append, total_cons, replaceAt, h1, if_false, h2, ih]

theorem getResult_none : ∀ (ls : List Line) (p : Nat), total ls ≤ p → getResult ls p = none := by
  intro ls
  induction ls with
  | nil => intro p _; rfl
  | cons a ls ih =>
    intro p h
    rw [total_cons] at h
    have h1 : ¬ p < a.size := by omega
    simp only [getResult, h1, if_false]
    exact ih _ (by omega)

theorem resultBeg_none : ∀ (ls : List Line) (p : Nat), total ls ≤ p → resultBeg ls p = none := by
  intro ls
  induction ls with
  | nil => intro p _; rfl
  | cons a ls ih =>
    intro p h
    rw [total_cons] at h
    have h1 : ¬ p < a.size := by omega
    simp only [resultBeg, h1, if_false, ih _ (show total ls ≤ p - a.size by omega), Option.map_none]

theorem resultEnd_none : ∀ (ls : List Line) (p : Nat), total ls ≤ p → resultEnd ls p = none := by
  intro ls
  induction ls with
  | nil => intro p _; rfl
  | cons a ls ih =>
    intro p h
    rw [total_cons] at h
    have h1 : ¬ p < a.size := by omega
    simp only [resultEnd, h1, if_false, ih _ (show total ls ≤ p - a.size by omega), Option.map_none]

theorem split_at : ∀ (ls : List Line) (p : Nat), p < total ls →
    ∃ pre l post k, ls = pre ++ l :: post ∧ p = total pre + k ∧ k < l.size := by
  intro ls
  induction ls with
  | nil => intro p h; simp at h
  | cons a ls ih =>
    intro p h
    rw [total_cons] at h
    by_cases hp : p < a.size
    · exact ⟨[], a, ls, p, rfl, by simp, hp⟩
    · obtain ⟨pre, l, post, k, h1, h2, h3⟩ := ih (p - a.size) (by omega)
      exact ⟨a :: pre, l, post, k, by rw [h1]; rfl, by rw [total_cons]; omega, h3⟩

/-! ### Starts -/

theorem start_zero (ls : List Line) : start ls 0 = 0 := by simp [start]
theorem start_cons (l : Line) (ls : List Line) (i : Nat) : start (l :: ls) (i + 1) = l.size + start ls i := by simp [start]
theorem start_nil (i : Nat) : start [] i = 0 := by simp [start]
theorem start_app (pre ls : List Line) (i : Nat) : start (pre ++ ls) (pre.length + i) = total pre + start ls i := by
  simp [start, total, List.take_append, List.take_of_length_le]
theorem start_pre (pre ls : List Line) (i : Nat) (h : i ≤ pre.length) : start (pre ++ ls) i = start pre i := by
  simp [start, List.take_append, Nat.sub_eq_zero_of_le h]
theorem start_length (ls : List Line) : start ls ls.length = total ls := by simp [start, total]

theorem start_mono (ls : List Line) : ∀ i j, i ≤ j → start ls i ≤ start ls j := by
  induction ls with
  | nil => intro i j _; simp [start_nil]
  | cons a ls ih =>
    intro i j h
    cases i with
    | zero => rw [start_zero]; exact Nat.zero_le _
    | succ i =>
      cases j with
      | zero => omega
      | succ j => rw [start_cons, start_cons]; have := ih i j (by omega); omega

theorem start_lt (ls : List Line) : ∀ i, i < ls.length → start ls i < start ls (i + 1) := by
  induction ls with
  | nil => intro i h; simp at h
  | cons a ls ih =>
    intro i h
    cases i with
    | zero => rw [start_zero, start_cons]; have := size_pos a; omega
    | succ i => rw [start_cons, start_cons]; have := ih i (by simpa using h); omega

theorem touched_iff (ls : List Line) (b e i : Nat) (hbe : b ≤ e) :
    Touched ls b e i ↔ i < ls.length ∧ b < start ls (i + 1) ∧ (start ls i ≤ b ∨ start ls i < e) := by
  constructor
  · rintro ⟨hi, p, h1, h2, h3⟩
    refine ⟨hi, ?_, ?_⟩ <;> omega
  · rintro ⟨hi, h1, h2⟩
    have := start_lt ls i hi
    refine ⟨hi, max b (start ls i), by omega, by omega, ?_⟩
    omega

/-! ### What the loop visits -/

def touchRest (f : Line → Line) : List Line → Nat → Bool → List Line
  | [], _, _ => []
  | l :: ls, d, first => if first || decide (0 < d) then f l :: touchRest f ls (d - l.size) false else l :: ls

def visited : List Line → Nat → Bool → List Line
  | [], _, _ => []
  | l :: ls, d, first => if first || decide (0 < d) then l :: visited ls (d - l.size) false else []

def Hit (ls : List Line) (d : Nat) (first : Bool) (i : Nat) : Prop := (i = 0 ∧ first = true) ∨ start ls i < d

theorem hit_cons (l : Line) (ls : List Line) (d : Nat) (first : Bool) (i : Nat) :
    Hit (l :: ls) d first (i + 1) ↔ Hit ls (d - l.size) false i := by
  simp [Hit, start_cons]; omega

theorem not_hit (ls : List Line) (i : Nat) : ¬ Hit ls 0 false i := by simp [Hit]

theorem touchRest_length (f : Line → Line) (ls : List Line) : ∀ d first, (touchRest f ls d first).length = ls.length := by
  induction ls with
  | nil => intros; rfl
  | cons l ls ih =>
    intro d first
    rw [touchRest]
    split
    · simp [ih]
    · rfl

theorem touchRest_get (f : Line → Line) (ls : List Line) : ∀ d first i l, ls[i]? = some l →
    (Hit ls d first i → (touchRest f ls d first)[i]? = some (f l)) ∧ (¬ Hit ls d first i → (touchRest f ls d first)[i]? = some l) := by
  induction ls with
  | nil => intro d first i l h; simp at h
  | cons a ls ih =>
    intro d first i l h
    rw [touchRest]
    split
    · rename_i hc
      cases i with
      | zero =>
        have ha : a = l := by simpa using h
        refine ⟨fun _ => by simp [ha], fun hn => absurd ?_ hn⟩
        simp only [Hit, start_zero]
        cases first <;> simp_all
      | succ i =>
        rw [hit_cons]
        simpa using ih (d - a.size) false i l (by simpa using h)
    · rename_i hc
      have h1 : first = false := by cases first <;> simp_all
      have h2 : d = 0 := by simp_all
      subst h1; subst h2
      exact ⟨fun hh => absurd hh (not_hit _ _), fun _ => h⟩

theorem visited_mem (ls : List Line) : ∀ d first l, l ∈ visited ls d first ↔ ∃ i, ls[i]? = some l ∧ Hit ls d first i := by
  induction ls with
  | nil => intro d first l; simp [visited]
  | cons a ls ih =>
    intro d first l
    rw [visited]
    split
    · rename_i hc
      rw [List.mem_cons, ih]
      constructor
      · rintro (rfl | ⟨i, h1, h2⟩)
        · refine ⟨0, by simp, ?_⟩
          simp only [Hit, start_zero]
          cases first <;> simp_all
        · exact ⟨i + 1, by simpa using h1, (hit_cons a ls d first i).2 h2⟩
      · rintro ⟨i, h1, h2⟩
        cases i with
        | zero => left; simpa using h1.symm
        | succ i => right; exact ⟨i, by simpa using h1, (hit_cons a ls d first i).1 h2⟩
    · rename_i hc
      have h1 : first = false := by cases first <;> simp_all
      have h2 : d = 0 := by simp_all
      subst h1; subst h2
      constructor
      · intro h; cases h
      · rintro ⟨i, _, h⟩; exact absurd h (not_hit _ _)

/-- What is asked of the function of the loop, called at the beginning of line `l`. -/
def Good {α : Type} (fn : Nat → St α → St α) (f : Line → Line) (g : Line → α → α) : Prop :=
  ∀ s pre l ls, s.lines = pre ++ l :: ls →
    (fn (total pre) s).lines = pre ++ f l :: ls ∧ (fn (total pre) s).out = g l s.out ∧
      (fn (total pre) s).mark - (total pre + (f l).size) = s.mark - (total pre + l.size)

theorem loop {α : Type} {fn : Nat → St α → St α} {f : Line → Line} {g : Line → α → α} (H : Good fn f g) :
    ∀ (rest pre : List Line) (s : St α) (n d : Nat) (first : Bool), s.lines = pre ++ rest → rest.length < n → d = s.mark - total pre →
      (foreachLoop fn n (total pre) first s).lines = pre ++ touchRest f rest d first ∧
      (foreachLoop fn n (total pre) first s).out = (visited rest d first).foldl (fun o l => g l o) s.out := by
  intro rest
  induction rest with
  | nil =>
    intro pre s n d first hl hn hd
    rw [List.append_nil] at hl
    have hg : getResult s.lines (total pre) = none := getResult_none _ _ (by rw [hl]; exact Nat.le_refl _)
    have he : resultEnd s.lines (total pre) = none := resultEnd_none _ _ (by rw [hl]; exact Nat.le_refl _)
    cases n with
    | zero => omega
    | succ n =>
      rw [foreachLoop]
      split
      · simp only [hg, Option.isSome_none, Bool.false_eq_true, if_false, he]
        simp [touchRest, visited, hl]
      · simp [touchRest, visited, hl]
  | cons l ls ih =>
    intro pre s n d first hl hn hd
    cases n with
    | zero => omega
    | succ n =>
      have hg : getResult s.lines (total pre) = some l := by
        rw [hl]; have := getResult_app pre l ls 0 (size_pos l); simpa using this
      obtain ⟨h1, h2, h3⟩ := H s pre l ls hl
      have he : resultEnd (fn (total pre) s).lines (total pre) = some (total pre + (f l).size) := by
        rw [h1]; have := resultEnd_app pre (f l) ls 0 (size_pos _); simpa using this
      rw [foreachLoop, touchRest, visited]
      have hc : (decide (total pre < s.mark) || first) = true ↔ (first || decide (0 < d)) = true := by
        cases first <;> simp [hd] <;> omega
      by_cases h : (decide (total pre < s.mark) || first) = true
      · have h' := hc.1 h
        rw [if_pos h, if_pos h', if_pos h']
        simp only [hg, Option.isSome_some, if_true, he]
        have hp : total pre + (f l).size = total (pre ++ [f l]) := by simp [total_app]
        have hx := ih (pre ++ [f l]) (fn (total pre) s) n (d - l.size) false (by rw [h1]; simp) (by simpa using hn)
          (by rw [← hp, h3]; omega)
        rw [hp]
        refine ⟨by rw [hx.1]; simp, by rw [hx.2, List.foldl_cons, h2]⟩
      · have h' : ¬ (first || decide (0 < d)) = true := fun hh => h (hc.2 hh)
        rw [if_neg h, if_neg h', if_neg h']
        exact ⟨hl, rfl⟩

theorem loop_inv {α : Type} {fn : Nat → St α → St α} {P : St α → Prop} (H : ∀ pos s, P s → P (fn pos s)) :
    ∀ n pos first s, P s → P (foreachLoop fn n pos first s) := by
  intro n
  induction n with
  | zero => intro _ _ s h; exact h
  | succ n ih =>
    intro pos first s h
    rw [foreachLoop]
    split
    · have h' : P (if (getResult s.lines pos).isSome then fn pos s else s) := by
        split
        · exact H _ _ h
        · exact h
      revert h'
      generalize (if (getResult s.lines pos).isSome then fn pos s else s) = s'
      intro h'
      dsimp only
      split
      · exact h'
      · exact ih _ _ _ h'
    · exact h

theorem foreach_spec {α : Type} {fn : Nat → St α → St α} {f : Line → Line} {g : Line → α → α} (H : Good fn f g) (s : St α) (b e : Nat) (hbe : b ≤ e) :
    (foreachResult fn b e s).lines.length = s.lines.length ∧
    (∀ i l, s.lines[i]? = some l → (Touched s.lines b e i → (foreachResult fn b e s).lines[i]? = some (f l)) ∧
      (¬ Touched s.lines b e i → (foreachResult fn b e s).lines[i]? = some l)) ∧
    ∃ vs : List Line, (∀ l, l ∈ vs ↔ ∃ i, s.lines[i]? = some l ∧ Touched s.lines b e i) ∧
      (foreachResult fn b e s).out = vs.foldl (fun o l => g l o) s.out := by
  by_cases hb : total s.lines ≤ b
  · have hn : ∀ i, ¬ Touched s.lines b e i := by
      intro i ht
      rw [touched_iff _ _ _ _ hbe] at ht
      have h1 := start_mono s.lines (i + 1) s.lines.length (by omega)
      rw [start_length] at h1
      omega
    have hr : foreachResult fn b e s = s := by rw [foreachResult, resultBeg_none _ _ hb]
    rw [hr]
    exact ⟨rfl, fun i l h => ⟨fun ht => absurd ht (hn i), fun _ => h⟩, [], fun l => ⟨(fun h => by cases h), (fun ⟨i, _, h⟩ => absurd h (hn i))⟩, rfl⟩
  · obtain ⟨pre, l0, post, k, h1, h2, h3⟩ := split_at s.lines b (by omega)
    have hbeg : resultBeg s.lines b = some (total pre) := by rw [h1, h2]; exact resultBeg_app _ _ _ _ h3
    have hlen : s.lines.length = pre.length + (l0 :: post).length := by rw [h1, List.length_append]
    have hL := loop H (l0 :: post) pre { s with mark := e } (s.lines.length + 1) (e - total pre) true h1 (by omega) rfl
    have hr : foreachResult fn b e s = foreachLoop fn (s.lines.length + 1) (total pre) true { s with mark := e } := by rw [foreachResult, hbeg]
    rw [hr]
    have hT : ∀ i, i < (l0 :: post).length → (Touched s.lines b e (pre.length + i) ↔ Hit (l0 :: post) (e - total pre) true i) := by
      intro i hi
      have e1 : start s.lines (pre.length + i) = total pre + start (l0 :: post) i := by rw [h1, start_app]
      have e2 : start s.lines (pre.length + i + 1) = total pre + start (l0 :: post) (i + 1) := by rw [h1, Nat.add_assoc, start_app]
      rw [touched_iff _ _ _ _ hbe, e1, e2]
      simp only [Hit]
      cases i with
      | zero => rw [start_zero, start_cons, start_zero]; constructor <;> intro _ <;> simp <;> omega
      | succ i =>
        rw [start_cons, start_cons]
        have := start_lt post i (by simpa using hi)
        simp
        omega
    have hP : ∀ i, i < pre.length → ¬ Touched s.lines b e i := by
      intro i hi ht
      rw [touched_iff _ _ _ _ hbe] at ht
      have h4 := start_mono s.lines (i + 1) pre.length (by omega)
      have h5 : start s.lines pre.length = total pre := by
        have := start_app pre (l0 :: post) 0
        rw [← h1] at this; simpa [start_zero] using this
      omega
    refine ⟨by rw [hL.1, List.length_append, touchRest_length, hlen], ?_, visited (l0 :: post) (e - total pre) true, ?_, hL.2⟩
    · intro i l h
      rw [hL.1]
      by_cases hi : i < pre.length
      · rw [List.getElem?_append_left hi]
        have h' : pre[i]? = some l := by rw [h1, List.getElem?_append_left hi] at h; exact h
        exact ⟨fun ht => absurd ht (hP i hi), fun _ => h'⟩
      · obtain ⟨j, rfl⟩ : ∃ j, i = pre.length + j := ⟨i - pre.length, by omega⟩
        have h' : (l0 :: post)[j]? = some l := by
          rw [h1, List.getElem?_append_right (by omega)] at h
          simpa using h
        have hj : j < (l0 :: post).length := (List.getElem?_eq_some_iff.1 h').1
        rw [hT j hj, List.getElem?_append_right (by omega), Nat.add_sub_cancel_left]
        exact touchRest_get f _ _ _ j l h'
    · intro l
      rw [visited_mem]
      constructor
      · rintro ⟨j, h4, h5⟩
        have hj : j < (l0 :: post).length := (List.getElem?_eq_some_iff.1 h4).1
        refine ⟨pre.length + j, ?_, (hT j hj).2 h5⟩
        rw [h1, List.getElem?_append_right (by omega), Nat.add_sub_cancel_left]; exact h4
      · rintro ⟨i, h4, h5⟩
        by_cases hi : i < pre.length
        · exact absurd h5 (hP i hi)
        · obtain ⟨j, rfl⟩ : ∃ j, i = pre.length + j := ⟨i - pre.length, by omega⟩
          have h' : (l0 :: post)[j]? = some l := by
            rw [h1, List.getElem?_append_right (by omega)] at h4
            simpa using h4
          exact ⟨j, h', (hT j (List.getElem?_eq_some_iff.1 h').1).1 h5⟩

/-! ### The functions that are called -/

theorem collect_good {α : Type} (g : Line → α → α) : Good (collect g) id g := by
  intro s pre l ls h
  have hg : getResult s.lines (total pre) = some l := by
    rw [h]; have := getResult_app pre l ls 0 (size_pos l); simpa using this
  simp only [collect, hg]
  exact ⟨h, by trivial, by trivial⟩

theorem update_good {α : Type} (f : Line → Line) : Good (α := α) (updateResult f) f (fun _ o => o) := by
  intro s pre l ls h
  have hg : getResult s.lines (total pre) = some l := by
    rw [h]; have := getResult_app pre l ls 0 (size_pos l); simpa using this
  have hb : resultBeg s.lines (total pre) = some (total pre) := by
    rw [h]; have := resultBeg_app pre l ls 0 (size_pos l); simpa using this
  have he : resultEnd s.lines (total pre) = some (total pre + l.size) := by
    rw [h]; have := resultEnd_app pre l ls 0 (size_pos l); simpa using this
  have hr : replaceAt s.lines (total pre) f = pre ++ f l :: ls := by
    rw [h]; have := replaceAt_app f pre l ls 0 (size_pos l); simpa using this
  simp only [updateResult, hg, hb, he, hr]
  refine ⟨by trivial, by trivial, ?_⟩
  have := size_pos (f l)
  simp only [moveMark]
  split
  · omega
  · split <;> omega

theorem onLine_app (pre ls : List Line) (l : Line) (p i : Nat) (h : OnLine (pre ++ l :: ls) p i) (f : Line → Line) :
    OnLine (pre ++ f l :: ls)
      (if total pre ≤ p ∧ p ≤ total pre + l.size then
        (if p = total pre + l.size then total pre + (f l).size else min p (total pre + (f l).size - 1))
       else moveMark (total pre) (total pre + l.size) (f l).size p) i := by
  obtain ⟨h1, h2, h3⟩ := h
  have hs := size_pos (f l)
  have hs' := size_pos l
  have hlen : (pre ++ l :: ls).length = (pre ++ f l :: ls).length := by simp
  have hl2 : (pre ++ l :: ls).length = pre.length + (ls.length + 1) := by simp
  have hpre : ∀ j, j ≤ pre.length → start (pre ++ f l :: ls) j = start (pre ++ l :: ls) j := fun j hj => by
    rw [start_pre _ _ _ hj, start_pre _ _ _ hj]
  have hmid : ∀ m : Line, start (pre ++ m :: ls) pre.length = total pre := fun m => by
    have := start_app pre (m :: ls) 0
    simpa [start_zero] using this
  have hpost : ∀ (m : Line) j, start (pre ++ m :: ls) (pre.length + (j + 1)) = total pre + (m.size + start ls j) := fun m j => by
    rw [start_app, start_cons]
  refine ⟨by omega, ?_⟩
  rw [← hlen]
  by_cases hi : i < pre.length
  · have e1 := hpre i (by omega)
    have e2 := hpre (i + 1) (by omega)
    have h4 := h3 (by omega)
    have h5 := start_mono (pre ++ l :: ls) (i + 1) pre.length (by omega)
    rw [hmid] at h5
    rw [e1, e2, if_neg (by omega), moveMark, if_pos (by omega)]
    exact ⟨h2, fun _ => h4⟩
  · by_cases hi0 : i = pre.length
    · subst hi0
      have h4 := h3 (by simp)
      have e1 := hpost l 0
      have e2 := hpost (f l) 0
      rw [start_zero] at e1 e2
      simp only [Nat.zero_add, Nat.add_zero] at e1 e2
      rw [hmid] at h2 ⊢
      rw [e1] at h4
      rw [e2, if_pos (by omega), if_neg (by omega)]
      omega
    · obtain ⟨j, rfl⟩ : ∃ j, i = pre.length + (j + 1) := ⟨i - pre.length - 1, by omega⟩
      rw [hpost] at h2 ⊢
      have e3 : start (pre ++ l :: ls) (pre.length + (j + 1) + 1) = total pre + (l.size + start ls (j + 1)) := hpost l (j + 1)
      have e4 : start (pre ++ f l :: ls) (pre.length + (j + 1) + 1) = total pre + ((f l).size + start ls (j + 1)) := hpost (f l) (j + 1)
      rw [e3] at h3
      rw [e4]
      by_cases hp : p = total pre + l.size
      · rw [if_pos (by omega), if_pos hp]
        constructor
        · omega
        · intro hh; have := h3 hh; omega
      · rw [if_neg (by omega), moveMark, if_neg (by omega), if_neg (by omega)]
        constructor
        · omega
        · intro hh; have := h3 hh; omega

theorem update_onLine {α : Type} (f : Line → Line) (i pos : Nat) (s : St α) (h : OnLine s.lines s.point i) :
    OnLine (updateResult f pos s).lines (updateResult f pos s).point i := by
  by_cases hb : total s.lines ≤ pos
  · simp only [updateResult, resultBeg_none _ _ hb]; exact h
  · obtain ⟨pre, l, post, k, h1, h2, h3⟩ := split_at s.lines pos (by omega)
    have a1 : resultBeg s.lines pos = some (total pre) := by rw [h1, h2]; exact resultBeg_app _ _ _ _ h3
    have a2 : resultEnd s.lines pos = some (total pre + l.size) := by rw [h1, h2]; exact resultEnd_app _ _ _ _ h3
    have a3 : getResult s.lines pos = some l := by rw [h1, h2]; exact getResult_app _ _ _ _ h3
    have a4 : replaceAt s.lines pos f = pre ++ f l :: post := by rw [h1, h2]; exact replaceAt_app f _ _ _ _ h3
    have a5 : resultEnd (pre ++ f l :: post) (total pre) = some (total pre + (f l).size) := by
      have := resultEnd_app pre (f l) post 0 (size_pos _); simpa using this
    simp only [updateResult, a1, a2, a3, a4, a5]
    rw [h1] at h
    exact onLine_app pre post l s.point i h f

theorem foreach_onLine {α : Type} (f : Line → Line) (i b e : Nat) (s : St α) (h : OnLine s.lines s.point i) :
    OnLine (foreachResult (updateResult f) b e s).lines (foreachResult (updateResult f) b e s).point i := by
  rw [foreachResult]
  split
  · exact h
  · exact loop_inv (P := fun s => OnLine s.lines s.point i) (fun pos s h => update_onLine f i pos s h) _ _ _ _ h

/-! ### Queries -/

theorem mem_pushQueries (om : Bool) (qs : List String) (l : Line) (q : String) :
    q ∈ pushQueries om qs l ↔ q ∈ qs ∨ l.result.matched = some q ∨ (om = false ∧ l.result.unmatched = some q) := by
  unfold pushQueries
  cases l.result.matched <;> cases om <;> cases l.result.unmatched <;> simp only [List.mem_cons, Option.some.injEq, reduceCtorEq, Bool.false_eq_true, if_false, if_true, true_and, false_and, or_false, false_or, eq_comm (b := q)]
  all_goals grind

theorem mem_foldl_pushQueries (om : Bool) (q : String) : ∀ (vs : List Line) (qs : List String),
    q ∈ vs.foldl (pushQueries om) qs ↔ q ∈ qs ∨ ∃ l, l ∈ vs ∧ (l.result.matched = some q ∨ (om = false ∧ l.result.unmatched = some q)) := by
  intro vs
  induction vs with
  | nil => intro qs; simp
  | cons v vs ih =>
    intro qs
    rw [List.foldl_cons, ih, mem_pushQueries]
    constructor
    · rintro ((h | h) | ⟨l, h1, h2⟩)
      · exact Or.inl h
      · exact Or.inr ⟨v, by simp, h⟩
      · exact Or.inr ⟨l, by simp [h1], h2⟩
    · rintro (h | ⟨l, h1, h2⟩)
      · exact Or.inl (Or.inl h)
      · rcases List.mem_cons.1 h1 with rfl | h1
        · exact Or.inl (Or.inr h2)
        · exact Or.inr ⟨l, h1, h2⟩

theorem mem_foldl_cons (l : Line) : ∀ (vs out : List Line), l ∈ vs.foldl (fun o l => l :: o) out ↔ l ∈ out ∨ l ∈ vs := by
  intro vs
  induction vs with
  | nil => intro out; simp
  | cons v vs ih => intro out; rw [List.foldl_cons, ih, List.mem_cons, List.mem_cons, or_assoc, or_left_comm]

theorem mem_linesInRegion (lines : List Line) (b e : Nat) (hbe : b ≤ e) (l : Line) :
    l ∈ linesInRegion lines b e ↔ ∃ i, lines[i]? = some l ∧ Touched lines b e i := by
  obtain ⟨_, _, vs, h1, h2⟩ := foreach_spec (collect_good (fun (l : Line) (out : List Line) => l :: out))
    { lines := lines, mark := 0, point := 0, out := [] } b e hbe
  rw [linesInRegion, h2, mem_foldl_cons, ← h1]
  simp

theorem mem_queryList (lines : List Line) (b e : Nat) (om : Bool) (hbe : b ≤ e) (q : String) :
    q ∈ queryList lines b e om ↔
      ∃ i l, lines[i]? = some l ∧ Touched lines b e i ∧ (l.result.matched = some q ∨ (om = false ∧ l.result.unmatched = some q)) := by
  rw [queryList, mem_foldl_pushQueries]
  simp only [List.not_mem_nil, false_or, mem_linesInRegion _ _ _ hbe]
  constructor
  · rintro ⟨l, ⟨i, h1, h2⟩, h3⟩; exact ⟨i, l, h1, h2, h3⟩
  · rintro ⟨i, l, h1, h2, h3⟩; exact ⟨l, ⟨i, h1, h2⟩, h3⟩

theorem mem_foldl_append (t : String) : ∀ (vs : List Line) (out : List String),
    t ∈ vs.foldl (fun o l => o ++ l.result.tags) out ↔ t ∈ out ∨ ∃ l, l ∈ vs ∧ t ∈ l.result.tags := by
  intro vs
  induction vs with
  | nil => intro out; simp
  | cons v vs ih => intro out; rw [List.foldl_cons, ih]; simp [or_assoc]

theorem mem_tagsRegion (lines : List Line) (b e : Nat) (hbe : b ≤ e) (t : String) :
    t ∈ tagsRegion lines b e ↔ ∃ i l, lines[i]? = some l ∧ Touched lines b e i ∧ t ∈ l.result.tags := by
  obtain ⟨_, _, vs, h1, h2⟩ := foreach_spec (collect_good (fun (l : Line) (out : List String) => out ++ l.result.tags))
    { lines := lines, mark := 0, point := 0, out := [] } b e hbe
  rw [tagsRegion, List.mem_eraseDups, h2, mem_foldl_append]
  simp only [List.not_mem_nil, false_or, h1]
  constructor
  · rintro ⟨l, ⟨i, h1, h2⟩, h3⟩; exact ⟨i, l, h1, h2, h3⟩
  · rintro ⟨i, l, h1, h2, h3⟩; exact ⟨l, ⟨i, h1, h2⟩, h3⟩

theorem total_lt_of_onLine (lines : List Line) (p i : Nat) (hi : i < lines.length) (hp : OnLine lines p i) : p < total lines := by
  have h1 := hp.2.2 hi
  have h2 := start_mono lines (i + 1) lines.length (by omega)
  rw [start_length] at h2; omega

/-- A position on line `i` splits the lines there. -/
theorem onLine_split (lines : List Line) (p i : Nat) (hi : i < lines.length) (hp : OnLine lines p i) :
    ∃ pre l post k, lines = pre ++ l :: post ∧ p = total pre + k ∧ k < l.size ∧ pre.length = i ∧ start lines i = total pre ∧
      start lines (i + 1) = total pre + l.size := by
  obtain ⟨pre, l, post, k, h1, h2, h3⟩ := split_at lines p (total_lt_of_onLine lines p i hi hp)
  have e0 : start lines pre.length = total pre := by
    have := start_app pre (l :: post) 0
    rw [← h1] at this; simpa [start_zero] using this
  have e1 : start lines (pre.length + 1) = total pre + l.size := by
    have := start_app pre (l :: post) 1
    rw [← h1, start_cons, start_zero] at this; simpa using this
  have hl : pre.length = i := by
    obtain ⟨_, a, b⟩ := hp
    have b := b hi
    rcases Nat.lt_trichotomy pre.length i with h | h | h
    · have := start_mono lines (pre.length + 1) i (by omega); omega
    · exact h
    · have := start_mono lines (i + 1) pre.length (by omega); omega
  exact ⟨pre, l, post, k, h1, h2, h3, hl, by rw [← hl]; exact e0, by rw [← hl]; exact e1⟩

theorem nextThread_onLine (lines : List Line) (p i : Nat) (hi : i < lines.length) (hp : OnLine lines p i) : nextThread lines p = start lines (i + 1) := by
  obtain ⟨pre, l, post, k, h1, h2, h3, h4, h5, h6⟩ := onLine_split lines p i hi hp
  have : resultEnd lines p = some (total pre + l.size) := by rw [h1, h2]; exact resultEnd_app _ _ _ _ h3
  rw [nextThread, this, h6]

theorem resultBeg_onLine (lines : List Line) (p i : Nat) (hi : i < lines.length) (hp : OnLine lines p i) : resultBeg lines p = some (start lines i) := by
  obtain ⟨pre, l, post, k, h1, h2, h3, h4, h5, h6⟩ := onLine_split lines p i hi hp
  rw [h5, h1, h2]; exact resultBeg_app _ _ _ _ h3

theorem getResult_onLine (lines : List Line) (p i : Nat) (hi : i < lines.length) (hp : OnLine lines p i) : (getResult lines p).isSome = true := by
  obtain ⟨pre, l, post, k, h1, h2, h3, h4, h5, h6⟩ := onLine_split lines p i hi hp
  rw [h1, h2, getResult_app _ _ _ _ h3]; rfl

theorem previousThread_onLine (lines : List Line) (p i : Nat) (hp : OnLine lines p i) (hn : lines ≠ []) :
    previousThread lines p = if i < lines.length ∧ start lines i < p then start lines i else start lines (i - 1) := by
  have hpos : 0 < lines.length := List.length_pos_iff.2 hn
  by_cases hi : i < lines.length
  · have hg := getResult_onLine lines p i hi hp
    rw [previousThread]
    cases hr : getResult lines p with
    | none => rw [hr] at hg; cases hg
    | some l =>
      obtain ⟨a, b, c⟩ := hp
      have c := c hi
      by_cases hlt : start lines i < p
      · have : resultBeg lines (p - 1) = some (start lines i) := resultBeg_onLine lines (p - 1) i hi ⟨a, by omega, fun _ => by omega⟩
        simp only [this, Option.getD_some, hi, hlt, and_self, if_true]
        rw [if_neg (by omega)]
      · simp only [hlt, and_false, if_false]
        cases i with
        | zero => rw [start_zero] at b hlt; simp only [Nat.zero_sub, start_zero]; rw [if_pos (by omega)]
        | succ i =>
          have h1 := start_lt lines i (by omega)
          have : resultBeg lines (p - 1) = some (start lines i) :=
            resultBeg_onLine lines (p - 1) i (by omega) ⟨by omega, by omega, fun _ => by omega⟩
          simp only [this, Option.getD_some, Nat.add_sub_cancel]
          rw [if_neg (by omega)]
  · have hie : i = lines.length := by have := hp.1; omega
    have h1 : total lines ≤ p := by have := hp.2.1; rw [hie, start_length] at this; exact this
    rw [if_neg (fun h => hi h.1), previousThread, getResult_none _ _ h1, lastThread, hie]
    have h2 := start_lt lines (lines.length - 1) (by omega)
    have h3 : start lines (lines.length - 1 + 1) = total lines := by rw [Nat.sub_add_cancel hpos, start_length]
    have : resultBeg lines ((lines.map Line.size).sum - 1) = some (start lines (lines.length - 1)) :=
      resultBeg_onLine lines _ _ (by omega) (by
        have h4 : (lines.map Line.size).sum = total lines := rfl
        rw [h4]
        exact ⟨by omega, by omega, fun _ => by omega⟩)
    simp only [this]

end Notmuch.SearchTag.Proofs
