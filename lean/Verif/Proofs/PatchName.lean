import Verif.Spec.PatchName

namespace Notmuch.PatchNameProofs
open Notmuch.PatchName Notmuch.PatchNameSpec

/-- No two dots in a row. -/
def NoDD (l : List Char) : Prop := ∀ a b, l ≠ a ++ '.' :: '.' :: b

theorem NoDD.cons {c : Char} {l : List Char} (h : NoDD l) (h' : c = '.' → l.head? ≠ some '.') : NoDD (c :: l) := by
  intro a b e
  cases a with
  | nil =>
    simp only [List.nil_append, List.cons.injEq] at e
    exact h' e.1 (by rw [e.2]; rfl)
  | cons x a =>
    simp only [List.cons_append, List.cons.injEq] at e
    exact h a b e.2

theorem NoDD.tail {c : Char} {l : List Char} (h : NoDD (c :: l)) : NoDD l := fun a b e => h (c :: a) b (by rw [e]; rfl)

theorem NoDD.left {x y : List Char} (h : NoDD (x ++ y)) : NoDD x := fun a b e => h a (b ++ y) (by rw [e]; simp)

theorem NoDD.append {x y : List Char} (hx : NoDD x) (hy : NoDD y) (h : x.getLast? = some '.' → y.head? ≠ some '.') : NoDD (x ++ y) := by
  induction x with
  | nil => exact hy
  | cons c x ih =>
    rw [List.cons_append]
    refine NoDD.cons (ih hx.tail ?_) ?_
    · intro hl
      cases x with
      | nil => cases hl
      | cons d x => exact h (by rw [List.getLast?_cons_cons]; exact hl)
    · intro hc
      subst hc
      cases x with
      | nil => exact h rfl
      | cons d x =>
        intro hh
        simp only [List.cons_append, List.head?_cons, Option.some.injEq] at hh
        exact hx [] x (by rw [hh]; rfl)

theorem squeeze_mem (p : Char → Bool) (r c : Char) : ∀ (b : Bool) (s : List Char), c ∈ squeeze p r b s → c = r ∨ (p c = false ∧ c ∈ s) := by
  intro b s
  induction s generalizing b with
  | nil => intro h; cases h
  | cons x s ih =>
    intro h
    simp only [squeeze] at h
    split at h
    · split at h
      · rcases ih true h with h | h
        · exact Or.inl h
        · exact Or.inr ⟨h.1, List.mem_cons_of_mem _ h.2⟩
      · rcases List.mem_cons.1 h with h | h
        · exact Or.inl h
        · rcases ih true h with h | h
          · exact Or.inl h
          · exact Or.inr ⟨h.1, List.mem_cons_of_mem _ h.2⟩
    · next hp =>
      rcases List.mem_cons.1 h with h | h
      · subst h
        exact Or.inr ⟨by simpa using hp, List.mem_cons_self ..⟩
      · rcases ih false h with h | h
        · exact Or.inl h
        · exact Or.inr ⟨h.1, List.mem_cons_of_mem _ h.2⟩

theorem squeeze_dots : ∀ (s : List Char) (b : Bool), NoDD (squeeze (· == '.') '.' b s) ∧ (b = true → (squeeze (· == '.') '.' b s).head? ≠ some '.') := by
  intro s
  induction s with
  | nil => intro b; exact ⟨(fun a b e => by cases a <;> cases e), (fun _ h => by cases h)⟩
  | cons x s ih =>
    intro b
    simp only [squeeze]
    by_cases hx : x = '.'
    · subst hx
      simp only [beq_self_eq_true, if_true]
      cases b with
      | true => simpa using ih true
      | false => exact ⟨NoDD.cons (ih true).1 (fun _ => (ih true).2 rfl), (fun h => by cases h)⟩
    · have : (x == '.') = false := beq_eq_false_iff_ne.2 hx
      simp only [this, Bool.false_eq_true, if_false]
      refine ⟨NoDD.cons (ih false).1 (fun h => absurd h hx), fun _ h => hx ?_⟩
      simpa using h

theorem trim_prefix (s : List Char) : ∃ t, s = trim s ++ t := by
  refine ⟨(s.reverse.takeWhile fun c => c == '.' || c == '-').reverse, ?_⟩
  unfold trim
  rw [← List.reverse_append, List.takeWhile_append_dropWhile, List.reverse_reverse]

theorem trim_last (s : List Char) (c : Char) (h : (trim s).getLast? = some c) : c ≠ '.' ∧ c ≠ '-' := by
  unfold trim at h
  rw [List.getLast?_reverse] at h
  have := List.head?_dropWhile_not (fun c => c == '.' || c == '-') s.reverse
  rw [h] at this
  simpa using this

theorem title_facts (canon : Char → Char) (s : List Char) (n : Nat) :
    (∀ c ∈ subjectToFilename canon s (some n), isTitle canon c = true ∨ c = '-' ∨ c = '.') ∧ (subjectToFilename canon s (some n)).length ≤ n ∧
    NoDD (subjectToFilename canon s (some n)) ∧ ∀ c, (subjectToFilename canon s (some n)).getLast? = some c → c ≠ '.' ∧ c ≠ '-' := by
  unfold subjectToFilename
  dsimp only
  generalize hs : squeeze (fun c => !isTitle canon c) '-' false (stripPrefixes (s.length + 1) s) = u
  generalize hv : squeeze (· == '.') '.' false u = v
  obtain ⟨t, ht⟩ := trim_prefix (v.take (min v.length n))
  have hsub : ∀ c ∈ trim (v.take (min v.length n)), c ∈ v := by
    intro c hc
    apply List.mem_of_mem_take (i := min v.length n)
    rw [ht]
    exact List.mem_append_left _ hc
  refine ⟨?_, ?_, ?_, fun c => trim_last _ c⟩
  · intro c hc
    have h1 := hsub c hc
    rw [← hv] at h1
    rcases squeeze_mem _ _ _ _ _ h1 with h | h
    · exact Or.inr (Or.inr h)
    · have h2 := h.2
      rw [← hs] at h2
      rcases squeeze_mem _ _ _ _ _ h2 with h | h
      · exact Or.inr (Or.inl h)
      · exact Or.inl (by simpa using h.1)
  · have := congrArg List.length ht
    simp only [List.length_append, List.length_take] at this
    omega
  · have h1 : NoDD v := hv ▸ (squeeze_dots u false).1
    have h2 : NoDD (v.take (min v.length n)) := NoDD.left (y := v.drop (min v.length n)) (by rw [List.take_append_drop]; exact h1)
    rw [ht] at h2
    exact h2.left

theorem pad4_digits (n : Nat) : ∀ c ∈ pad4 n, c.isDigit = true := by
  intro c hc
  unfold pad4 at hc
  rcases List.mem_append.1 hc with h | h
  · rw [(List.mem_replicate.1 h).2]; rfl
  · rw [Nat.toList_repr] at h
    exact Nat.isDigit_of_mem_toDigits (by omega) (by omega) h

theorem noDD_of {l : List Char} (h : ∀ c ∈ l, c ≠ '.') : NoDD l := fun a b e => h '.' (by rw [e]; simp) rfl

theorem pad4_ne (n : Nat) : pad4 n ≠ [] := by
  unfold pad4
  rw [Nat.toList_repr]
  intro h
  exact Nat.toDigits_ne_nil (List.append_eq_nil_iff.1 h).2

/-! ## Prefixes -/

theorem groups_nil : ∀ (n : Nat) (s : List Char), s.head? ≠ some '[' → groups n s = ([], s)
  | 0, _, _ => rfl
  | n + 1, [], _ => rfl
  | n + 1, c :: s, h => by
    have hc : c ≠ '[' := fun e => h (by rw [e]; rfl)
    unfold groups
    split
    · next e => simp only [List.cons.injEq] at e; exact absurd e.1 hc
    · rfl

theorem groups_bracketed : ∀ (cs : List (List Char)) (t : List Char) (n : Nat), (∀ c ∈ cs, ']' ∉ c) → t.head? ≠ some '[' → t.head? ≠ some ' ' →
    cs.length ≤ n → groups n (bracketed cs ++ t) = (cs, t) := by
  intro cs
  induction cs with
  | nil => intro t n _ h _ _; exact groups_nil n t h
  | cons c cs ih =>
    intro t n hc h1 h2 hn
    obtain ⟨n, rfl⟩ : ∃ m, n = m + 1 := ⟨n - 1, by simp at hn; omega⟩
    have hd : ∀ x ∈ c, (decide (x ≠ ']')) = true := fun x hx => by
      have := hc c (List.mem_cons_self ..)
      exact decide_eq_true (fun e : x = ']' => this (by rw [← e]; exact hx))
    have e : bracketed (c :: cs) ++ t = '[' :: (c ++ ']' :: ' ' :: (bracketed cs ++ t)) := by simp [bracketed]
    rw [e]
    have e1 : (c ++ ']' :: ' ' :: (bracketed cs ++ t)).dropWhile (· ≠ ']') = ']' :: ' ' :: (bracketed cs ++ t) := by
      rw [List.dropWhile_append_of_pos hd]; rfl
    have e2 : (c ++ ']' :: ' ' :: (bracketed cs ++ t)).takeWhile (· ≠ ']') = c := by
      rw [List.takeWhile_append_of_pos hd]
      simp
    have e3 : (' ' :: (bracketed cs ++ t)).dropWhile (· == ' ') = bracketed cs ++ t := by
      have : (bracketed cs ++ t).head? ≠ some ' ' := by
        cases cs with
        | nil => exact h2
        | cons c cs => intro h; simp [bracketed] at h
      rw [List.dropWhile_cons_of_pos (by rfl)]
      cases hbt : bracketed cs ++ t with
      | nil => rfl
      | cons x l =>
        rw [hbt] at this
        rw [List.dropWhile_cons_of_neg]
        intro hx
        exact this (by rw [beq_iff_eq.1 hx]; rfl)
    simp only [groups, e1, e2, e3]
    rw [ih t n (fun c h => hc c (List.mem_cons_of_mem _ h)) h1 h2 (by simp at hn; omega)]

theorem bracketed_len (cs : List (List Char)) : cs.length ≤ (bracketed cs).length := by
  induction cs with
  | nil => exact Nat.le_refl _
  | cons c cs ih =>
    have : bracketed (c :: cs) = '[' :: c ++ [']', ' '] ++ bracketed cs := rfl
    rw [this]
    simp only [List.length_cons, List.length_append]
    omega

theorem lineGroups_bracketed (cs : List (List Char)) (t : List Char) (hc : ∀ c ∈ cs, ']' ∉ c) (h1 : t.head? ≠ some '[') (h2 : t.head? ≠ some ' ') :
    lineGroups (bracketed cs ++ t) = (cs, t) := by
  unfold lineGroups
  have e : (bracketed cs ++ t).dropWhile (· == ' ') = bracketed cs ++ t := by
    have : (bracketed cs ++ t).head? ≠ some ' ' := by
      cases cs with
      | nil => exact h2
      | cons c cs => intro h; simp [bracketed] at h
    cases hbt : bracketed cs ++ t with
    | nil => rfl
    | cons x l =>
      rw [hbt] at this
      rw [List.dropWhile_cons_of_neg]
      intro hx
      exact this (by rw [beq_iff_eq.1 hx]; rfl)
  rw [e]
  exact groups_bracketed cs t _ hc h1 h2 (by have := bracketed_len cs; simp only [List.length_append]; omega)

/-! ## Sequence numbers -/

theorem digitsSlash_none : ∀ (x : List Char), '/' ∉ x → digitsSlash x = none
  | [], _ => rfl
  | c :: s, h => by
    have ih := digitsSlash_none s (fun m => h (List.mem_cons_of_mem _ m))
    unfold digitsSlash
    split
    · next d t e =>
      have : '/' ∈ (c :: s) := by
        have h1 : '/' ∈ (c :: s).dropWhile Char.isDigit := by rw [e]; exact List.mem_cons_self ..
        exact (List.dropWhile_suffix _).subset h1
      exact absurd this h
    · exact ih

theorem digitsSlash_some (ds q : List Char) (d : Char) (hd : ∀ c ∈ ds, c.isDigit = true) (hn : ds ≠ []) (h : d.isDigit = true) :
    ∀ p : List Char, '/' ∉ p → (∀ c, p.getLast? = some c → c.isDigit = false) → digitsSlash (p ++ ds ++ '/' :: d :: q) = some ds := by
  have hs : Char.isDigit '/' = false := rfl
  intro p
  induction p with
  | nil =>
    intro _ _
    cases ds with
    | nil => exact absurd rfl hn
    | cons c ds =>
      have e1 : ((c :: ds) ++ '/' :: d :: q).dropWhile Char.isDigit = '/' :: d :: q := by
        rw [List.dropWhile_append_of_pos hd, List.dropWhile_cons_of_neg (by rw [hs]; exact Bool.noConfusion)]
      have e2 : ((c :: ds) ++ '/' :: d :: q).takeWhile Char.isDigit = c :: ds := by
        rw [List.takeWhile_append_of_pos hd, List.takeWhile_cons_of_neg (by rw [hs]; exact Bool.noConfusion), List.append_nil]
      have hc := hd c (List.mem_cons_self ..)
      simp only [List.nil_append, List.cons_append] at e1 e2 ⊢
      simp only [digitsSlash, e1, e2, hc, h, Bool.and_self, if_true]
  | cons c p ih =>
    intro h1 h2
    have hl : ∀ x, p.getLast? = some x → x.isDigit = false := by
      intro x hx
      apply h2
      cases p with
      | nil => cases hx
      | cons y p => rw [List.getLast?_cons_cons]; exact hx
    have ih := ih (fun m => h1 (List.mem_cons_of_mem _ m)) hl
    simp only [List.cons_append, List.append_assoc] at ih ⊢
    unfold digitsSlash
    split
    · next d' t e =>
      -- the run of digits ends inside `p`
      exfalso
      have key : ∀ l : List Char, '/' ∉ l → l ≠ [] → (∀ x, l.getLast? = some x → x.isDigit = false) → ∀ z t, (l ++ z).dropWhile Char.isDigit ≠ '/' :: t := by
        intro l
        induction l with
        | nil => intro _ h; exact absurd rfl h
        | cons y l ih =>
          intro h1 _ h3 z t e
          cases hy : y.isDigit with
          | false =>
            rw [List.cons_append, List.dropWhile_cons_of_neg (by rw [hy]; exact Bool.noConfusion)] at e
            simp only [List.cons.injEq] at e
            exact h1 (by rw [e.1]; exact List.mem_cons_self ..)
          | true =>
            rw [List.cons_append, List.dropWhile_cons_of_pos hy] at e
            cases l with
            | nil => have := h3 y rfl; rw [hy] at this; cases this
            | cons w l =>
              exact ih (fun m => h1 (List.mem_cons_of_mem _ m)) (by simp) (fun x hx => h3 x (by rw [List.getLast?_cons_cons]; exact hx)) z t e
      exact key (c :: p) h1 (by simp) h2 _ _ e
    · exact ih

theorem digitsSlash_no : ∀ (w : List Char), (∀ a x d b, w = a ++ x :: '/' :: d :: b → ¬ (x.isDigit = true ∧ d.isDigit = true)) → digitsSlash w = none
  | [], _ => rfl
  | c :: s, h => by
    have ih := digitsSlash_no s (fun a x d b e => h (c :: a) x d b (by rw [e]; rfl))
    unfold digitsSlash
    split
    · next d t e =>
      split
      · next hc =>
        rw [Bool.and_eq_true] at hc
        have sp := List.takeWhile_append_dropWhile (p := Char.isDigit) (l := c :: s)
        have tn : (c :: s).takeWhile Char.isDigit ≠ [] := by simp [List.takeWhile_cons, hc.1]
        have tl := List.dropLast_concat_getLast tn
        rw [e, ← tl] at sp
        have dm : ((c :: s).takeWhile Char.isDigit).getLast tn ∈ (c :: s).takeWhile Char.isDigit := List.getLast_mem tn
        have dd := List.all_eq_true.1 (List.all_takeWhile (p := Char.isDigit) (l := c :: s)) _ dm
        exact absurd ⟨dd, hc.2⟩ (h _ _ _ t (sp.symm.trans (List.append_assoc ..)))
      · exact ih
    · exact ih

theorem sequenceAt_false : ∀ (s : List Char), '\n' ∉ s → sequenceAt false s = none
  | [], _ => rfl
  | c :: s, h => by
    have hc : (c == '\n') = false := beq_eq_false_iff_ne.2 (fun e => h (by rw [e]; exact List.mem_cons_self ..))
    simp only [sequenceAt, Bool.false_eq_true, if_false, hc]
    exact sequenceAt_false s (fun m => h (List.mem_cons_of_mem _ m))

end Notmuch.PatchNameProofs
