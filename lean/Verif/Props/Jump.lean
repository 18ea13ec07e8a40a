import Verif.Proofs.Jump

namespace Notmuch.Props
open Notmuch.Jump Notmuch.JumpSpec Notmuch.JumpProofs

section
variable {α : Type}

private theorem type_cons (base : Char → Bool) (s : Stack α) (c : Char) (cs : List Char) : type base s (c :: cs) =
    match key base s c with
    | .waiting s' => type base s' cs
    | .done a _ => .done a cs
    | .base d _ => .base d cs := rfl

private theorem type_append (base : Char → Bool) (u v : List Char) : ∀ (s : Stack α), type base s (u ++ v) =
    match type base s u with
    | .waiting s' => type base s' v
    | .done a r => .done a (r ++ v)
    | .base c r => .base c (r ++ v) := by
  induction u with
  | nil => intro s; rfl
  | cons c u ih =>
    intro s
    rw [List.cons_append, type_cons, type_cons]
    cases key base s c with
    | waiting s' => exact ih s'
    | done a r => rfl
    | base d r => rfl

/-- C90: typing a key performs the action that was given to it last, provided that no beginning of it is a key, and that no character of it but the last is a
command of the minibuffer; what is typed after is left. -/
theorem C90_reach (base : Char → Bool) (actions : List (List Char × α)) (k : List Char) (a : α) (hk : k ≠ []) (ha : lastFor actions k = some a)
    (hdel : '\x7f' ∉ k) (hp : ∀ p q, k = p ++ q → p ≠ [] → q ≠ [] → lastFor actions p = none) (hb : ∀ c ∈ k.dropLast, base c = false) (rest : List Char) :
    jump base actions (k ++ rest) = .done a rest := by
  have ex : ∃ e ∈ actions, e.1 = k := by
    unfold lastFor at ha
    cases h : (actions.filter fun e => decide (e.1 = k)).getLast? with
    | none => rw [h] at ha; cases ha
    | some e =>
      have := List.mem_filter.1 (List.mem_of_getLast? h)
      exact ⟨e, this.1, of_decide_eq_true this.2⟩
  have main : ∀ (q : List Char) (rp : List Char), q ≠ [] → k = rp.reverse ++ q → type base (stackAt actions rp) (q ++ rest) = .done a rest := by
    intro q
    induction q with
    | nil => intro _ h; exact absurd rfl h
    | cons c q ih =>
      intro rp _ e
      have hc : c ≠ '\x7f' := by
        intro h
        apply hdel
        rw [e, h]
        simp
      have at_ := (key_at base actions rp c).2 (Or.inl hc)
      rw [List.cons_append, type_cons]
      cases q with
      | nil =>
        rw [at_.1 a (by rw [← e]; exact ha)]
        rfl
      | cons d q =>
        have hn := hp (rp.reverse ++ [c]) (d :: q) (by rw [e]; simp) (by simp) (by simp)
        have hbc : base c = false := hb c (by
          rw [e]
          have : rp.reverse ++ c :: d :: q = (rp.reverse ++ [c]) ++ (d :: q) := by simp
          rw [this, List.dropLast_append_of_ne_nil (by simp)]
          simp)
        obtain ⟨e0, he, hek⟩ := ex
        rw [(at_.2 hn).2.1 hbc hc ⟨e0, he, d, q, by rw [hek, e]⟩]
        exact ih (c :: rp) (by simp) (by rw [e, List.reverse_cons]; simp)
  have := main k [] hk rfl
  unfold stackAt at this
  rw [level_nil] at this
  exact this

/-- Where typing leads. -/
private theorem typed (base : Char → Bool) (hd : base '\x7f' = true) (actions : List (List Char × α)) (hne : ∀ e ∈ actions, '\x7f' ∉ e.1)
    (w : List Char) : ∀ (rp : List Char), (rp = [] ∨ ∃ e ∈ actions, ∃ d t, e.1 = rp.reverse ++ d :: t) →
    (∀ s, type base (stackAt actions rp) w = .waiting s → ∃ rp', s = stackAt actions rp' ∧ (rp' = [] ∨ ∃ e ∈ actions, ∃ d t, e.1 = rp'.reverse ++ d :: t) ∧
      rp'.reverse.Sublist (rp.reverse ++ w)) ∧
    (∀ a rest, type base (stackAt actions rp) w = .done a rest → ∃ u c p, w = u ++ c :: rest ∧ lastFor actions (p ++ [c]) = some a ∧
      p.Sublist (rp.reverse ++ u)) := by
  induction w with
  | nil =>
    intro rp h
    constructor
    · intro s e
      cases e
      exact ⟨rp, rfl, h, by simp⟩
    · intro a rest e; cases e
  | cons c w ih =>
    intro rp h
    have go : ∀ rp2, key base (stackAt actions rp) c = .waiting (stackAt actions rp2) → (rp2 = [] ∨ ∃ e ∈ actions, ∃ d t, e.1 = rp2.reverse ++ d :: t) →
        rp2.reverse.Sublist (rp.reverse ++ [c]) →
        (∀ s, type base (stackAt actions rp) (c :: w) = .waiting s → ∃ rp', s = stackAt actions rp' ∧
          (rp' = [] ∨ ∃ e ∈ actions, ∃ d t, e.1 = rp'.reverse ++ d :: t) ∧ rp'.reverse.Sublist (rp.reverse ++ c :: w)) ∧
        (∀ a rest, type base (stackAt actions rp) (c :: w) = .done a rest → ∃ u c' p, c :: w = u ++ c' :: rest ∧ lastFor actions (p ++ [c']) = some a ∧
          p.Sublist (rp.reverse ++ u)) := by
      intro rp2 e h2 hs
      have i := ih rp2 h2
      rw [type_cons, e]
      constructor
      · intro s hs'
        obtain ⟨rp', g1, g2, g3⟩ := i.1 s hs'
        refine ⟨rp', g1, g2, g3.trans ?_⟩
        have := List.Sublist.append hs (List.Sublist.refl w)
        simpa using this
      · intro a rest hs'
        obtain ⟨u, c', p, g1, g2, g3⟩ := i.2 a rest hs'
        refine ⟨c :: u, c', p, by rw [g1]; rfl, g2, g3.trans ?_⟩
        have := List.Sublist.append hs (List.Sublist.refl u)
        simpa using this
    have at_ := key_at base actions rp c
    by_cases hc : c = '\x7f' ∧ rp ≠ []
    · obtain ⟨hc, hr⟩ := hc
      obtain ⟨d, rp', rfl⟩ := List.exists_cons_of_ne_nil hr
      refine go rp' (at_.1 hc d rp' rfl) ?_ ?_
      · right
        rcases h with h | ⟨e, he, x, t, h⟩
        · cases h
        · exact ⟨e, he, d, x :: t, by rw [h, List.reverse_cons]; simp⟩
      · rw [List.reverse_cons]
        exact (List.sublist_append_left _ _).trans (List.sublist_append_left _ _)
    · have hc' : c ≠ '\x7f' ∨ rp = [] := by
        by_cases h1 : c = '\x7f'
        · right
          by_cases h2 : rp = []
          · exact h2
          · exact absurd ⟨h1, h2⟩ hc
        · exact Or.inl h1
      have at2 := at_.2 hc'
      cases hl : lastFor actions (rp.reverse ++ [c]) with
      | some a =>
        constructor
        · intro s e
          rw [type_cons] at e
          rw [at2.1 a hl] at e
          cases e
        · intro b rest e
          rw [type_cons] at e
          rw [at2.1 a hl] at e
          cases e
          exact ⟨[], c, rp.reverse, rfl, hl, by simp⟩
      | none =>
        have at3 := at2.2 hl
        cases hb : base c with
        | true =>
          constructor
          · intro s e
            rw [type_cons] at e
            rw [at3.1 hb] at e
            cases e
          · intro b rest e
            rw [type_cons] at e
            rw [at3.1 hb] at e
            cases e
        | false =>
          by_cases hx : ∃ e ∈ actions, ∃ d t, e.1 = rp.reverse ++ c :: d :: t
          · have hcd : c ≠ '\x7f' := by rintro rfl; rw [hd] at hb; cases hb
            refine go (c :: rp) (at3.2.1 hb hcd hx) (Or.inr ?_) (by simp)
            obtain ⟨e, he, d, t, h⟩ := hx
            exact ⟨e, he, d, t, by rw [h, List.reverse_cons]; simp⟩
          · refine go rp (at3.2.2 hb hx) h (List.sublist_append_left _ _)

/-- C90: an action is performed only when the last character of one of its keys has been typed, after the others in order (with keys that are undefined or
were taken back in between). -/
theorem C90_only (base : Char → Bool) (hd : base '\x7f' = true) (actions : List (List Char × α)) (hne : ∀ e ∈ actions, '\x7f' ∉ e.1) (w : List Char) (a : α)
    (rest : List Char) (h : jump base actions w = .done a rest) :
    ∃ u c p, w = u ++ c :: rest ∧ lastFor actions (p ++ [c]) = some a ∧ p.Sublist u := by
  have := (typed base hd actions hne w [] (Or.inl rfl)).2 a rest (by unfold stackAt; rw [level_nil]; exact h)
  exact this

/-- C90: while it waits for a key, what has been typed is the beginning of a key, so that there is one that leads on. -/
theorem C90_alive (base : Char → Bool) (hd : base '\x7f' = true) (actions : List (List Char × α)) (hne : ∀ e ∈ actions, '\x7f' ∉ e.1) (w : List Char)
    (s : Stack α) (h : jump base actions w = .waiting s) :
    ∃ p, s = stackAt actions p.reverse ∧ (p = [] ∨ ∃ e ∈ actions, ∃ d t, e.1 = p ++ d :: t) ∧ p.Sublist w := by
  obtain ⟨rp, h1, h2, h3⟩ := (typed base hd actions hne w [] (Or.inl rfl)).1 s (by unfold stackAt; rw [level_nil]; exact h)
  exact ⟨rp.reverse, by rw [List.reverse_reverse]; exact h1, h2.imp (fun h => by rw [h]; rfl) id, h3⟩

/-- C90: DEL takes the last key back: it is as if neither had been typed. -/
theorem C90_back (base : Char → Bool) (hd : base '\x7f' = true) (actions : List (List Char × α)) (hne : ∀ e ∈ actions, '\x7f' ∉ e.1) (w v : List Char)
    (c : Char) (s s' : Stack α) (hc : c ≠ '\x7f') (h : jump base actions w = .waiting s) (h' : jump base actions (w ++ [c]) = .waiting s') (hs : s' ≠ s) :
    jump base actions (w ++ c :: '\x7f' :: v) = jump base actions (w ++ v) := by
  obtain ⟨rp, h1, h2, _⟩ := (typed base hd actions hne w [] (Or.inl rfl)).1 s (by unfold stackAt; rw [level_nil]; exact h)
  subst h1
  unfold jump at *
  rw [type_append, h] at h'
  dsimp only at h'
  rw [type_append, type_append, h]
  dsimp only
  have at2 := (key_at base actions rp c).2 (Or.inl hc)
  have step : key base (stackAt actions rp) c = .waiting (stackAt actions (c :: rp)) := by
    rw [type_cons] at h'
    cases hl : lastFor actions (rp.reverse ++ [c]) with
    | some a => rw [at2.1 a hl] at h'; cases h'
    | none =>
      have at3 := at2.2 hl
      cases hb : base c with
      | true => rw [at3.1 hb] at h'; cases h'
      | false =>
        by_cases hx : ∃ e ∈ actions, ∃ d t, e.1 = rp.reverse ++ c :: d :: t
        · exact at3.2.1 hb hc hx
        · rw [at3.2.2 hb hx] at h'
          cases h'
          exact absurd rfl hs
  show (match key base (stackAt actions rp) c with | .waiting s' => type base s' ('\x7f' :: v) | .done a _ => .done a ('\x7f' :: v) | .base d _ => .base d ('\x7f' :: v)) = _
  rw [step]
  show (match key base (stackAt actions (c :: rp)) '\x7f' with | .waiting s' => type base s' v | .done a _ => .done a v | .base d _ => .base d v) = _
  rw [(key_at base actions (c :: rp) '\x7f').1 rfl c rp rfl]

end

/-- C90: the table of keys has every item, in order, in rows whose columns begin at the same places with at least three spaces between, none wider than the
window, if no item is (with three spaces). -/
theorem C90_table (cw : Char → Nat) (hs : cw ' ' = 1) (w : Nat) (items : List (List Char)) (hne : items ≠ []) (hw : ∀ i ∈ items, 3 + width cw i ≤ w) :
    ∃ (rows : List (List (List Char))) (col : Nat), insertItems cw w items = joinRows (rows.map (rowText cw col)) ∧ rows.flatten = items ∧ (∀ i ∈ items, 3 + width cw i ≤ col) ∧
      ∀ r ∈ rows, r ≠ [] ∧ width cw (rowText cw col r) ≤ w := by
  unfold insertItems
  have hpos : 0 < items.length := List.length_pos_iff.2 hne
  have hbig : ∀ i ∈ items, 3 + width cw i ≤ 3 + (items.map (width cw)).foldr max 0 := by
    intro i hi
    have := le_foldr_max _ _ (List.mem_map_of_mem (f := width cw) hi)
    omega
  have hmax : 3 + (items.map (width cw)).foldr max 0 ≤ w := by
    obtain ⟨i, l, e⟩ := List.exists_cons_of_ne_nil hne
    have h3 := hw i (by rw [e]; exact List.mem_cons_self ..)
    have := foldr_max_le (w - 3) (items.map (width cw)) (by
      intro x hx
      obtain ⟨j, hj, rfl⟩ := List.mem_map.1 hx
      have := hw j hj
      omega)
    omega
  have facts : (∀ i ∈ items, 3 + width cw i ≤ (columns cw w items).1) ∧ 0 < (columns cw w items).2 ∧ (columns cw w items).1 * (columns cw w items).2 ≤ w := by
    unfold columns
    dsimp only
    generalize 3 + (items.map (width cw)).foldr max 0 = col at hbig hmax
    split
    · refine ⟨hbig, by dsimp only; omega, ?_⟩
      dsimp only
      rcases Nat.le_total 1 (w / col) with h | h
      · rw [Nat.max_eq_right h]
        exact Nat.mul_div_le w col
      · rw [Nat.max_eq_left h]
        omega
    · next h =>
      refine ⟨?_, hpos, ?_⟩
      · intro i hi
        refine Nat.le_trans (hbig i hi) ?_
        rw [Nat.le_div_iff_mul_le hpos]
        omega
      · exact Nat.div_mul_le_self w items.length
  obtain ⟨f1, f2, f3⟩ := facts
  obtain ⟨rows, h1, h2, h3⟩ := table_spec cw (columns cw w items).1 (columns cw w items).2 f2 items.length items (Nat.le_refl _)
  refine ⟨rows, _, h1, h2, f1, ?_⟩
  intro r hr
  refine ⟨(h3 r hr).1, ?_⟩
  have := rowText_width cw hs (columns cw w items).1 r (by
    intro i hi
    have : i ∈ items := by rw [← h2]; exact List.mem_flatten.2 ⟨r, hr, hi⟩
    have := f1 i this
    omega)
  exact Nat.le_trans this (Nat.le_trans (Nat.mul_le_mul_left _ (h3 r hr).2) f3)

private def isBase (c : Char) : Bool := c.isDigit || c == '-' || c == '\x7f' || c == '\r'

private def isDone {α : Type} [DecidableEq α] (o : Outcome α) (a : α) (rest : List Char) : Bool :=
  match o with
  | .done b r => decide (b = a ∧ r = rest)
  | _ => false

private def isBaseOut {α : Type} (o : Outcome α) (c : Char) (rest : List Char) : Bool :=
  match o with
  | .base d r => decide (d = c ∧ r = rest)
  | _ => false

/-- C90: a longer key that begins with a digit (or "-") has no effect: digits are prefix arguments. -/
theorem C90_digit_counterexample : isBaseOut (jump isBase [("1a".toList, 1)] "1a".toList) '1' ['a'] = true := by decide +kernel

/-- C90: a key that begins with another key has no effect: the other one is performed. -/
theorem C90_prefix_counterexample : isDone (jump isBase [("ab".toList, 1), ("a".toList, 2)] "ab".toList) 2 ['b'] = true := by decide +kernel

/-- C90: keys and a table. -/
theorem C90_example :
    (let m := [("i".toList, 1), ("ga".toList, 2), ("gb".toList, 3), ("i".toList, 4), ("2".toList, 5)]
     isDone (jump isBase m "i".toList) 4 [] ∧ isDone (jump isBase m "gzbx".toList) 3 ['x'] ∧ isDone (jump isBase m ['g', '\x7f', 'i']) 4 [] ∧
       isDone (jump isBase m "2".toList) 5 []) ∧
    insertItems (fun _ => 1) 20 ["a one".toList, "b two".toList, "c three".toList] = "a one     b two\nc three".toList := by
  exact ⟨by decide +kernel, by decide +kernel⟩

end Notmuch.Props
