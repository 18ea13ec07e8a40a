import Verif.Spec.Jump

namespace Notmuch.JumpProofs
open Notmuch.Jump Notmuch.JumpSpec

variable {α : Type}

theorem level_nil (actions : List (List Char × α)) : level actions [] = actions.map fun e => (e.1, some e.2) := by
  unfold level
  simp only [if_true, List.append_nil]
  induction actions with
  | nil => rfl
  | cons e l ih => simp [List.filterMap_cons, ih]

theorem isPrefixOf_snoc : ∀ (p k : List Char) (c : Char), (p ++ [c]).isPrefixOf k = (p.isPrefixOf k && (k.drop p.length).head? == some c)
  | [], [], c => rfl
  | [], d :: k, c => by simp [List.isPrefixOf, Bool.beq_comm]
  | _ :: p, [], c => rfl
  | x :: p, d :: k, c => by
    simp only [List.cons_append, List.isPrefixOf, isPrefixOf_snoc p k c, List.length_cons, List.drop_succ_cons, Bool.and_assoc]

theorem submap_level (actions : List (List Char × α)) (p : List Char) (c : Char) (hc : c ≠ '\x7f') :
    submap (level actions p) c = level actions (p ++ [c]) := by
  unfold submap level
  have e0 : (p ++ [c] = []) = False := by simp
  simp only [e0, if_false]
  congr 1
  rw [List.filter_append, List.map_append]
  have e1 : ((if p = [] then [] else [(['\x7f'], (none : Option α))]).filter fun e => e.1.head? == some c) = [] := by
    split
    · rfl
    · simp [Ne.symm hc]
  rw [e1, List.map_nil, List.append_nil]
  induction actions with
  | nil => rfl
  | cons e l ih =>
    rw [List.filterMap_cons, List.filterMap_cons]
    cases hp : p.isPrefixOf e.1 with
    | false =>
      have : (p ++ [c]).isPrefixOf e.1 = false := by rw [isPrefixOf_snoc, hp]; rfl
      simp only [this, Bool.false_eq_true, if_false]
      exact ih
    | true =>
      simp only [if_true]
      cases hh : ((e.1.drop p.length).head? == some c) with
      | false =>
        have : (p ++ [c]).isPrefixOf e.1 = false := by rw [isPrefixOf_snoc, hh]; simp
        simp only [this, Bool.false_eq_true, if_false]
        rw [List.filter_cons_of_neg (by simp only [hh]; simp)]
        exact ih
      | true =>
        have : (p ++ [c]).isPrefixOf e.1 = true := by rw [isPrefixOf_snoc, hp, hh]; rfl
        simp only [this, if_true]
        rw [List.filter_cons_of_pos (by exact hh), List.map_cons, ih]
        simp [List.drop_drop]

theorem prefix_drop : ∀ (p k : List Char) (c : Char), (p.isPrefixOf k = true ∧ k.drop p.length = [c]) ↔ k = p ++ [c]
  | [], k, c => by simp
  | x :: p, [], c => by simp
  | x :: p, d :: k, c => by
    have ih := prefix_drop p k c
    simp only [List.isPrefixOf, Bool.and_eq_true, beq_iff_eq, List.length_cons, List.drop_succ_cons, List.cons_append, List.cons.injEq, and_assoc, ih]
    constructor
    · rintro ⟨h1, h2⟩; exact ⟨h1.symm, h2⟩
    · rintro ⟨h1, h2⟩; exact ⟨h1.symm, h2⟩

theorem single_level (actions : List (List Char × α)) (p : List Char) (c : Char) (hc : c ≠ '\x7f' ∨ p = []) :
    single (level actions p) c = (lastFor actions (p ++ [c])).map some := by
  unfold single lastFor level
  rw [List.filter_append]
  have e1 : ((if p = [] then [] else [(['\x7f'], (none : Option α))]).filter fun e => decide (e.1 = [c])) = [] := by
    rcases hc with hc | hc
    · split
      · rfl
      · simp [Ne.symm hc]
    · rw [if_pos hc]; rfl
  rw [e1, List.append_nil]
  have e2 : ((actions.filterMap fun e => if p.isPrefixOf e.1 then some (e.1.drop p.length, some e.2) else none).filter fun e => decide (e.1 = [c])) =
      (actions.filter fun e => decide (e.1 = p ++ [c])).map fun e => ([c], some e.2) := by
    induction actions with
    | nil => rfl
    | cons e l ih =>
      rw [List.filterMap_cons]
      have iff := prefix_drop p e.1 c
      by_cases h : e.1 = p ++ [c]
      · obtain ⟨h1, h2⟩ := iff.2 h
        simp only [h1, if_true]
        rw [List.filter_cons_of_pos (by simp [h2]), List.filter_cons_of_pos (by simp [h]), List.map_cons, ih, h2]
      · rw [List.filter_cons_of_neg (p := fun e : List Char × α => decide (e.1 = p ++ [c])) (by simp [h])]
        cases hp : p.isPrefixOf e.1 with
        | false => simp only [Bool.false_eq_true, if_false]; exact ih
        | true =>
          simp only [if_true]
          rw [List.filter_cons_of_neg (by
            simp only [decide_eq_true_eq]
            intro h2
            exact h (iff.1 ⟨hp, h2⟩))]
          exact ih
  rw [e2, List.getLast?_map]
  cases (actions.filter fun e => decide (e.1 = p ++ [c])).getLast? <;> rfl

theorem single_del (actions : List (List Char × α)) (p : List Char) (hp : p ≠ []) : single (level actions p) '\x7f' = some none := by
  unfold single level
  rw [if_neg hp, List.filter_append, List.filter_cons_of_pos (by rfl), List.filter_nil, List.getLast?_concat]
  rfl

theorem longer_level (actions : List (List Char × α)) (p : List Char) (c : Char) :
    longer (level actions p) c = true ↔ ∃ e ∈ actions, ∃ d t, e.1 = p ++ c :: d :: t := by
  unfold longer level
  rw [List.any_eq_true]
  have pre : ∀ (p k : List Char), p.isPrefixOf k = true → k = p ++ k.drop p.length := by
    intro p
    induction p with
    | nil => intro k _; rfl
    | cons x p ih =>
      intro k h
      cases k with
      | nil => cases h
      | cons d k =>
        simp only [List.isPrefixOf, Bool.and_eq_true, beq_iff_eq] at h
        rw [List.length_cons, List.drop_succ_cons, List.cons_append, ← ih k h.2, h.1]
  constructor
  · rintro ⟨x, hx, h⟩
    simp only [Bool.and_eq_true, decide_eq_true_eq, beq_iff_eq] at h
    rcases List.mem_append.1 hx with hx | hx
    · obtain ⟨e, he, h2⟩ := List.mem_filterMap.1 hx
      split at h2
      · next hp =>
        cases h2
        refine ⟨e, he, ?_⟩
        have := pre p e.1 hp
        generalize e.1.drop p.length = w at this h
        match w, h with
        | [], h => cases h.2
        | [_], h => simp at h
        | x :: d :: t, h =>
          have : x = c := by simpa using h.2
          subst this
          exact ⟨d, t, by assumption⟩
      · cases h2
    · split at hx
      · cases hx
      · rw [List.mem_singleton.1 hx] at h
        simp at h
  · rintro ⟨e, he, d, t, h⟩
    refine ⟨(e.1.drop p.length, some e.2), List.mem_append_left _ (List.mem_filterMap.2 ⟨e, he, ?_⟩), ?_⟩
    · rw [if_pos]
      rw [h, List.isPrefixOf_iff_prefix]
      exact List.prefix_append ..
    · rw [h, List.drop_left]
      simp

theorem key_cons (base : Char → Bool) (m : List (Entry α)) (outer : Stack α) (c : Char) : key base (m :: outer) c =
    match single m c with
    | some (some a) => .done a []
    | some none => .waiting outer
    | none => if base c then .base c [] else if longer m c then .waiting (submap m c :: m :: outer) else .waiting (m :: outer) := rfl

/-- A key after a path. -/
theorem key_at (base : Char → Bool) (actions : List (List Char × α)) (rp : List Char) (c : Char) :
    (c = '\x7f' → ∀ d rp', rp = d :: rp' → key base (stackAt actions rp) c = .waiting (stackAt actions rp')) ∧
    (c ≠ '\x7f' ∨ rp = [] →
      (∀ a, lastFor actions (rp.reverse ++ [c]) = some a → key base (stackAt actions rp) c = .done a []) ∧
      (lastFor actions (rp.reverse ++ [c]) = none →
        (base c = true → key base (stackAt actions rp) c = .base c []) ∧
        (base c = false → c ≠ '\x7f' → (∃ e ∈ actions, ∃ d t, e.1 = rp.reverse ++ c :: d :: t) →
          key base (stackAt actions rp) c = .waiting (stackAt actions (c :: rp))) ∧
        (base c = false → (¬ ∃ e ∈ actions, ∃ d t, e.1 = rp.reverse ++ c :: d :: t) →
          key base (stackAt actions rp) c = .waiting (stackAt actions rp)))) := by
  obtain ⟨outer, ho⟩ : ∃ outer, stackAt actions rp = level actions rp.reverse :: outer := by
    cases rp with
    | nil => exact ⟨_, rfl⟩
    | cons d rp => exact ⟨_, rfl⟩
  constructor
  · rintro rfl d rp' rfl
    show key base (level actions (d :: rp').reverse :: stackAt actions rp') _ = _
    rw [key_cons, single_del actions (d :: rp').reverse (by simp)]
  · intro hc
    have hs := single_level actions rp.reverse c (hc.imp id (fun h => by rw [h]; rfl))
    constructor
    · intro a ha
      rw [ho, key_cons, hs, ha]
      rfl
    · intro hn
      rw [hn] at hs
      refine ⟨?_, ?_, ?_⟩
      · intro hb
        rw [ho, key_cons, hs]; dsimp only [Option.map_none]; rw [if_pos hb]
      · intro hb hd hl
        rw [ho, key_cons, hs]; dsimp only [Option.map_none]
        rw [if_neg (by rw [hb]; simp), if_pos ((longer_level actions rp.reverse c).2 hl), submap_level actions _ c hd, ← ho]
        unfold stackAt
        rw [List.reverse_cons]
        cases rp <;> rfl
      · intro hb hl
        rw [ho, key_cons, hs]; dsimp only [Option.map_none]
        rw [if_neg (by rw [hb]; simp), if_neg (fun h => hl ((longer_level actions rp.reverse c).1 h))]

/-! ### Tables -/

theorem row_spec (cw : Char → Nat) (col ncols : Nat) : ∀ (items : List (List Char)) (k : Nat), k ≤ ncols →
    row cw col ncols k items = (rowText cw col (items.take (ncols - k)), items.drop (ncols - k))
  | [], k, _ => by simp [row, rowText]
  | i :: is, k, h => by
    unfold row
    by_cases hk : k < ncols
    · rw [if_pos hk]
      dsimp only
      rw [row_spec cw col ncols is (k + 1) hk]
      obtain ⟨m, hm⟩ : ∃ m, ncols - k = m + 1 := ⟨ncols - k - 1, by omega⟩
      have hm' : ncols - (k + 1) = m := by omega
      rw [hm, hm', List.take_succ_cons, List.drop_succ_cons]
      cases is with
      | nil => simp [rowText]
      | cons j js =>
        cases m with
        | zero =>
          have : decide (k < ncols - 1) = false := by simp; omega
          simp [rowText, this]
        | succ m =>
          have : decide (k < ncols - 1) = true := by simp; omega
          simp [rowText, this]
    · rw [if_neg hk]
      have : ncols - k = 0 := by omega
      rw [this]
      rfl

theorem table_spec (cw : Char → Nat) (col ncols : Nat) (hn : 0 < ncols) : ∀ (n : Nat) (items : List (List Char)), items.length ≤ n →
    ∃ rows : List (List (List Char)), table cw col ncols n items = joinRows (rows.map (rowText cw col)) ∧ rows.flatten = items ∧ ∀ r ∈ rows, r ≠ [] ∧ r.length ≤ ncols
  | 0, items, h => by
    have : items = [] := List.length_eq_zero_iff.1 (Nat.le_zero.1 h)
    subst this
    exact ⟨[], rfl, rfl, (fun _ h => by cases h)⟩
  | n + 1, [], _ => ⟨[], rfl, rfl, (fun _ h => by cases h)⟩
  | n + 1, i :: is, h => by
    have hr : ∀ r : List (List Char), r = (i :: is).take ncols → r ≠ [] ∧ r.length ≤ ncols := by
      rintro r rfl
      refine ⟨?_, List.length_take_le ..⟩
      obtain ⟨m, rfl⟩ : ∃ m, ncols = m + 1 := ⟨ncols - 1, by omega⟩
      simp
    unfold table
    dsimp only
    rw [row_spec cw col ncols (i :: is) 0 (Nat.zero_le _), Nat.sub_zero]
    dsimp only
    cases e : ((i :: is).drop ncols).isEmpty with
    | true =>
      refine ⟨[(i :: is).take ncols], by simp [joinRows], ?_, ?_⟩
      · have := List.take_append_drop ncols (i :: is)
        rw [List.isEmpty_iff.1 e, List.append_nil] at this
        simp only [List.flatten_cons, List.flatten_nil, List.append_nil]
        exact this
      · intro r h; exact hr r (List.mem_singleton.1 h)
    | false =>
      obtain ⟨rows, h1, h2, h3⟩ := table_spec cw col ncols hn n ((i :: is).drop ncols) (by
        rw [List.length_drop]
        omega)
      refine ⟨(i :: is).take ncols :: rows, ?_, ?_, ?_⟩
      · simp only [Bool.false_eq_true, if_false]
        rw [h1, List.map_cons]
        cases rows with
        | nil =>
          rw [← h2] at e
          cases e
        | cons x xs => rfl
      · rw [List.flatten_cons, h2, List.take_append_drop]
      · intro r h
        rcases List.mem_cons.1 h with h | h
        · exact hr r h
        · exact h3 r h

theorem width_append (cw : Char → Nat) (a b : List Char) : width cw (a ++ b) = width cw a + width cw b := by
  unfold width; rw [List.map_append, List.sum_append]

theorem width_spaces (cw : Char → Nat) (h : cw ' ' = 1) (n : Nat) : width cw (List.replicate n ' ') = n := by
  unfold width
  rw [List.map_replicate, h]
  induction n with
  | zero => rfl
  | succ n ih => rw [List.replicate_succ, List.sum_cons, ih]; omega

theorem rowText_width (cw : Char → Nat) (hs : cw ' ' = 1) (col : Nat) : ∀ (r : List (List Char)), (∀ i ∈ r, width cw i ≤ col) →
    width cw (rowText cw col r) ≤ col * r.length
  | [], _ => Nat.le_refl _
  | [i], h => by
    have := h i (List.mem_cons_self ..)
    simpa [rowText] using this
  | i :: j :: is, h => by
    have h1 := h i (List.mem_cons_self ..)
    have ih := rowText_width cw hs col (j :: is) (fun x hx => h x (List.mem_cons_of_mem _ hx))
    unfold rowText
    rw [width_append, width_append, width_spaces cw hs, List.length_cons, Nat.mul_succ]
    omega

theorem le_foldr_max : ∀ (l : List Nat), ∀ x ∈ l, x ≤ l.foldr max 0
  | [], _, h => by cases h
  | y :: l, x, h => by
    rw [List.foldr_cons]
    rcases List.mem_cons.1 h with rfl | h
    · exact Nat.le_max_left ..
    · exact Nat.le_trans (le_foldr_max l x h) (Nat.le_max_right ..)

theorem foldr_max_le (b : Nat) : ∀ (l : List Nat), (∀ x ∈ l, x ≤ b) → l.foldr max 0 ≤ b
  | [], _ => Nat.zero_le _
  | y :: l, h => by
    rw [List.foldr_cons]
    exact Nat.max_le.2 ⟨h y (List.mem_cons_self ..), foldr_max_le b l fun x hx => h x (List.mem_cons_of_mem _ hx)⟩

end Notmuch.JumpProofs
