import Verif.Proofs.Hello

namespace Notmuch.Hello

theorem flatMap_append_perm {α β : Type} (f g : α → List β) : ∀ l : List α, (l.flatMap (fun a => f a ++ g a)).Perm (l.flatMap f ++ l.flatMap g) := by
  intro l
  induction l with
  | nil => exact .refl _
  | cons a l ih =>
    simp only [List.flatMap_cons]
    have h1 : (f a ++ g a ++ l.flatMap (fun a => f a ++ g a)).Perm (f a ++ g a ++ (l.flatMap f ++ l.flatMap g)) := ih.append_left _
    refine h1.trans ?_
    simp only [List.append_assoc]
    refine List.Perm.append_left _ ?_
    rw [← List.append_assoc, ← List.append_assoc]
    exact List.perm_append_comm.append_right _

theorem swap_perm {α : Type} (f : Nat → Nat → α) (n : Nat) : ∀ m : Nat,
    ((List.range n).flatMap (fun r => (List.range m).map (fun c => f r c))).Perm ((List.range m).flatMap (fun c => (List.range n).map (fun r => f r c))) := by
  intro m
  induction m with
  | zero => simp
  | succ m ih =>
    rw [List.range_succ]
    simp only [List.map_append, List.flatMap_append, List.map_cons, List.map_nil, List.flatMap_cons, List.flatMap_nil, List.append_nil]
    refine (flatMap_append_perm _ _ _).trans ?_
    refine (ih.append_right _).trans ?_
    have : ∀ l : List Nat, l.flatMap (fun r => [f r m]) = l.map (fun r => f r m) := by
      intro l
      induction l with
      | nil => rfl
      | cons a l ih => rw [List.flatMap_cons, List.map_cons, ih]; rfl
    rw [this]

theorem rows_eq {α : Type} (g : Nat → α) (n : Nat) : ∀ m : Nat, (List.range m).flatMap (fun c => (List.range n).map (fun r => g (n * c + r))) = (List.range (n * m)).map g := by
  intro m
  induction m with
  | zero => rfl
  | succ m ih =>
    rw [List.range_succ, List.flatMap_append, ih, Nat.mul_succ, List.range_add, List.map_append]
    simp

theorem all_elems {α : Type} (l : List α) (k : Nat) (h : l.length ≤ k) : ((List.range k).map (fun i => l[i]?)).filterMap id = l := by
  obtain ⟨d, rfl⟩ : ∃ d, k = l.length + d := ⟨k - l.length, by omega⟩
  rw [List.range_add, List.map_append, List.filterMap_append]
  have h1 : ((List.range l.length).map (fun i => l[i]?)).filterMap id = l := by
    rw [List.filterMap_map]
    show (List.range l.length).filterMap (fun i => l[i]?) = l
    induction l with
    | nil => rfl
    | cons a l ih =>
      rw [List.length_cons, List.range_succ_eq_map, List.filterMap_cons_some (f := fun i => (a :: l)[i]?) (a := 0) (b := a) rfl, List.filterMap_map]
      congr 1
      exact ih (by omega)
  rw [h1]
  have h2 : (((List.range d).map (fun x => l.length + x)).map (fun i => l[i]?)).filterMap id = [] := by
    rw [List.filterMap_eq_nil_iff]
    intro x hx
    obtain ⟨i, hi, rfl⟩ := List.mem_map.1 hx
    obtain ⟨j, _, rfl⟩ := List.mem_map.1 hi
    show l[l.length + j]? = none
    rw [List.getElem?_eq_none]
    omega
  rw [h2, List.append_nil]

theorem ceil_enough (n k : Nat) (hk : k ≠ 0) : n ≤ (n + k - 1) / k * k := by
  have := Nat.div_add_mod (n + k - 1) k
  have h2 := Nat.mod_lt (n + k - 1) (Nat.pos_of_ne_zero hk)
  rw [Nat.mul_comm] at this
  omega

theorem reflect_perm {α : Type} {l : List α} {k : Nat} {m : List (Option α)} (h : reflect l k = some m) : (m.filterMap id).Perm l := by
  unfold reflect at h
  split at h
  · cases h
  · rename_i hk
    dsimp only at h
    have hm := Option.some.inj h
    let n := (l.length + k - 1) / k
    have hp := swap_perm (fun r c => l[n * c + r]?) n k
    have he := rows_eq (fun i => l[i]?) n k
    rw [he] at hp
    have := hp.filterMap id
    rw [all_elems l (n * k) (ceil_enough l.length k hk)] at this
    rw [← hm]
    exact this

/-! ## Numbers -/

theorem dec_fuel : ∀ (a b n : Nat), n < a → n < b → decAux a n = decAux b n := by
  intro a
  induction a with
  | zero => intro b n h; omega
  | succ a ih =>
    intro b n h1 h2
    cases b with
    | zero => omega
    | succ b =>
      unfold decAux
      split
      · rfl
      · rw [ih b (n / 10) (by omega) (by omega)]

theorem dec_step (n : Nat) (h : 10 ≤ n) : dec n = dec (n / 10) ++ [UInt8.ofNat (48 + n % 10)] := by
  unfold dec
  rw [decAux, if_neg (by omega), dec_fuel n (n / 10 + 1) (n / 10) (by omega) (by omega)]

theorem dec_small (n : Nat) (h : n < 10) : dec n = [UInt8.ofNat (48 + n)] := by
  unfold dec
  rw [decAux, if_pos h]

/-- Three digits. -/
theorem pad3_eq (b : Nat) (hb : b < 1000) : pad3 b = [UInt8.ofNat (48 + b / 100), UInt8.ofNat (48 + b / 10 % 10), UInt8.ofNat (48 + b % 10)] := by
  unfold pad3
  by_cases h1 : b < 10
  · rw [dec_small b h1]
    have e1 : b / 100 = 0 := by omega
    have e2 : b / 10 % 10 = 0 := by omega
    have e3 : b % 10 = b := by omega
    rw [e1, e2, e3]; rfl
  · rw [dec_step b (by omega)]
    by_cases h2 : b < 100
    · rw [dec_small (b / 10) (by omega)]
      have e1 : b / 100 = 0 := by omega
      have e2 : b / 10 % 10 = b / 10 := by omega
      rw [e1, e2]; rfl
    · rw [dec_step (b / 10) (by omega), dec_small (b / 10 / 10) (by omega)]
      have e1 : b / 10 / 10 = b / 100 := by omega
      rw [e1]; rfl

theorem dec_group (n : Nat) (h : 1000 ≤ n) : dec n = dec (n / 1000) ++ pad3 (n % 1000) := by
  rw [dec_step n (by omega), dec_step (n / 10) (by omega), dec_step (n / 10 / 10) (by omega), pad3_eq _ (by omega)]
  have e0 : n / 10 / 10 / 10 = n / 1000 := by omega
  have e1 : n / 10 / 10 % 10 = n % 1000 / 100 := by omega
  have e2 : n / 10 % 10 = n % 1000 / 10 % 10 := by omega
  have e3 : n % 10 = n % 1000 % 10 := by omega
  rw [e0, e1, e2, e3]
  simp

/-- The groups of a number, before those that are there. -/
theorem groups_spec : ∀ (fuel n : Nat) (acc : List Nat), n ≤ fuel → 0 < n → (∀ x ∈ acc, x < 1000) → ∃ g gs, groups fuel n acc = g :: gs ∧ g < 1000 ∧ (∀ x ∈ gs, x < 1000) ∧
    dec g ++ gs.flatMap pad3 = dec n ++ acc.flatMap pad3 := by
  intro fuel
  induction fuel with
  | zero => intro n acc h1 h2; omega
  | succ fuel ih =>
    intro n acc h1 h2 ha
    unfold groups
    rw [if_pos h2]
    by_cases hs : n < 1000
    · have e : n / 1000 = 0 := by omega
      have e2 : n % 1000 = n := by omega
      rw [e, e2]
      have hg : groups fuel 0 (n :: acc) = n :: acc := by cases fuel <;> rfl
      exact ⟨n, acc, hg, hs, ha, rfl⟩
    · obtain ⟨g, gs, h3, h4, h5, h6⟩ := ih (n / 1000) (n % 1000 :: acc) (by omega) (by omega) (by
        intro x hx
        rcases List.mem_cons.1 hx with h | h
        · omega
        · exact ha x h)
      refine ⟨g, gs, h3, h4, h5, ?_⟩
      rw [h6, dec_group n (by omega), List.flatMap_cons, List.append_assoc]

theorem nice_spec (sep : Str) (n : Nat) : ∃ (g : Str) (gs : List Str), nice sep n = g ++ gs.flatMap (fun x => sep ++ x) ∧ dec n = g ++ gs.flatten ∧ 1 ≤ g.length ∧ g.length ≤ 3 ∧ ∀ x ∈ gs, x.length = 3 := by
  have dl : ∀ g, g < 1000 → 1 ≤ (dec g).length ∧ (dec g).length ≤ 3 := by
    intro g hg
    refine ⟨?_, ?_⟩
    · cases h : dec g with
      | nil => exact absurd h (dec_ne_nil g)
      | cons _ _ => simp
    · by_cases h1 : g < 10
      · rw [dec_small g h1]; simp
      · rw [dec_step g (by omega)]
        by_cases h2 : g < 100
        · rw [dec_small _ (by omega)]; simp
        · rw [dec_step _ (by omega), dec_small _ (by omega)]; simp
  unfold nice
  by_cases hn : n = 0
  · subst hn
    exact ⟨dec 0, [], rfl, rfl, by decide, by decide, by simp⟩
  · obtain ⟨g, gs, h1, h2, h3, h4⟩ := groups_spec n n [] (Nat.le_refl _) (Nat.pos_of_ne_zero hn) (by simp)
    rw [h1]
    dsimp only
    refine ⟨dec g, gs.map pad3, ?_, ?_, (dl g h2).1, (dl g h2).2, ?_⟩
    · rw [List.flatMap_map]
    · rw [← List.flatMap_def, h4]; simp
    · intro x hx
      obtain ⟨y, hy, rfl⟩ := List.mem_map.1 hx
      rw [pad3_eq y (h3 y hy)]
      rfl

end Notmuch.Hello
