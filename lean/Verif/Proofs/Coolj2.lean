import Verif.Proofs.Coolj

namespace Notmuch.Coolj
open Notmuch.CooljSpec

/-- What bounds the steps. -/
def todo (l : Str) (rest : List Str) : Nat := l.length - (prefixOf l).length + (rest.map (fun m => m.length + 1)).sum

theorem wrappedAll_inv {fill : Nat} {l : Str} {rest out : List Str} (h : WrappedAll fill (l :: rest) out) : ∃ ls o, out = ls ++ o ∧ Wrapped fill l ls ∧ WrappedAll fill rest o := by
  cases h with
  | cons h1 h2 => exact ⟨_, _, rfl, h1, h2⟩

theorem brokenAll_inv {l : Str} {rest out : List Str} (h : BrokenAll (l :: rest) out) : ∃ ls o, out = ls ++ o ∧ Broken l ls ∧ BrokenAll rest o := by
  cases h with
  | cons h1 h2 => exact ⟨_, _, rfl, h1, h2⟩

theorem todo_step {fill : Nat} {l a b : Str} {rest : List Str} (hl : l = a ++ 32 :: b) (hp : (prefixOf l).length ≤ a.length) : todo (prefixOf l ++ b) rest < todo l rest := by
  have h1 : (prefixOf l).length ≤ (prefixOf (prefixOf l ++ b)).length := (leader_prefix (prefixOf_spec l).1 _ false (List.prefix_append _ _)).length_le
  have h2 : l.length = a.length + 1 + b.length := by
    conv => lhs; rw [hl]
    simp; omega
  unfold todo
  rw [List.length_append]
  omega

theorem fits_nil (fill : Nat) : Fits fill [] := by intro j c _ h; simp at h

theorem loop_ok (fill stop : Nat) : ∀ (fuel : Nat) (second : Bool) (s : Nat) (l : Str) (rest : List Str), (∀ x ∈ l :: rest, 2 * x.count 62 ≤ fill) → todo l rest + 1 ≤ fuel →
    ∃ n out, loop fill stop fuel second s l rest = .lines (out ++ rest.drop n) ∧ WrappedAll fill (l :: rest.take n) out := by
  intro fuel
  induction fuel with
  | zero => intro _ _ _ _ _ h; omega
  | succ fuel ih =>
    intro second s l rest hc hf
    have hp : (prefixOf l).length ≤ fill := Nat.le_trans (prefixOf_count l) (hc l (List.mem_cons_self ..))
    unfold loop
    split
    · rename_i he; exact absurd he (wrapLine_no_error hp)
    · rename_i a l' hw
      obtain ⟨b, h1, h2, h3, h4⟩ := wrapLine_some hw
      have h5 := breakpoint_after hp h4
      have h6 : (prefixOf l).length ≤ a.length := by omega
      subst h2
      have hlt := todo_step (fill := fill) (rest := rest) h1 h6
      obtain ⟨n, out, e, w⟩ := ih false (s + a.length + 1) (prefixOf l ++ b) rest (by
        intro x hx
        rcases List.mem_cons.1 hx with rfl | hx
        · have := count_step (fill := fill) h1 h6
          have := hc l (List.mem_cons_self ..)
          omega
        · exact hc x (List.mem_cons_of_mem _ hx)) (by omega)
      rw [e]
      obtain ⟨ls, o, rfl, w1, w2⟩ := wrappedAll_inv w
      refine ⟨n, a :: ls ++ o, by simp [Outcome.push], .cons (.step h1 (prefixOf_spec l) h6 ?_ h3 w1) w2⟩
      have := piece_ok hp h4
      have ea : l.take (a.length + 1 - 1) = a := by
        rw [Nat.add_sub_cancel]
        conv => lhs; rw [h1]
        simp
      rw [ea] at this
      exact this
    · rename_i hw
      have w := wrapLine_none hw
      split
      · exact ⟨0, [l], by simp, .cons (.last w) .nil⟩
      · split
        · exact ⟨0, [l], by simp, .cons (.last w) .nil⟩
        · exact ⟨1, [l, []], by simp, .cons (ls := [l]) (out := [[]]) (.last w) (.cons (ls := [[]]) (out := []) (.last (.inl (fits_nil _))) .nil)⟩
        · rename_i m rest' _
          obtain ⟨n, out, e, w'⟩ := ih (decide (stop ≤ s + l.length + 1)) (s + l.length + 1) m rest' (fun x hx => hc x (List.mem_cons_of_mem _ hx)) (by
            unfold todo at hf ⊢
            rw [List.map_cons, List.sum_cons] at hf
            omega)
          rw [e]
          exact ⟨n + 1, l :: out, by simp [Outcome.push], .cons (ls := [l]) (.last w) w'⟩

theorem loop_kept (fill stop : Nat) : ∀ (fuel : Nat) (second : Bool) (s : Nat) (l : Str) (rest ls : List Str), loop fill stop fuel second s l rest = .lines ls →
    ∃ n out, ls = out ++ rest.drop n ∧ BrokenAll (l :: rest.take n) out := by
  intro fuel
  induction fuel with
  | zero => intro _ _ _ _ _ h; cases h
  | succ fuel ih =>
    intro second s l rest ls h
    unfold loop at h
    split at h
    · cases h
    · rename_i a l' hw
      obtain ⟨b, h1, h2, h3, h4⟩ := wrapLine_some hw
      subst h2
      cases hr : loop fill stop fuel false (s + a.length + 1) (prefixOf l ++ b) rest with
      | error => rw [hr] at h; cases h
      | noEnd => rw [hr] at h; cases h
      | lines ls' =>
        rw [hr] at h
        cases h
        obtain ⟨n, out, e, w⟩ := ih _ _ _ _ _ hr
        subst e
        obtain ⟨x, o, rfl, w1, w2⟩ := brokenAll_inv w
        exact ⟨n, a :: x ++ o, by simp, .cons (.step h1 (prefixOf_spec l) w1) w2⟩
    · split at h
      · cases h
        exact ⟨0, [l], by simp, .cons .last .nil⟩
      · split at h
        · cases h
          exact ⟨0, [l], by simp, .cons .last .nil⟩
        · cases h
          exact ⟨1, [l, []], by simp, .cons (ls := [l]) (out := [[]]) .last (.cons (ls := [[]]) (out := []) .last .nil)⟩
        · rename_i m rest' _
          cases hr : loop fill stop fuel (decide (stop ≤ s + l.length + 1)) (s + l.length + 1) m rest' with
          | error => rw [hr] at h; cases h
          | noEnd => rw [hr] at h; cases h
          | lines ls' =>
            rw [hr] at h
            cases h
            obtain ⟨n, out, e, w⟩ := ih _ _ _ _ _ hr
            subst e
            exact ⟨n + 1, l :: out, by simp, .cons (ls := [l]) .last w⟩

theorem textLength_cons (l m : Str) (rest : List Str) : textLength (l :: m :: rest) = l.length + 1 + textLength (m :: rest) := by
  unfold textLength
  simp
  omega

theorem loop_all (fill stop : Nat) : ∀ (fuel : Nat) (s : Nat) (l : Str) (rest : List Str), (∀ x ∈ l :: rest, x.count 62 = 0) → todo l rest + 1 ≤ fuel → s + textLength (l :: rest) = stop →
    ∃ out, loop fill stop fuel false s l rest = .lines out ∧ WrappedAll fill (l :: rest) out := by
  intro fuel
  induction fuel with
  | zero => intro _ _ _ _ h; omega
  | succ fuel ih =>
    intro s l rest hc hf hs
    have hp0 : prefixOf l = [] := by
      have := prefixOf_count l
      rw [hc l (List.mem_cons_self ..)] at this
      exact List.length_eq_zero_iff.1 (by omega)
    have hp : (prefixOf l).length ≤ fill := by rw [hp0]; exact Nat.zero_le _
    unfold loop
    split
    · rename_i he; exact absurd he (wrapLine_no_error hp)
    · rename_i a l' hw
      obtain ⟨b, h1, h2, h3, h4⟩ := wrapLine_some hw
      have h6 : (prefixOf l).length ≤ a.length := by rw [hp0]; exact Nat.zero_le _
      subst h2
      have hlt := todo_step (fill := fill) (rest := rest) h1 h6
      have hlen : l.length = a.length + 1 + b.length := by
        conv => lhs; rw [h1]
        simp; omega
      obtain ⟨out, e, w⟩ := ih (s + a.length + 1) (prefixOf l ++ b) rest (by
        intro x hx
        rcases List.mem_cons.1 hx with rfl | hx
        · have := count_step (fill := fill) h1 h6
          have := hc l (List.mem_cons_self ..)
          omega
        · exact hc x (List.mem_cons_of_mem _ hx)) (by omega) (by
          rw [← hs, hp0]
          unfold textLength
          simp
          omega)
      rw [e]
      obtain ⟨ls, o, rfl, w1, w2⟩ := wrappedAll_inv w
      refine ⟨a :: ls ++ o, by simp [Outcome.push], .cons (.step h1 (prefixOf_spec l) h6 ?_ h3 w1) w2⟩
      have := piece_ok hp h4
      have ea : l.take (a.length + 1 - 1) = a := by
        rw [Nat.add_sub_cancel]
        conv => lhs; rw [h1]
        simp
      rw [ea] at this
      exact this
    · rename_i hw
      have w := wrapLine_none hw
      rw [if_neg (by simp)]
      split
      · exact ⟨[l], rfl, .cons (ls := [l]) (.last w) .nil⟩
      · exact ⟨[l, []], rfl, .cons (ls := [l]) (out := [[]]) (.last w) (.cons (ls := [[]]) (out := []) (.last (.inl (fits_nil _))) .nil)⟩
      · rename_i m rest' hne
        rw [textLength_cons] at hs
        have hpos : 0 < textLength (m :: rest') := by
          cases m with
          | cons c m => unfold textLength; simp; omega
          | nil =>
            cases rest' with
            | nil => exact (hne rfl rfl).elim
            | cons x y => unfold textLength; simp; omega
        have hd : decide (stop ≤ s + l.length + 1) = false := by simp; omega
        rw [hd]
        obtain ⟨out, e, w'⟩ := ih (s + l.length + 1) m rest' (fun x hx => hc x (List.mem_cons_of_mem _ hx)) (by
          unfold todo at hf ⊢
          rw [List.map_cons, List.sum_cons] at hf
          omega) (by omega)
        rw [e]
        exact ⟨l :: out, rfl, .cons (ls := [l]) (.last w) w'⟩

theorem todo_le (l : Str) (rest : List Str) : todo l rest ≤ textLength (l :: rest) := by
  induction rest generalizing l with
  | nil => unfold todo textLength; simp; 
  | cons m rest ih =>
    rw [textLength_cons]
    have := ih m
    unfold todo at this ⊢
    rw [List.map_cons, List.sum_cons]
    have e : ∀ (rest : List Str) (m : Str), m.length + (rest.map (fun m => m.length + 1)).sum = textLength (m :: rest) := by
      intro rest
      induction rest with
      | nil => intro m; simp [textLength]
      | cons x r ih2 =>
        intro m
        rw [textLength_cons, List.map_cons, List.sum_cons, ← ih2 x]
        omega
    have := e rest m
    omega

end Notmuch.Coolj
