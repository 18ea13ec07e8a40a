import Verif.Proofs.MimeNode2

/-!
# C44: the numbers of the parts that `notmuch show` prints, and `--part`
-/

namespace Notmuch.Props

open Notmuch.MimeNode

private theorem numbered_get : ∀ (l : List Tree) (n k : Nat), (numbered n l)[k]? = (l[k]?).map (fun t => (some (n + k), t.label))
  | [], _, _ => rfl
  | t :: l, n, 0 => rfl
  | t :: l, n, k + 1 => by
    rw [numbered, List.getElem?_cons_succ, List.getElem?_cons_succ, numbered_get l (n + 1) k, show n + 1 + k = n + (k + 1) by omega]

private theorem numbered_length : ∀ (l : List Tree) (n : Nat), (numbered n l).length = l.length
  | [], _ => rfl
  | t :: l, n => by rw [numbered, List.length_cons, List.length_cons, numbered_length]

/-- A whole message is shown with all its parts, depth first, numbered from 0 on. -/
theorem C44_show (t : Tree) (k : Nat) : (showNode t (openRoot t) 0).1[k]? = ((parts t)[k]?).map (fun s => (some k, s.label)) := by
  have h := (showNode_spec (t0 := t) t (openRoot t) 0 0 _ (inv_open t) rfl rfl rfl).1
  rw [h, numbered_get, Nat.zero_add]

/-- `--part=n` shows the part that the whole message shows with the number `n`, and its parts with the numbers that they have there. -/
theorem C44_part (t : Tree) (n : Nat) (hn : n < (parts t).length) : ∃ s, (parts t)[n]? = some s ∧
    (showPart t n).length = (parts s).length ∧ ∀ k, k < (parts s).length → (showPart t n)[k]? = (showNode t (openRoot t) 0).1[n + k]? := by
  obtain ⟨j, h', y, h1, h2, h3, h4, h5⟩ := (seekNode_spec (t0 := t) t (openRoot t) 0 0 _ n (inv_open t) rfl rfl rfl).1 hn
  rw [Nat.zero_add] at h2 h4
  have hshow : showPart t n = numbered n (parts y.part) := by
    unfold showPart seek
    rw [if_neg (by omega), if_neg (by omega)]
    simp only [Int.toNat_natCast, h1, h3]
    exact (showNode_spec y.part h' j n y h2 h3 h4 rfl).1
  have hsub := h2.located j y h3
  have hidx := (h2.num j y n h3 h4).1
  refine ⟨y.part, h5, by rw [hshow, numbered_length], fun k hk => ?_⟩
  rw [C44_show, hshow, numbered_get]
  -- the parts of the part are the parts after it
  have key : ∀ (p : List Nat) (t s : Tree), sub t p = some s → ∀ k, k < (parts s).length → (parts t)[index t p + k]? = (parts s)[k]? := by
    intro p
    induction p with
    | nil => intro t s h k _; cases h; show (parts t)[0 + k]? = _; rw [Nat.zero_add]
    | cons c p ih =>
      intro t s h k hk
      have h' : (t.children[c]?).bind (fun t => sub t p) = some s := h
      cases ht : t.children[c]? with
      | none => rw [ht] at h'; cases h'
      | some u =>
        rw [ht] at h'
        have hi : index t (c :: p) = 1 + (partsAll (t.children.take c)).length + index u p := by
          show 1 + _ + (match t.children[c]? with | some t => index t p | none => 0) = _
          rw [ht]
        have hsplit : partsAll t.children = partsAll (t.children.take c) ++ parts u ++ partsAll (t.children.drop (c + 1)) := by
          rw [← take_succ ht, ← partsAll_append, List.take_append_drop]
        have hend : index u p + (parts s).length ≤ (parts u).length := index_end p u s h'
        rw [hi, parts_eq t, show 1 + (partsAll (t.children.take c)).length + index u p + k = ((partsAll (t.children.take c)).length + (index u p + k)) + 1 by omega,
          List.getElem?_cons_succ, hsplit, List.append_assoc, List.getElem?_append_right (by omega), Nat.add_sub_cancel_left,
          List.getElem?_append_left (by omega)]
        exact ih u s h' k hk
  rw [hidx, key _ _ _ hsub k hk]

/-- There is nothing with a greater number. -/
theorem C44_part_none (t : Tree) (n : Nat) (hn : (parts t).length ≤ n) : showPart t n = [] := by
  obtain ⟨h', h1, _⟩ := (seekNode_spec (t0 := t) t (openRoot t) 0 0 _ n (inv_open t) rfl rfl rfl).2 hn
  unfold showPart seek
  rw [if_neg (by omega), if_neg (by omega)]
  simp only [Int.toNat_natCast, h1]

/-- A negative number stands for the whole message. -/
theorem C44_part_negative (t : Tree) (n : Int) (hn : n < 0) : showPart t n = (showNode t (openRoot t) 0).1 := by
  unfold showPart seek
  rw [if_pos hn, if_neg (by omega)]
  have : seekNode t (openRoot t) 0 (Int.toNat 0) = .inl (0, openRoot t) := by cases t; rfl
  rw [this]
  rfl

/-- Whatever children are asked for, in any order and again and again: a node has no number or the right one, and no number is given twice. -/
theorem C44_history (t : Tree) (h : List Obj) (hr : Reached t h) :
    (∀ (i : Nat) x, h[i]? = some x → sub t x.at_ = some x.part ∧ (x.partNum = none ∨ x.partNum = some (index t x.at_))) ∧
    ∀ (i j : Nat) x y n, h[i]? = some x → h[j]? = some y → x.partNum = some n → y.partNum = some n → i = j := by
  obtain ⟨m, hI⟩ := reached_inv hr
  refine ⟨fun i x hx => ⟨hI.located i x hx, ?_⟩, hI.unique⟩
  cases hn : x.partNum with
  | none => exact .inl rfl
  | some n => exact .inr (congrArg some (hI.num i x n hx hn).1)

/-- The right number is the place among the parts in order. -/
theorem C44_index (t s : Tree) (p : List Nat) (h : sub t p = some s) : (parts t)[index t p]? = some s := parts_index p t s h

private def example44 : Tree := .node 10 [.node 11 [.node 12 [], .node 13 [.node 14 [], .node 15 []]], .node 16 []]

/-- A message with two multiparts, one in the other; `--part=3`; and children asked for out of order have no number. -/
theorem C44_example : (showNode example44 (openRoot example44) 0).1 = [(some 0, 10), (some 1, 11), (some 2, 12), (some 3, 13), (some 4, 14), (some 5, 15), (some 6, 16)] ∧
    showPart example44 3 = [(some 3, 13), (some 4, 14), (some 5, 15)] ∧ (child (child (openRoot example44) 0 1) 0 0).map (·.partNum) = [some 0, none, some 1] := by
  decide +kernel

end Notmuch.Props
