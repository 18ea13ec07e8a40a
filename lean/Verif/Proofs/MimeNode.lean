import Verif.Spec.MimeNode

namespace Notmuch.MimeNode

theorem parts_eq (t : Tree) : parts t = t :: partsAll t.children := by cases t; rw [parts]; rfl

theorem partsAll_append : ∀ a b : List Tree, partsAll (a ++ b) = partsAll a ++ partsAll b
  | [], b => by simp [partsAll]
  | t :: a, b => by rw [List.cons_append, partsAll, partsAll, partsAll_append a b, List.append_assoc]

def size (t : Tree) : Nat := (parts t).length

theorem size_eq (t : Tree) : size t = 1 + (partsAll t.children).length := by unfold size; rw [parts_eq, List.length_cons]; omega

theorem size_pos (t : Tree) : 1 ≤ size t := by rw [size_eq]; omega

theorem sub_append : ∀ (p q : List Nat) (t : Tree), sub t (p ++ q) = (sub t p).bind (fun t => sub t q)
  | [], q, t => rfl
  | c :: p, q, t => by
    show (t.children[c]?).bind _ = ((t.children[c]?).bind _).bind _
    cases t.children[c]? with
    | none => rfl
    | some s => exact sub_append p q s

theorem sub_snoc {t s : Tree} {p : List Nat} {c : Nat} (h : sub t p = some s) : sub t (p ++ [c]) = s.children[c]? := by
  rw [sub_append, h]
  show (s.children[c]?).bind _ = _
  cases s.children[c]? <;> rfl

theorem index_snoc : ∀ (p : List Nat) (t s : Tree) (c : Nat), sub t p = some s → c < s.children.length →
    index t (p ++ [c]) = index t p + 1 + (partsAll (s.children.take c)).length
  | [], t, s, c, h, hc => by
    cases h
    show 1 + _ + (match t.children[c]? with | some t => index t [] | none => 0) = 0 + 1 + _
    rw [List.getElem?_eq_getElem hc]
    show 1 + _ + 0 = _
    omega
  | d :: p, t, s, c, h, hc => by
    have h' : (t.children[d]?).bind (fun t => sub t p) = some s := h
    cases ht : t.children[d]? with
    | none => rw [ht] at h'; cases h'
    | some u =>
      rw [ht] at h'
      have := index_snoc p u s c h' hc
      show 1 + _ + (match t.children[d]? with | some t => index t (p ++ [c]) | none => 0) = 1 + _ + (match t.children[d]? with | some t => index t p | none => 0) + 1 + _
      rw [ht]
      show 1 + _ + index u (p ++ [c]) = 1 + _ + index u p + 1 + _
      omega

theorem take_succ {l : List Tree} {c : Nat} {t : Tree} (h : l[c]? = some t) : partsAll (l.take (c + 1)) = partsAll (l.take c) ++ parts t := by
  rw [List.take_add_one, h, partsAll_append]
  show _ ++ (parts t ++ partsAll []) = _
  rw [partsAll, List.append_nil]

/-- The first child. -/
theorem index_first {t s : Tree} {p : List Nat} (h : sub t p = some s) (hs : s.children ≠ []) : index t (p ++ [0]) = index t p + 1 := by
  rw [index_snoc p t s 0 h (List.length_pos_iff.mpr hs)]
  rfl

/-- The next child. -/
theorem index_next {t s u : Tree} {p : List Nat} {c : Nat} (h : sub t p = some s) (hu : s.children[c]? = some u) (hc : c + 1 < s.children.length) :
    index t (p ++ [c + 1]) = index t (p ++ [c]) + size u := by
  rw [index_snoc p t s _ h hc, index_snoc p t s c h (by omega), take_succ hu, List.length_append]
  unfold size
  omega

/-- The end of the last child. -/
theorem index_last {t s u : Tree} {p : List Nat} {c : Nat} (h : sub t p = some s) (hu : s.children[c]? = some u) (hc : c + 1 = s.children.length) :
    index t (p ++ [c]) + size u = index t p + size s := by
  have : c < s.children.length := by omega
  rw [index_snoc p t s c h this, size_eq s]
  have h2 := take_succ hu
  rw [hc, List.take_length] at h2
  rw [h2, List.length_append]
  unfold size
  omega

/-- The parts in order are those with their index. -/
theorem parts_index : ∀ (p : List Nat) (t s : Tree), sub t p = some s → (parts t)[index t p]? = some s
  | [], t, s, h => by cases h; rw [parts_eq]; rfl
  | c :: p, t, s, h => by
    have h' : (t.children[c]?).bind (fun t => sub t p) = some s := h
    cases ht : t.children[c]? with
    | none => rw [ht] at h'; cases h'
    | some u =>
      rw [ht] at h'
      have ih := parts_index p u s h'
      have hi : index t (c :: p) = 1 + (partsAll (t.children.take c)).length + index u p := by
        show 1 + _ + (match t.children[c]? with | some t => index t p | none => 0) = _
        rw [ht]
      have hlt : index u p < (parts u).length := by
        rw [List.getElem?_eq_some_iff] at ih
        exact ih.1
      rw [hi, parts_eq, Nat.add_assoc, Nat.add_comm 1, List.getElem?_cons_succ]
      have hsplit : partsAll t.children = partsAll (t.children.take c) ++ parts u ++ partsAll (t.children.drop (c + 1)) := by
        rw [← take_succ ht, ← partsAll_append, List.take_append_drop]
      rw [hsplit, List.append_assoc, List.getElem?_append_right (by omega), Nat.add_sub_cancel_left, List.getElem?_append_left hlt]
      exact ih

theorem index_lt {t s : Tree} {p : List Nat} (h : sub t p = some s) : index t p < size t := by
  have := parts_index p t s h
  rw [List.getElem?_eq_some_iff] at this
  exact this.1

theorem index_end : ∀ (p : List Nat) (t s : Tree), sub t p = some s → index t p + size s ≤ size t
  | [], t, s, h => by cases h; show 0 + _ ≤ _; omega
  | c :: p, t, s, h => by
    have h' : (t.children[c]?).bind (fun t => sub t p) = some s := h
    cases ht : t.children[c]? with
    | none => rw [ht] at h'; cases h'
    | some u =>
      rw [ht] at h'
      have ih := index_end p u s h'
      have hi : index t (c :: p) = 1 + (partsAll (t.children.take c)).length + index u p := by
        show 1 + _ + (match t.children[c]? with | some t => index t p | none => 0) = _
        rw [ht]
      have hsplit : partsAll t.children = partsAll (t.children.take c) ++ parts u ++ partsAll (t.children.drop (c + 1)) := by
        rw [← take_succ ht, ← partsAll_append, List.take_append_drop]
      rw [hi, size_eq t, hsplit, List.length_append, List.length_append]
      unfold size at *
      omega

theorem partsAll_take_lt {l : List Tree} {c d : Nat} {u : Tree} (hc : l[c]? = some u) (hcd : c < d) :
    (partsAll (l.take c)).length + size u ≤ (partsAll (l.take d)).length := by
  have h1 := take_succ hc
  have h2 : l.take d = l.take (c + 1) ++ (l.drop (c + 1)).take (d - (c + 1)) := by
    rw [← List.take_add]; congr 1; omega
  rw [h2, partsAll_append, h1, List.length_append, List.length_append]
  unfold size; omega

/-- Two places have different numbers. -/
theorem index_inj : ∀ (p q : List Nat) (t s s' : Tree), sub t p = some s → sub t q = some s' → index t p = index t q → p = q
  | [], [], _, _, _, _, _, _ => rfl
  | [], c :: q, t, s, s', _, _, h => by
    have : index t (c :: q) = 0 := h.symm
    unfold index at this
    omega
  | c :: p, [], t, s, s', _, _, h => by
    have : index t (c :: p) = 0 := h
    unfold index at this
    omega
  | c :: p, d :: q, t, s, s', hp, hq, h => by
    have hp' : (t.children[c]?).bind (fun t => sub t p) = some s := hp
    have hq' : (t.children[d]?).bind (fun t => sub t q) = some s' := hq
    cases hu : t.children[c]? with
    | none => rw [hu] at hp'; cases hp'
    | some u =>
      cases hv : t.children[d]? with
      | none => rw [hv] at hq'; cases hq'
      | some v =>
        rw [hu] at hp'
        rw [hv] at hq'
        have h1 : index t (c :: p) = 1 + (partsAll (t.children.take c)).length + index u p := by
          show 1 + _ + (match t.children[c]? with | some t => index t p | none => 0) = _
          rw [hu]
        have h2 : index t (d :: q) = 1 + (partsAll (t.children.take d)).length + index v q := by
          show 1 + _ + (match t.children[d]? with | some t => index t q | none => 0) = _
          rw [hv]
        rw [h1, h2] at h
        have l1 := index_lt hp'
        have l2 := index_lt hq'
        rcases Nat.lt_trichotomy c d with hcd | rfl | hcd
        · have := partsAll_take_lt hu hcd; omega
        · rw [hu] at hv
          cases hv
          rw [index_inj p q u s s' hp' hq' (by omega)]
        · have := partsAll_take_lt hv hcd; omega

end Notmuch.MimeNode
