import Verif.Spec.Directory

/-! # Paths: splitting, joining, relative paths -/

namespace Notmuch.Directory

theorem Name.head {b : Str} (h : Name b) : b.head? ≠ some 47 := by
  obtain ⟨h1, h2, _⟩ := h
  cases b with
  | nil => simp
  | cons c b => simp at h2 ⊢; exact fun h => h2.1 h.symm

theorem Dir.head {d : Str} (h : Dir d) : d.head? ≠ some 47 := by
  induction h with
  | root => simp
  | @child d b hd hb ih =>
    unfold join
    split
    · exact hb.head
    · rename_i hne
      cases d with
      | nil => exact absurd rfl hne
      | cons c d => simpa using ih

theorem Dir.noNul {d : Str} (h : Dir d) : 0 ∉ d := by
  induction h with
  | root => simp
  | @child d b hd hb ih =>
    unfold join
    split
    · exact hb.2.2
    · simp only [List.mem_append, not_or]
      exact ⟨⟨ih, by decide⟩, hb.2.2⟩

theorem Dir.last {d : Str} (h : Dir d) : d.getLast? ≠ some 47 := by
  cases h with
  | root => simp
  | @child d b hd hb =>
    have hl : (join d b).getLast? = b.getLast? := by
      unfold join
      split
      · rfl
      · rw [List.getLast?_append]
        cases hb' : b.getLast? with
        | none => exact absurd (List.getLast?_eq_none_iff.1 hb') hb.1
        | some x => rfl
    rw [hl]
    intro h
    exact hb.2.1 (List.mem_of_getLast? h)

theorem join_ne_nil {d b : Str} (hb : Name b) : join d b ≠ [] := by
  unfold join
  split
  · exact hb.1
  · simp

theorem append_slash_inj {a b c d : Str} (hb : 47 ∉ b) (hd : 47 ∉ d) (h : a ++ (47 : UInt8) :: b = c ++ 47 :: d) : a = c ∧ b = d := by
  induction a generalizing c with
  | nil =>
    cases c with
    | nil => simpa using h
    | cons x c =>
      simp only [List.nil_append, List.cons_append, List.cons.injEq] at h
      exact absurd (h.2 ▸ by simp) hb
  | cons x a ih =>
    cases c with
    | nil =>
      simp only [List.nil_append, List.cons_append, List.cons.injEq] at h
      exact absurd (h.2 ▸ by simp) hd
    | cons y c =>
      simp only [List.cons_append, List.cons.injEq] at h
      obtain ⟨r1, r2⟩ := ih h.2
      exact ⟨by rw [h.1, r1], r2⟩

theorem join_inj {d b d' b' : Str} (hb : Name b) (hb' : Name b') (h : join d b = join d' b') : d = d' ∧ b = b' := by
  unfold join at h
  split at h <;> split at h
  · rename_i e1 e2; exact ⟨e1.trans e2.symm, h⟩
  · exact absurd (h ▸ by simp) hb.2.1
  · exact absurd (h ▸ by simp) hb'.2.1
  · simp only [List.append_assoc, List.singleton_append] at h
    exact append_slash_inj hb.2.1 hb'.2.1 h

/-! ## Relative paths -/

theorem leadingSlashes_of {s : Str} (h : ∀ r, s ≠ 47 :: 47 :: r) : leadingSlashes s = s := by
  unfold leadingSlashes
  split
  · rename_i r; exact absurd rfl (h r)
  · rfl

theorem relativePath_rel {root f : Str} (h : f.head? ≠ some 47) : relativePath root f = f := by
  unfold relativePath
  rw [if_neg h]

theorem relativePath_abs {root f : Str} (hr : Root root) (h : f.head? ≠ some 47) : relativePath root (root ++ [47] ++ f) = f := by
  obtain ⟨s, rfl, hs, hne, hl⟩ := hr
  unfold relativePath
  rw [if_pos (by simp)]
  have hls : leadingSlashes (47 :: s ++ [47] ++ f) = 47 :: s ++ [47] ++ f := by
    apply leadingSlashes_of
    intro r hr
    cases s with
    | nil => exact hne rfl
    | cons c s =>
      simp only [List.cons_append, List.cons.injEq] at hr
      exact hs (by simp [hr.2.1])
  have hp : (47 :: s).isPrefixOf (47 :: s ++ [47] ++ f) = true := by
    rw [List.isPrefixOf_iff_prefix, List.append_assoc]
    exact List.prefix_append _ _
  have hd : (47 :: s ++ [47] ++ f).drop (47 :: s).length = 47 :: f := by
    rw [List.append_assoc, List.drop_left]; rfl
  simp only [hls, hp, if_true, hd]
  cases f with
  | nil => rfl
  | cons c f =>
    rw [List.dropWhile_cons_of_pos (by decide), List.dropWhile_cons_of_neg]
    simpa using h

theorem join_head {d b : Str} (hd : Dir d) (hb : Name b) : (join d b).head? ≠ some 47 := (Dir.child hd hb).head

theorem relativePath_fileName {root d b f : Str} (hr : Root root) (hd : Dir d) (hb : Name b) (hf : FileName root d b f) :
    relativePath root f = join d b := by
  rcases hf with rfl | rfl
  · exact relativePath_rel (join_head hd hb)
  · exact relativePath_abs hr (join_head hd hb)

/-! ## Splitting -/

theorem skipTrailing_stop {p : Str} {k : Nat} (h : p[k]? ≠ some 47) : skipTrailing p k = k := by
  cases k with
  | zero => rfl
  | succ k => rw [skipTrailing, if_neg h]

/-- Between the last slash and the position there is no slash. -/
theorem findSlash_gap {p : Str} {j : Nat} (hj : p[j]? = some 47) (hpos : j ≠ 0) : ∀ {k : Nat} {base : Option Nat}, j < k →
    (∀ i, j < i → i ≤ k → p[i]? ≠ some 47) → findSlash p k base = (j, some (j + 1)) := by
  intro k
  induction k with
  | zero => intro base h; omega
  | succ k ih =>
    intro base hlt hgap
    rw [findSlash, if_pos (hgap (k + 1) hlt (Nat.le_refl _))]
    by_cases hk : j = k
    · subst hk
      cases j with
      | zero => omega
      | succ j => rw [findSlash, if_neg (by simpa using hj)]
    · exact ih (by omega) (fun i h1 h2 => hgap i h1 (by omega))

theorem findSlash_none {p : Str} : ∀ {k : Nat} {base : Option Nat}, (∀ i, 0 < i → i ≤ k → p[i]? ≠ some 47) → (findSlash p k base).1 = 0 := by
  intro k
  induction k with
  | zero => intro base _; rfl
  | succ k ih =>
    intro base h
    rw [findSlash, if_pos (h (k + 1) (by omega) (Nat.le_refl _))]
    exact ih (fun i h1 h2 => h i h1 (by omega))

theorem skipMultiple_stop {p : Str} {k : Nat} (h : p[k]? ≠ some 47) : skipMultiple p (k + 1) = k + 1 := by
  rw [skipMultiple, if_neg h]

theorem getElem?_ne_of_not_mem {b : Str} (h : 47 ∉ b) (i : Nat) : b[i]? ≠ some 47 := fun e => h (List.mem_of_getElem? e)

theorem splitPath_name {b : Str} (h : Name b) : splitPath (some b) = (some [], some b) := by
  obtain ⟨h1, h2, _⟩ := h
  unfold splitPath
  simp only [if_neg h1]
  rw [skipTrailing_stop (getElem?_ne_of_not_mem h2 _)]
  have := @findSlash_none b (b.length - 1) none (fun i _ _ => getElem?_ne_of_not_mem h2 i)
  rw [if_pos]
  rw [this]
  rfl

theorem splitPath_sub {d b : Str} (hd : Dir d) (hne : d ≠ []) (hb : Name b) : splitPath (some (d ++ [47] ++ b)) = (some d, some b) := by
  obtain ⟨hb1, hb2, _⟩ := hb
  have hdl : 0 < d.length := List.length_pos_iff.2 hne
  have hbl : 0 < b.length := List.length_pos_iff.2 hb1
  have hlen : (d ++ [47] ++ b).length = d.length + 1 + b.length := by simp; omega
  have hhi : ∀ i, d.length < i → (d ++ [47] ++ b)[i]? ≠ some 47 := by
    intro i hi
    rw [List.getElem?_append_right (by simp; omega)]
    exact getElem?_ne_of_not_mem hb2 _
  have hat : (d ++ [47] ++ b)[d.length]? = some 47 := by
    rw [List.append_assoc, List.getElem?_append_right (Nat.le_refl _)]; simp
  have hlo : (d ++ [47] ++ b)[d.length - 1]? ≠ some 47 := by
    rw [List.append_assoc, List.getElem?_append_left (by omega), ← List.getLast?_eq_getElem?]
    exact hd.last
  unfold splitPath
  simp only [if_neg (show ¬ (d ++ [47] ++ b = []) by simp)]
  rw [skipTrailing_stop (hhi _ (by omega)), findSlash_gap hat (by omega) (by omega) (fun i h1 _ => hhi i h1)]
  have hsm : skipMultiple (d ++ [47] ++ b) d.length = d.length := by
    have : d.length = (d.length - 1) + 1 := by omega
    rw [this]
    exact skipMultiple_stop hlo
  simp only [hsm, if_neg (show ¬ d.length = 0 by omega)]
  have e2 : (d ++ [47] ++ b).drop (d.length + 1) = b := by
    have : d.length + 1 = (d ++ [47]).length := by simp
    rw [this, List.drop_left]
  simp only [Option.map_some, e2]
  rw [List.append_assoc, List.take_left]

theorem splitPath_join {d b : Str} (hd : Dir d) (hb : Name b) : splitPath (some (join d b)) = (some d, some b) := by
  unfold join
  split
  · rename_i h; rw [h]; exact splitPath_name hb
  · rename_i h; exact splitPath_sub hd h hb

theorem splitPath_nil : splitPath (some []) = (none, none) := rfl

/-! ## Splitting any path -/

theorem skipTrailing_run {p : Str} {j : Nat} (hj : p[j]? ≠ some 47 ∨ j = 0) : ∀ {k : Nat}, j ≤ k →
    (∀ i, j < i → i ≤ k → p[i]? = some 47) → skipTrailing p k = j := by
  intro k
  induction k with
  | zero => intro h _; have : j = 0 := by omega
            subst this; rfl
  | succ k ih =>
    intro hle h
    by_cases hk : j = k + 1
    · subst hk
      rcases hj with hj | hj
      · exact skipTrailing_stop hj
      · omega
    · rw [skipTrailing, if_pos (h (k + 1) (by omega) (Nat.le_refl _))]
      exact ih (by omega) (fun i h1 h2 => h i h1 (by omega))

theorem skipMultiple_run {p : Str} {j : Nat} (hj : p[j]? ≠ some 47) : ∀ {k : Nat}, j < k →
    (∀ i, j < i → i < k → p[i]? = some 47) → skipMultiple p k = j + 1 := by
  intro k
  induction k with
  | zero => intro h; omega
  | succ k ih =>
    intro hlt h
    by_cases hk : j = k
    · subst hk; exact skipMultiple_stop hj
    · rw [skipMultiple, if_pos (h k (by omega) (by omega))]
      exact ih (by omega) (fun i h1 h2 => h i h1 (by omega))

theorem skipMultiple_zero {p : Str} : ∀ {k : Nat}, (∀ i, i < k → p[i]? = some 47) → skipMultiple p k = 0 := by
  intro k
  induction k with
  | zero => intro _; rfl
  | succ k ih =>
    intro h
    rw [skipMultiple, if_pos (h k (by omega))]
    exact ih (fun i h1 => h i (by omega))

theorem getElem?_replicate_lt {n i : Nat} (h : i < n) : (List.replicate n (47 : UInt8))[i]? = some 47 := by
  rw [List.getElem?_replicate, if_pos h]

theorem splitPath_general {pre c : Str} (n t : Nat) (hpre : pre ≠ []) (hl : pre.getLast? ≠ some 47) (hc : c ≠ []) (hc2 : 47 ∉ c) :
    splitPath (some (pre ++ List.replicate (n + 1) 47 ++ c ++ List.replicate t 47)) = (some pre, some (c ++ List.replicate t 47)) := by
  have hpl : 0 < pre.length := List.length_pos_iff.2 hpre
  have hcl : 0 < c.length := List.length_pos_iff.2 hc
  have hp : pre ++ List.replicate (n + 1) 47 ++ c ++ List.replicate t 47 = pre ++ (List.replicate (n + 1) 47 ++ (c ++ List.replicate t 47)) := by simp
  rw [hp]
  generalize hq : pre ++ (List.replicate (n + 1) 47 ++ (c ++ List.replicate t 47)) = p
  have hlen : p.length = pre.length + (n + 1) + c.length + t := by rw [← hq]; simp; omega
  have e1 : ∀ i, pre.length ≤ i → i < pre.length + (n + 1) → p[i]? = some 47 := by
    intro i h1 h2
    rw [← hq, List.getElem?_append_right h1, List.getElem?_append_left (by simp; omega)]
    exact getElem?_replicate_lt (by omega)
  have e2 : ∀ i, pre.length + (n + 1) ≤ i → i < pre.length + (n + 1) + c.length → p[i]? ≠ some 47 := by
    intro i h1 h2
    rw [← hq, List.getElem?_append_right (by omega), List.getElem?_append_right (by simp; omega), List.getElem?_append_left (by simp; omega)]
    exact getElem?_ne_of_not_mem hc2 _
  have e3 : ∀ i, pre.length + (n + 1) + c.length ≤ i → i < p.length → p[i]? = some 47 := by
    intro i h1 h2
    rw [← hq, List.getElem?_append_right (by omega), List.getElem?_append_right (by simp; omega), List.getElem?_append_right (by simp; omega)]
    exact getElem?_replicate_lt (by simp; omega)
  have e0 : p[pre.length - 1]? ≠ some 47 := by
    rw [← hq, List.getElem?_append_left (by omega), ← List.getLast?_eq_getElem?]
    exact hl
  have s1 : skipTrailing p (p.length - 1) = pre.length + (n + 1) + c.length - 1 :=
    skipTrailing_run (.inl (e2 _ (by omega) (by omega))) (by omega) (fun i h1 h2 => e3 i (by omega) (by omega))
  have s2 : findSlash p (pre.length + (n + 1) + c.length - 1) none = (pre.length + n, some (pre.length + n + 1)) :=
    findSlash_gap (e1 _ (by omega) (by omega)) (by omega) (by omega) (fun i h1 h2 => e2 i (by omega) (by omega))
  have s3 : skipMultiple p (pre.length + n) = pre.length := by
    have := @skipMultiple_run p (pre.length - 1) e0 (pre.length + n) (by omega) (fun i h1 h2 => e1 i (by omega) (by omega))
    rw [this]; omega
  unfold splitPath
  have hpn : p ≠ [] := by intro h; rw [h] at hlen; simp at hlen; omega
  simp only [if_neg hpn, s1, s2, s3, if_neg (show ¬ pre.length = 0 by omega), Option.map_some]
  rw [← hq, List.take_left]
  have : pre.length + n + 1 = pre.length + (n + 1) := by omega
  rw [this, ← List.drop_drop, List.drop_left]
  have h2 : (List.replicate (n + 1) (47 : UInt8) ++ (c ++ List.replicate t 47)).drop (n + 1) = c ++ List.replicate t 47 :=
    List.drop_left' (by simp)
  rw [h2]

theorem splitPath_flat {c : Str} (n t : Nat) (hc2 : 47 ∉ c) (hne : List.replicate n 47 ++ c ++ List.replicate t 47 ≠ []) :
    splitPath (some (List.replicate n 47 ++ c ++ List.replicate t 47)) = (some [], some (List.replicate n 47 ++ c ++ List.replicate t 47)) := by
  by_cases hc : c = []
  · -- only slashes
    subst hc
    generalize hq : List.replicate n (47 : UInt8) ++ [] ++ List.replicate t 47 = p at hne ⊢
    have hall : ∀ i, i < p.length → p[i]? = some 47 := by
      have : p = List.replicate (n + t) 47 := by rw [← hq]; simp [List.replicate_append_replicate]
      intro i hi
      rw [this] at hi ⊢
      exact getElem?_replicate_lt (by simpa using hi)
    have hl : 0 < p.length := List.length_pos_iff.2 hne
    have s1 : skipTrailing p (p.length - 1) = 0 := skipTrailing_run (.inr rfl) (by omega) (fun i h1 h2 => hall i (by omega))
    unfold splitPath
    simp only [if_neg hne, s1, findSlash, skipMultiple, if_true]
  · have hcl : 0 < c.length := List.length_pos_iff.2 hc
    rw [List.append_assoc] at hne ⊢
    generalize hq : List.replicate n (47 : UInt8) ++ (c ++ List.replicate t 47) = p at hne ⊢
    have hlen : p.length = n + c.length + t := by rw [← hq]; simp; omega
    have e1 : ∀ i, i < n → p[i]? = some 47 := by
      intro i h
      rw [← hq, List.getElem?_append_left (by simpa using h)]
      exact getElem?_replicate_lt h
    have e2 : ∀ i, n ≤ i → i < n + c.length → p[i]? ≠ some 47 := by
      intro i h1 h2
      rw [← hq, List.getElem?_append_right (by simpa using h1), List.getElem?_append_left (by simp; omega)]
      exact getElem?_ne_of_not_mem hc2 _
    have e3 : ∀ i, n + c.length ≤ i → i < p.length → p[i]? = some 47 := by
      intro i h1 h2
      rw [← hq, List.getElem?_append_right (by simp; omega), List.getElem?_append_right (by simp; omega)]
      exact getElem?_replicate_lt (by simp; omega)
    have s1 : skipTrailing p (p.length - 1) = n + c.length - 1 :=
      skipTrailing_run (.inl (e2 _ (by omega) (by omega))) (by omega) (fun i h1 h2 => e3 i (by omega) (by omega))
    have s2 : skipMultiple p (findSlash p (n + c.length - 1) none).1 = 0 := by
      by_cases hn : n ≤ 1
      · rw [findSlash_none (fun i h1 h2 => e2 i (by omega) (by omega))]; rfl
      · rw [findSlash_gap (j := n - 1) (e1 _ (by omega)) (by omega) (by omega) (fun i h1 h2 => e2 i (by omega) (by omega))]
        exact skipMultiple_zero (fun i h => e1 i (by omega))
    unfold splitPath
    simp only [if_neg hne, s1, s2, if_true]

/-- The slashes at the beginning or the end of a path. -/
theorem slashes_front (s : Str) : ∃ n r, s = List.replicate n 47 ++ r ∧ r.head? ≠ some 47 := by
  induction s with
  | nil => exact ⟨0, [], rfl, by simp⟩
  | cons c s ih =>
    by_cases h : c = 47
    · obtain ⟨n, r, e, hr⟩ := ih
      exact ⟨n + 1, r, by rw [h, e]; rfl, hr⟩
    · exact ⟨0, c :: s, rfl, by simpa using h⟩

theorem slashes_back (s : Str) : ∃ r n, s = r ++ List.replicate n 47 ∧ r.getLast? ≠ some 47 := by
  obtain ⟨n, r, e, h⟩ := slashes_front s.reverse
  refine ⟨r.reverse, n, ?_, by simpa using h⟩
  rw [← List.reverse_reverse s, e]; simp

/-- The part of a path after the last slash. -/
theorem last_slash (s : Str) (h : (47 : UInt8) ∈ s) : ∃ a c, s = a ++ 47 :: c ∧ 47 ∉ c := by
  induction s with
  | nil => simp at h
  | cons x s ih =>
    by_cases hs : (47 : UInt8) ∈ s
    · obtain ⟨a, c, e, hc⟩ := ih hs
      exact ⟨x :: a, c, by rw [e]; rfl, hc⟩
    · rcases List.mem_cons.1 h with h' | h'
      · exact ⟨[], s, by rw [h']; rfl, hs⟩
      · exact absurd h' hs

/-- Every path has one of the two forms. -/
theorem path_forms (p : Str) : (∃ n c t, p = List.replicate n 47 ++ c ++ List.replicate t 47 ∧ (47 : UInt8) ∉ c) ∨
    ∃ pre n c t, p = pre ++ List.replicate (n + 1) 47 ++ c ++ List.replicate t 47 ∧ pre ≠ [] ∧ pre.getLast? ≠ some 47 ∧ c ≠ [] ∧ (47 : UInt8) ∉ c := by
  obtain ⟨r, t, e, hr⟩ := slashes_back p
  by_cases h : (47 : UInt8) ∈ r
  · obtain ⟨a, c, e2, hc⟩ := last_slash r h
    obtain ⟨pre, n, e3, hpre⟩ := slashes_back a
    have hcne : c ≠ [] := by
      intro h0; rw [h0] at e2; apply hr; rw [e2]; simp
    have hsl : List.replicate n (47 : UInt8) ++ 47 :: c = List.replicate (n + 1) 47 ++ c := by
      rw [List.replicate_succ', List.append_assoc]; rfl
    by_cases hp : pre = []
    · subst hp
      left
      refine ⟨n + 1, c, t, ?_, hc⟩
      rw [e, e2, e3, List.nil_append, hsl]
    · right
      refine ⟨pre, n, c, t, ?_, hp, hpre, hcne, hc⟩
      rw [e, e2, e3, List.append_assoc pre, hsl, ← List.append_assoc]
  · left
    exact ⟨0, r, t, by rw [e]; rfl, h⟩

end Notmuch.Directory
