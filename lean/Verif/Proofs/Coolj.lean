import Verif.Model.Coolj
import Verif.Spec.Coolj

namespace Notmuch.Coolj
open Notmuch.CooljSpec

theorem quote_prefix (l : Str) : ∀ b, quote b l <+: l := by
  induction l with
  | nil => intro b; exact List.prefix_refl _
  | cons c t ih =>
    intro b
    unfold quote
    split
    · exact (List.cons_prefix_cons).2 ⟨rfl, ih _⟩
    · split
      · exact (List.cons_prefix_cons).2 ⟨rfl, ih _⟩
      · exact List.nil_prefix

theorem quote_leader (l : Str) : Leader (quote false l) ∧ (Leader (quote true l) ∨ ∃ q, quote true l = 32 :: q ∧ Leader q) := by
  induction l with
  | nil => exact ⟨.nil, .inl .nil⟩
  | cons c t ih =>
    have mk : Leader (62 :: quote true t) := by
      rcases ih.2 with h | ⟨q, h, hq⟩
      · exact .mark h
      · rw [h]; exact .markSpace hq
    by_cases h1 : c = 62
    · subst h1
      have e : ∀ b, quote b (62 :: t) = 62 :: quote true t := by intro b; simp [quote]
      rw [e, e]
      exact ⟨mk, .inl mk⟩
    · by_cases h2 : c = 32
      · subst h2
        refine ⟨?_, .inr ⟨quote false t, ?_, ih.1⟩⟩
        · have : quote false (32 :: t) = [] := by simp [quote]
          rw [this]; exact .nil
        · simp [quote]
      · have e : ∀ b, quote b (c :: t) = [] := by intro b; simp [quote, h1, h2]
        rw [e, e]
        exact ⟨.nil, .inl .nil⟩

theorem leader_prefix {q : Str} (hq : Leader q) : ∀ (l : Str) (b : Bool), q <+: l → q <+: quote b l := by
  induction hq with
  | nil => intro l b _; exact List.nil_prefix
  | @mark p _ ih =>
    intro l b h
    obtain ⟨t, rfl⟩ := h
    have e : quote b (62 :: p ++ t) = 62 :: quote true (p ++ t) := by simp [quote]
    rw [e]
    exact (List.cons_prefix_cons).2 ⟨rfl, ih _ _ (List.prefix_append _ _)⟩
  | @markSpace p _ ih =>
    intro l b h
    obtain ⟨t, rfl⟩ := h
    have e : quote b (62 :: 32 :: p ++ t) = 62 :: 32 :: quote false (p ++ t) := by simp [quote]
    rw [e]
    exact (List.cons_prefix_cons).2 ⟨rfl, (List.cons_prefix_cons).2 ⟨rfl, ih _ _ (List.prefix_append _ _)⟩⟩

theorem prefixOf_spec (l : Str) : LeaderOf (prefixOf l) l :=
  ⟨(quote_leader l).1, quote_prefix l _, fun q hq h => (leader_prefix hq l false h).length_le⟩

theorem leaderOf_unique {p l : Str} (h : LeaderOf p l) : p = prefixOf l := by
  have h1 := leader_prefix h.1 l false h.2.1
  have h2 := h.2.2 _ (prefixOf_spec l).1 (prefixOf_spec l).2.1
  exact h1.eq_of_length (Nat.le_antisymm h1.length_le h2)

theorem prefixOf_take (l : Str) (n : Nat) (hn : (prefixOf l).length ≤ n) : prefixOf (l.take n) = prefixOf l := by
  have h := prefixOf_spec (l.take n)
  have h1 : prefixOf (l.take n) <+: prefixOf l := leader_prefix h.1 l false (h.2.1.trans (List.take_prefix _ _))
  have h2 : prefixOf l <+: l.take n := by
    obtain ⟨t, ht⟩ := (prefixOf_spec l).2.1
    refine ⟨t.take (n - (prefixOf l).length), ?_⟩
    conv => rhs; rw [← ht]
    rw [List.take_append, List.take_of_length_le hn]
  have h3 : prefixOf l <+: prefixOf (l.take n) := leader_prefix (prefixOf_spec l).1 _ false h2
  exact h1.eq_of_length (Nat.le_antisymm h1.length_le h3.length_le)

theorem quote_count (l : Str) : ∀ b, (quote b l).length ≤ 2 * l.count 62 + (if b then 1 else 0) := by
  induction l with
  | nil => intro b; simp [quote]
  | cons c t ih =>
    intro b
    unfold quote
    split
    · rename_i h; subst h
      have := ih true
      simp only [List.length_cons, List.count_cons_self, if_true] at this ⊢
      omega
    · rename_i h
      split
      · rename_i h2
        have := ih false
        rw [h2.2]
        simp only [List.length_cons, if_true, List.count_cons] at this ⊢
        simp at this
        omega
      · simp

theorem prefixOf_count (l : Str) : (prefixOf l).length ≤ 2 * l.count 62 := by
  have := quote_count l false
  simpa [prefixOf] using this

theorem findNonSpace_some {l : Str} {i j : Nat} (h : findNonSpace l i = some j) : i ≤ j ∧ (∃ c, l[j]? = some c ∧ c ≠ 32) ∧ ∀ m, i ≤ m → m < j → l[m]? = some 32 := by
  unfold findNonSpace at h
  cases hf : (l.drop i).findIdx? (· != 32) with
  | none => rw [hf] at h; cases h
  | some d =>
    rw [hf] at h
    have hj : d + i = j := by simpa using h
    subst hj
    obtain ⟨hd, h1, h2⟩ := List.findIdx?_eq_some_iff_getElem.1 hf
    rw [List.length_drop] at hd
    refine ⟨by omega, ⟨(l.drop i)[d]'(by rw [List.length_drop]; exact hd), ?_, ?_⟩, ?_⟩
    · rw [List.getElem_drop, ← List.getElem?_eq_getElem]
      congr 1; omega
    · simpa using h1
    · intro m hm1 hm2
      have := h2 (m - i) (by omega)
      rw [List.getElem_drop] at this
      simp only [show i + (m - i) = m by omega] at this
      rw [List.getElem?_eq_getElem (by omega)]
      congr 1
      simpa using this

theorem findNonSpace_none {l : Str} {i : Nat} (h : findNonSpace l i = none) : ∀ m c, i ≤ m → l[m]? = some c → c = 32 := by
  intro m c hm hc
  unfold findNonSpace at h
  rw [Option.map_eq_none_iff, List.findIdx?_eq_none_iff] at h
  have := h c (by
    apply List.mem_of_getElem? (i := m - i)
    rw [List.getElem?_drop]
    rw [show i + (m - i) = m by omega]; exact hc)
  simpa using this

theorem searchBackward_some {l : Str} {lo : Nat} : ∀ {p q : Nat}, searchBackward l lo p = some q → lo ≤ q ∧ q < p ∧ l[q]? = some 32 ∧ ∀ m, q < m → m < p → l[m]? ≠ some 32 := by
  intro p
  induction p with
  | zero => intro q h; cases h
  | succ p ih =>
    intro q h
    unfold searchBackward at h
    split at h
    · cases h
    · split at h
      · cases h
        exact ⟨by omega, by omega, by assumption, fun m h1 h2 => by omega⟩
      · rename_i h1 h2
        obtain ⟨a, b, c, d⟩ := ih h
        refine ⟨a, by omega, c, ?_⟩
        intro m hm1 hm2
        by_cases hm : m = p
        · subst hm; exact h2
        · exact d m hm1 (by omega)

theorem searchBackward_none {l : Str} {lo : Nat} : ∀ {p : Nat}, searchBackward l lo p = none → ∀ m, lo ≤ m → m < p → l[m]? ≠ some 32 := by
  intro p
  induction p with
  | zero => intro _ m _ h; omega
  | succ p ih =>
    intro h m hm1 hm2
    unfold searchBackward at h
    split at h
    · omega
    · split at h
      · cases h
      · rename_i h1 h2
        by_cases hm : m = p
        · subst hm; exact h2
        · exact ih h m hm1 (by omega)

theorem skipBack_zero {l : Str} {lo : Nat} : ∀ {p : Nat}, skipBack l lo p = 0 → ∀ m < p, l[m]? = some 32 := by
  intro p
  induction p with
  | zero => intro _ m h; omega
  | succ p ih =>
    intro h m hm
    unfold skipBack at h
    split at h
    · omega
    · split at h
      · rename_i h1 h2
        by_cases hm2 : m = p
        · subst hm2; exact h2
        · exact ih h m (by omega)
      · omega

theorem breakForward_some {l : Str} {p k : Nat} (h : breakForward l p = some k) :
    ∃ q, p ≤ q ∧ q < k ∧ l[q]? = some 32 ∧ (∀ m, p ≤ m → m < q → l[m]? ≠ some 32) ∧ (∀ m, q ≤ m → m < k → l[m]? = some 32) ∧ ∃ c, l[k]? = some c ∧ c ≠ 32 := by
  unfold breakForward at h
  cases hf : (l.drop p).findIdx? (· == 32) with
  | none => rw [hf] at h; cases h
  | some d =>
    rw [hf] at h
    dsimp only at h
    obtain ⟨hd, h1, h2⟩ := List.findIdx?_eq_some_iff_getElem.1 hf
    rw [List.length_drop] at hd
    obtain ⟨g1, g2, g3⟩ := findNonSpace_some h
    have hq : l[p + d]? = some 32 := by
      rw [List.getElem_drop] at h1
      rw [List.getElem?_eq_getElem (by omega)]
      congr 1
      simpa using h1
    refine ⟨p + d, by omega, by omega, hq, ?_, ?_, g2⟩
    · intro m hm1 hm2 hc
      have := h2 (m - p) (by omega)
      rw [List.getElem_drop] at this
      simp only [show p + (m - p) = m by omega] at this
      rw [List.getElem?_eq_getElem (by omega)] at hc
      rw [Option.some.injEq] at hc
      rw [hc] at this
      simp at this
    · intro m hm1 hm2
      by_cases hm : m = p + d
      · subst hm; exact hq
      · exact g3 m (by omega) hm2

theorem breakForward_none {l : Str} {p : Nat} (h : breakForward l p = none) : ∀ i j c, p ≤ i → i < j → l[i]? = some 32 → l[j]? = some c → c = 32 := by
  intro i j c hi hij h1 h2
  unfold breakForward at h
  cases hf : (l.drop p).findIdx? (· == 32) with
  | none =>
    rw [List.findIdx?_eq_none_iff] at hf
    have := hf 32 (by
      apply List.mem_of_getElem? (i := i - p)
      rw [List.getElem?_drop, show p + (i - p) = i by omega]; exact h1)
    simp at this
  | some d =>
    rw [hf] at h
    dsimp only at h
    obtain ⟨hd, g1, g2⟩ := List.findIdx?_eq_some_iff_getElem.1 hf
    rw [List.length_drop] at hd
    have hdi : p + d ≤ i := by
      apply Classical.byContradiction
      intro hn
      have := g2 (i - p) (by omega)
      rw [List.getElem_drop] at this
      simp only [show p + (i - p) = i by omega] at this
      rw [List.getElem?_eq_getElem (by omega)] at h1
      rw [Option.some.injEq] at h1
      rw [h1] at this
      simp at this
    exact findNonSpace_none h j c (by omega) h2

theorem split_at {l : Str} {k : Nat} (hk : 1 ≤ k) (h : l[k - 1]? = some 32) : l = l.take (k - 1) ++ 32 :: l.drop k := by
  have hlt : k - 1 < l.length := by
    apply Classical.byContradiction
    intro hn
    rw [List.getElem?_eq_none (by omega)] at h
    cases h
  rw [List.getElem?_eq_getElem hlt] at h
  have e : l[k - 1] = 32 := Option.some.inj h
  conv => lhs; rw [← List.take_append_drop (k - 1) l, List.drop_eq_getElem_cons hlt, e]
  rw [show k - 1 + 1 = k by omega]

/-- A break is before a word, and after a space. -/
theorem breakpoint_some {fill : Nat} {l : Str} {k : Nat} (h : breakpoint fill l = .ok (some k)) :
    1 ≤ k ∧ l[k - 1]? = some 32 ∧ ∃ c, l[k]? = some c ∧ c ≠ 32 := by
  unfold breakpoint at h
  split at h
  · cases h
  · rename_i j hj
    obtain ⟨g1, ⟨c, g2, g2'⟩, g3⟩ := findNonSpace_some hj
    split at h
    · split at h
      · cases h
      · rename_i k' hb
        have hk : k' = k := by injection h with h; injection h
        subst hk
        unfold breakBackward at hb
        split at hb
        · cases hb
        · split at hb
          · cases hb
          · rename_i q hq
            split at hb
            · cases hb
            · have hk : q + 1 = k' := by injection hb with hb; injection hb
              subst hk
              obtain ⟨s1, s2, s3, s4⟩ := searchBackward_some hq
              refine ⟨by omega, s3, ?_⟩
              by_cases e : q + 1 = j
              · exact ⟨c, by rw [e]; exact g2, g2'⟩
              · have hne : q ≠ j := by
                  intro e
                  subst e
                  rw [g2] at s3
                  exact g2' (Option.some.inj s3)
                have s5 := s4 (q + 1) (by omega) (by omega)
                have hlen : q + 1 < l.length := by
                  have : j < l.length := by
                    apply Classical.byContradiction
                    intro hn
                    rw [List.getElem?_eq_none (by omega)] at g2
                    cases g2
                  omega
                refine ⟨l[q + 1], List.getElem?_eq_getElem hlen, ?_⟩
                intro e
                apply s5
                rw [List.getElem?_eq_getElem hlen, e]
      · have hk : breakForward l fill = some k := by injection h
        obtain ⟨q, f1, f2, f3, f4, f5, f6⟩ := breakForward_some hk
        exact ⟨by omega, f5 (k - 1) (by omega) (by omega), f6⟩
    · cases h

theorem wrapLine_some {fill : Nat} {l a l' : Str} (h : wrapLine fill l = .ok (some (a, l'))) :
    ∃ b, l = a ++ 32 :: b ∧ l' = prefixOf l ++ b ∧ (∃ c b', b = c :: b' ∧ c ≠ 32) ∧ breakpoint fill l = .ok (some (a.length + 1)) := by
  unfold wrapLine at h
  split at h
  · cases h
  · cases h
  · rename_i k hk
    obtain ⟨h1, h2, c, h3, h4⟩ := breakpoint_some hk
    have ha : l.take (k - 1) = a := by injection h with h; injection h with h; injection h
    have hl : prefixOf l ++ l.drop k = l' := by injection h with h; injection h with h; injection h
    have hlt : k < l.length := by
      apply Classical.byContradiction
      intro hn
      rw [List.getElem?_eq_none (by omega)] at h3
      cases h3
    refine ⟨l.drop k, ?_, hl.symm, ⟨c, l.drop (k + 1), ?_, h4⟩, ?_⟩
    · rw [← ha]; exact split_at h1 h2
    · rw [List.drop_eq_getElem_cons hlt]
      congr 1
      rw [List.getElem?_eq_getElem hlt] at h3
      exact Option.some.inj h3
    · rw [hk, ← ha, List.length_take]
      congr 2
      omega

/-- With a leader that is not wider than the lines there is no error. -/
theorem wrapLine_no_error {fill : Nat} {l : Str} (hp : (prefixOf l).length ≤ fill) : wrapLine fill l ≠ .error := by
  have key : breakpoint fill l ≠ .error := by
    unfold breakpoint
    split
    · intro h; cases h
    · rename_i j hj
      have g1 := (findNonSpace_some hj).1
      have : ∀ p, (prefixOf l).length ≤ p → breakBackward l (prefixOf l).length p ≠ .error := by
        intro p hp
        unfold breakBackward
        rw [if_neg (by omega)]
        split
        · intro h; cases h
        · split <;> (intro h; cases h)
      split
      · split
        · rename_i hb; exact absurd hb (this _ (by omega))
        · intro h; cases h
        · intro h; cases h
      · intro h; cases h
  unfold wrapLine
  split
  · rename_i h; exact absurd h key
  · intro h; cases h
  · intro h; cases h

/-- A break is after the leader. -/
theorem breakpoint_after {fill : Nat} {l : Str} {k : Nat} (hp : (prefixOf l).length ≤ fill) (h : breakpoint fill l = .ok (some k)) : (prefixOf l).length < k := by
  unfold breakpoint at h
  split at h
  · cases h
  · split at h
    · split at h
      · cases h
      · rename_i k' hb
        have hk : k' = k := by injection h with h; injection h
        subst hk
        unfold breakBackward at hb
        split at hb
        · cases hb
        · split at hb
          · cases hb
          · rename_i q hq
            split at hb
            · cases hb
            · have hk : q + 1 = k' := by injection hb with hb; injection hb
              have := (searchBackward_some hq).1
              omega
      · have hk : breakForward l fill = some k := by injection h
        obtain ⟨q, f1, f2, _⟩ := breakForward_some hk
        omega
    · cases h

/-- No good place found backwards: so there is none between the leader and the width. -/
theorem backward_none {fill j : Nat} {l : Str} (hf : fill ≤ j) (h : breakBackward l (prefixOf l).length (j + 1) = .ok none) :
    ∀ i, (prefixOf l).length ≤ i → i < fill → l[i]? = some 32 → ∀ m < i, l[m]? = some 32 := by
  intro i hi1 hi2 hs m hm
  unfold breakBackward at h
  split at h
  · cases h
  · split at h
    · rename_i hn
      exact absurd hs (searchBackward_none hn i hi1 (by omega))
    · rename_i q hq
      split at h
      · rename_i h0
        obtain ⟨s1, s2, s3, s4⟩ := searchBackward_some hq
        have : i ≤ q := by
          apply Classical.byContradiction
          intro hn
          exact s4 i (by omega) (by omega) hs
        exact skipBack_zero h0 m (by omega)
      · cases h

/-- A line that is not broken fits, or there is no place. -/
theorem wrapLine_none {fill : Nat} {l : Str} (h : wrapLine fill l = .ok none) : Fits fill l ∨ NoPlace l := by
  have hb : breakpoint fill l = .ok none := by
    unfold wrapLine at h
    split at h
    · cases h
    · assumption
    · cases h
  unfold breakpoint at hb
  split at hb
  · rename_i hn
    exact .inl (fun j c h1 h2 => findNonSpace_none hn j c h1 h2)
  · rename_i j hj
    have g1 := (findNonSpace_some hj).1
    rw [if_pos (by omega)] at hb
    split at hb
    · cases hb
    · cases hb
    · rename_i hbb
      have hfw : breakForward l fill = none := by injection hb
      right
      intro p hp i j' c h1 h2 h3 h4 h5 m hm
      have := leaderOf_unique hp
      subst this
      by_cases hi : i < fill
      · exact backward_none g1 hbb i h1 hi h3 m hm
      · exact absurd (breakForward_none hfw i j' c (by omega) h2 h3 h4) h5

/-- Nor does what is before a break have another place, unless it fits. -/
theorem piece_ok {fill : Nat} {l : Str} {k : Nat} (hp : (prefixOf l).length ≤ fill) (h : breakpoint fill l = .ok (some k)) : Fits fill (l.take (k - 1)) ∨ NoPlace (l.take (k - 1)) := by
  have hafter := breakpoint_after hp h
  unfold breakpoint at h
  split at h
  · cases h
  · rename_i j hj
    obtain ⟨g1, g2, g3⟩ := findNonSpace_some hj
    rw [if_pos (by omega)] at h
    split at h
    · cases h
    · rename_i k' hb
      have hk : k' = k := by injection h with h; injection h
      subst hk
      left
      unfold breakBackward at hb
      split at hb
      · cases hb
      · split at hb
        · cases hb
        · rename_i q hq
          split at hb
          · cases hb
          · have hk : q + 1 = k' := by injection hb with hb; injection hb
            obtain ⟨s1, s2, s3, s4⟩ := searchBackward_some hq
            intro j' c h1 h2
            rw [List.getElem?_take] at h2
            split at h2
            · have := g3 j' h1 (by omega)
              rw [this] at h2
              exact (Option.some.inj h2).symm
            · cases h2
    · rename_i hbb
      have hk : breakForward l fill = some k := by injection h
      obtain ⟨q, f1, f2, f3, f4, f5, f6⟩ := breakForward_some hk
      right
      intro p hpl i j' c h1 h2 h3 h4 h5 m hm
      have := leaderOf_unique hpl
      rw [prefixOf_take l (k - 1) (by omega)] at this
      subst this
      have get : ∀ n x, (l.take (k - 1))[n]? = some x → n < k - 1 ∧ l[n]? = some x := by
        intro n x hx
        rw [List.getElem?_take] at hx
        split at hx
        · exact ⟨by assumption, hx⟩
        · cases hx
      obtain ⟨i1, i2⟩ := get _ _ h3
      obtain ⟨j1, j2⟩ := get _ _ h4
      have hjq : j' < q := by
        apply Classical.byContradiction
        intro hn
        have := f5 j' (by omega) (by omega)
        rw [this] at j2
        exact h5 (Option.some.inj j2).symm
      have hif : i < fill := by
        apply Classical.byContradiction
        intro hn
        exact f4 i (by omega) (by omega) i2
      rw [List.getElem?_take, if_pos (by omega)]
      exact backward_none g1 hbb i h1 hif i2 m hm

theorem count_step {fill : Nat} {l a b : Str} (hl : l = a ++ 32 :: b) (hp : (prefixOf l).length ≤ a.length) : (prefixOf l ++ b).count 62 ≤ l.count 62 := by
  have h : prefixOf l <+: a := by
    have := (prefixOf_spec l).2.1
    rw [hl] at this
    rw [hl] at hp ⊢
    exact List.prefix_of_prefix_length_le this (List.prefix_append _ _) hp
  obtain ⟨t, ht⟩ := h
  have e : l.count 62 = (prefixOf l).count 62 + t.count 62 + (32 :: b).count 62 := by
    conv => lhs; rw [hl, List.count_append, ← ht, List.count_append]
  rw [e, List.count_append]
  have : (32 :: b).count (62 : UInt8) = b.count 62 := by rw [List.count_cons]; simp
  omega

end Notmuch.Coolj
