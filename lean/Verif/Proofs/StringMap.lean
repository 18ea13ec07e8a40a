import Verif.Spec.StringMap

/-! # Proofs about string maps -/

namespace Notmuch.StringMap
open Notmuch.StringMapSpec

theorem u8_lt_irrefl (a : UInt8) : ¬ a < a := by
  rw [UInt8.lt_iff_toNat_lt]; omega
theorem u8_asymm {a b : UInt8} (h : a < b) : ¬ b < a := by
  rw [UInt8.lt_iff_toNat_lt] at *; omega
theorem u8_trans {a b c : UInt8} (h : a < b) (h' : b < c) : a < c := by
  rw [UInt8.lt_iff_toNat_lt] at *; omega
theorem u8_eq {a b : UInt8} (h : ¬ a < b) (h' : ¬ b < a) : a = b := by
  rw [UInt8.lt_iff_toNat_lt] at *; exact UInt8.toNat_inj.1 (by omega)

theorem lexLe_refl : ∀ a, LexLe a a
  | [] => trivial
  | _ :: as => Or.inr ⟨rfl, lexLe_refl as⟩

theorem strcmp_eq : ∀ a b, strcmp a b = .eq ↔ b = a
  | [], [] => by simp [strcmp]
  | [], _ :: _ => by simp [strcmp]
  | _ :: _, [] => by simp [strcmp]
  | a :: as, b :: bs => by
    rw [strcmp]
    split
    · rename_i h
      simp only [reduceCtorEq, false_iff, List.cons.injEq, not_and]
      rintro rfl; exact absurd h (u8_lt_irrefl _)
    · split
      · rename_i h
        simp only [reduceCtorEq, false_iff, List.cons.injEq, not_and]
        rintro rfl; exact absurd h (u8_lt_irrefl _)
      · rename_i h1 h2
        rw [strcmp_eq as bs]
        simp [u8_eq h2 h1]

theorem strcmp_gt : ∀ a b, strcmp a b = .gt ↔ ¬ LexLe a b
  | [], [] => by simp [strcmp, LexLe]
  | [], _ :: _ => by simp [strcmp, LexLe]
  | _ :: _, [] => by simp [strcmp, LexLe]
  | a :: as, b :: bs => by
    rw [strcmp, LexLe]
    split
    · rename_i h; simp [h]
    · split
      · rename_i h1 h2
        simp only [true_iff, not_or, not_and]
        exact ⟨h1, fun e => absurd (e ▸ h2) (by rw [e] at h2; exact absurd h2 (u8_lt_irrefl _))⟩
      · rename_i h1 h2
        rw [strcmp_gt as bs]
        simp [h1, u8_eq h1 h2]

theorem strncmp_eq : ∀ a b, strncmpLen a b = .eq ↔ a <+: b
  | [], _ => by simp [strncmpLen]
  | _ :: _, [] => by simp [strncmpLen]
  | a :: as, b :: bs => by
    rw [strncmpLen, List.cons_prefix_cons]
    split
    · rename_i h
      simp only [reduceCtorEq, false_iff, not_and]
      rintro rfl; exact absurd h (u8_lt_irrefl _)
    · split
      · rename_i h
        simp only [reduceCtorEq, false_iff, not_and]
        rintro rfl; exact absurd h (u8_lt_irrefl _)
      · rename_i h1 h2
        rw [strncmp_eq as bs]
        simp [u8_eq h1 h2]

theorem stringCmp_eq (key k : Str) (e : Bool) : stringCmp key k e = .eq ↔ Matches key e k := by
  unfold stringCmp Matches
  cases e
  · simpa using strncmp_eq key k
  · simpa using strcmp_eq key k

theorem lexLe_trans : ∀ a b c, LexLe a b → LexLe b c → LexLe a c
  | [], _, _ => by simp [LexLe]
  | _ :: _, [], _ => by simp [LexLe]
  | _ :: _, _ :: _, [] => by simp [LexLe]
  | a :: as, b :: bs, c :: cs => by
    simp only [LexLe]
    rintro (h | ⟨rfl, h⟩) (h' | ⟨rfl, h'⟩)
    · exact Or.inl (u8_trans h h')
    · exact Or.inl h
    · exact Or.inl h'
    · exact Or.inr ⟨rfl, lexLe_trans as bs cs h h'⟩

theorem lexLe_antisymm : ∀ a b, LexLe a b → LexLe b a → a = b
  | [], [] => by simp
  | [], _ :: _ => by simp [LexLe]
  | _ :: _, [] => by simp [LexLe]
  | a :: as, b :: bs => by
    simp only [LexLe]
    rintro (h | ⟨rfl, h⟩) (h' | ⟨h1, h'⟩)
    · exact absurd h' (u8_asymm h)
    · rw [h1] at h; exact absurd h (u8_lt_irrefl _)
    · exact absurd h' (u8_lt_irrefl _)
    · rw [lexLe_antisymm as bs h h']

theorem lexLe_total : ∀ a b, LexLe a b ∨ LexLe b a
  | [], _ => by simp [LexLe]
  | _ :: _, [] => by simp [LexLe]
  | a :: as, b :: bs => by
    simp only [LexLe]
    by_cases h : a < b
    · exact Or.inl (Or.inl h)
    · by_cases h' : b < a
      · exact Or.inr (Or.inl h')
      · have := u8_eq h h'
        rcases lexLe_total as bs with h2 | h2
        · exact Or.inl (Or.inr ⟨this, h2⟩)
        · exact Or.inr (Or.inr ⟨this.symm, h2⟩)

theorem strncmp_gt_mono : ∀ key k k', LexLe k k' → strncmpLen key k' = .gt → strncmpLen key k = .gt
  | [], _, _ => by simp [strncmpLen]
  | _ :: _, [], _ => by simp [strncmpLen]
  | _ :: _, _ :: _, [] => by simp [LexLe]
  | a :: as, b :: bs, c :: cs => by
    simp only [LexLe, strncmpLen]
    rintro (h | ⟨rfl, h⟩) h'
    · split at h'
      · simp at h'
      · rename_i h1
        by_cases h2 : c < a
        · rw [if_neg (u8_asymm (u8_trans h h2)), if_pos (u8_trans h h2)]
        · have := u8_eq h1 h2
          subst this
          rw [if_neg (u8_asymm h), if_pos h]
    · split at h'
      · simp at h'
      · rename_i h1
        rw [if_neg h1]
        split at h'
        · rename_i h2; rw [if_pos h2]
        · rename_i h2; rw [if_neg h2]; exact strncmp_gt_mono as bs cs h h'

theorem strncmp_lt_mono : ∀ key k k', LexLe k k' → strncmpLen key k = .lt → strncmpLen key k' = .lt
  | [], _, _ => by simp [strncmpLen]
  | _ :: _, [], _ => by simp [strncmpLen]
  | _ :: _, _ :: _, [] => by simp [LexLe]
  | a :: as, b :: bs, c :: cs => by
    simp only [LexLe, strncmpLen]
    rintro (h | ⟨rfl, h⟩) h'
    · by_cases h1 : a < b
      · rw [if_pos (u8_trans h1 h)]
      · rw [if_neg h1] at h'
        split at h'
        · simp at h'
        · rename_i h2
          have := u8_eq h1 h2
          subst this
          rw [if_pos h]
    · split at h'
      · rename_i h1; rw [if_pos h1]
      · rename_i h1
        rw [if_neg h1]
        split at h'
        · simp at h'
        · rename_i h2; rw [if_neg h2]; exact strncmp_lt_mono as bs cs h h'

theorem strcmp_lt (a b : Str) : strcmp a b = .lt ↔ LexLe a b ∧ b ≠ a := by
  cases h : strcmp a b with
  | lt =>
    simp only [true_iff]
    refine ⟨Classical.byContradiction fun hh => ?_, fun hh => ?_⟩
    · rw [← strcmp_gt, h] at hh; simp at hh
    · rw [← strcmp_eq, h] at hh; simp at hh
  | eq => simp [(strcmp_eq a b).1 h]
  | gt => simp [(strcmp_gt a b).1 h]

theorem stringCmp_gt_mono (key : Str) (e : Bool) {k k' : Str} (h : LexLe k k') (h' : stringCmp key k' e = .gt) :
    stringCmp key k e = .gt := by
  unfold stringCmp at *
  cases e
  · exact strncmp_gt_mono key k k' h (by simpa using h')
  · simp only [if_true] at *
    rw [strcmp_gt] at *
    exact fun h2 => h' (lexLe_trans _ _ _ h2 h)

theorem stringCmp_lt_mono (key : Str) (e : Bool) {k k' : Str} (h : LexLe k k') (h' : stringCmp key k e = .lt) :
    stringCmp key k' e = .lt := by
  unfold stringCmp at *
  cases e
  · exact strncmp_lt_mono key k k' h (by simpa using h')
  · simp only [if_true] at *
    rw [strcmp_lt] at *
    refine ⟨lexLe_trans _ _ _ h'.1 h, ?_⟩
    rintro rfl
    exact h'.2 (lexLe_antisymm _ _ h h'.1)

/-- The keys are in order. -/
def KeySorted (l : List Pair) : Prop := l.Pairwise (fun p q => LexLe p.1 q.1)

theorem KeySorted.le {l : List Pair} (h : KeySorted l) {i j : Nat} {p q : Pair} (hij : i ≤ j)
    (hi : l[i]? = some p) (hj : l[j]? = some q) : LexLe p.1 q.1 := by
  rcases Nat.eq_or_lt_of_le hij with rfl | hlt
  · rw [hi] at hj; rw [Option.some.inj hj]; exact lexLe_refl _
  · obtain ⟨hi', rfl⟩ := List.getElem?_eq_some_iff.1 hi
    obtain ⟨hj', rfl⟩ := List.getElem?_eq_some_iff.1 hj
    exact List.pairwise_iff_getElem.1 h i j hi' hj' hlt

theorem bsearchLoop_spec {arr : List Pair} (hs : KeySorted arr) (key : Str) (e : Bool) :
    ∀ fuel first last, first ≤ last → last < arr.length → last - first < fuel →
      (∀ j p, j < first → arr[j]? = some p → stringCmp key p.1 e = .gt) →
      (last = arr.length - 1 ∨ ∃ p, arr[last]? = some p ∧ stringCmp key p.1 e ≠ .gt) →
      ∃ i, bsearchLoop arr key e fuel first last = some i ∧ i < arr.length ∧
        (∀ j p, j < i → arr[j]? = some p → stringCmp key p.1 e = .gt) ∧
        (i = arr.length - 1 ∨ ∃ p, arr[i]? = some p ∧ stringCmp key p.1 e ≠ .gt) := by
  intro fuel
  induction fuel with
  | zero => intro first last _ _ h; omega
  | succ fuel ih =>
    intro first last h1 h2 h3 h4 h5
    rw [bsearchLoop]
    split
    · have hm : (first + last) / 2 < arr.length := by omega
      simp only
      rw [List.getElem?_eq_getElem hm]
      simp only
      split
      · rename_i hgt
        refine ih _ _ (by omega) h2 (by omega) ?_ h5
        intro j p hj hp
        exact stringCmp_gt_mono key e (hs.le (by omega) hp (List.getElem?_eq_getElem hm)) hgt
      · rename_i hgt
        exact ih _ _ (by omega) hm (by omega) h4 (Or.inr ⟨_, List.getElem?_eq_getElem hm, hgt⟩)
    · have : first = last := by omega
      subst this
      exact ⟨first, rfl, h2, h4, h5⟩

theorem bsearchFirst_spec {arr : List Pair} (hs : KeySorted arr) (key : Str) (e : Bool) :
    ∃ c, bsearchFirst arr key e = some c ∧
      (c = none → ∀ p ∈ arr, ¬ Matches key e p.1) ∧
      (∀ i, c = some i → ∃ p, arr[i]? = some p ∧ Matches key e p.1 ∧
        ∀ j q, j < i → arr[j]? = some q → stringCmp key q.1 e = .gt) := by
  unfold bsearchFirst
  split
  · rename_i h
    refine ⟨none, rfl, ?_, by simp⟩
    intro _ p hp
    rw [List.length_eq_zero_iff] at h
    simp [h] at hp
  · rename_i h
    obtain ⟨i, h1, h2, h3, h4⟩ := bsearchLoop_spec hs key e (arr.length + 1) 0 (arr.length - 1) (by omega) (by omega)
      (by omega) (by intro j p hj; omega) (Or.inl rfl)
    rw [h1]
    simp only
    rw [List.getElem?_eq_getElem h2]
    simp only
    split
    · rename_i heq
      refine ⟨some i, rfl, by simp, ?_⟩
      intro i' hi'
      obtain rfl : i = i' := Option.some.inj hi'
      exact ⟨arr[i], List.getElem?_eq_getElem h2, (stringCmp_eq _ _ _).1 heq, h3⟩
    · rename_i hne
      refine ⟨none, rfl, ?_, by simp⟩
      intro _ p hp hm
      obtain ⟨j, hj⟩ := List.getElem?_of_mem hp
      rw [← stringCmp_eq] at hm
      rcases Nat.lt_or_ge j i with hlt | hge
      · rw [h3 j p hlt hj] at hm; simp at hm
      · have hle := hs.le hge (List.getElem?_eq_getElem h2) hj
        have hjl : j < arr.length := (List.getElem?_eq_some_iff.1 hj).1
        rcases h4 with rfl | ⟨p', hp', hg⟩
        · have : j = arr.length - 1 := by omega
          subst this
          rw [List.getElem?_eq_getElem h2] at hj
          rw [Option.some.inj hj] at hne
          exact hne hm
        · rw [List.getElem?_eq_getElem h2] at hp'
          rw [← Option.some.inj hp'] at hg
          cases hc : stringCmp key arr[i].1 e with
          | lt => rw [stringCmp_lt_mono key e hle hc] at hm; simp at hm
          | eq => exact hne hc
          | gt => exact hg hc

/-- The part of a sorted array that matches, from its first match on. -/
theorem filter_from_first {arr : List Pair} (hs : KeySorted arr) (key : Str) (e : Bool) (i : Nat)
    (h : ∀ j q, j < i → arr[j]? = some q → stringCmp key q.1 e = .gt)
    (h0 : ∀ p, arr[i]? = some p → stringCmp key p.1 e = .eq) :
    arr.filter (fun p => stringCmp key p.1 e = .eq) = (arr.drop i).takeWhile (fun p => stringCmp key p.1 e = .eq) := by
  conv => lhs; rw [← List.take_append_drop i arr]
  rw [List.filter_append]
  have h1 : (arr.take i).filter (fun p => stringCmp key p.1 e = .eq) = [] := by
    rw [List.filter_eq_nil_iff]
    intro p hp
    obtain ⟨j, hj⟩ := List.getElem?_of_mem hp
    have hji : j < i := by
      have := (List.getElem?_eq_some_iff.1 hj).1
      rw [List.length_take] at this; omega
    rw [List.getElem?_take_of_lt hji] at hj
    simp [h j p hji hj]
  rw [h1, List.nil_append]
  have hs' : KeySorted (arr.drop i) := List.Pairwise.drop hs
  have h0' : ∀ p, (arr.drop i).head? = some p → stringCmp key p.1 e = .eq := by
    intro p hp
    rw [List.head?_drop] at hp
    exact h0 p hp
  generalize arr.drop i = l at *
  clear h h0 h1 hs
  cases l with
  | nil => rfl
  | cons a l =>
    have ha := h0' a rfl
    rw [List.filter_cons_of_pos (by simpa using ha), List.takeWhile_cons_of_pos (by simpa using ha)]
    congr 1
    have hal : ∀ p ∈ l, LexLe a.1 p.1 := fun p hp => (List.pairwise_cons.1 hs').1 p hp
    have hs2 : KeySorted l := (List.pairwise_cons.1 hs').2
    clear h0' hs'
    have gen : ∀ p : Pair, LexLe a.1 p.1 → stringCmp key p.1 e ≠ .gt := by
      intro p hp hg
      rw [stringCmp_gt_mono key e hp hg] at ha; simp at ha
    clear ha
    induction l with
    | nil => rfl
    | cons b l ih =>
      by_cases hb : stringCmp key b.1 e = .eq
      · rw [List.filter_cons_of_pos (by simpa using hb), List.takeWhile_cons_of_pos (by simpa using hb),
          ih (fun p hp => hal p (by simp [hp])) (List.pairwise_cons.1 hs2).2]
      · rw [List.filter_cons_of_neg (by simpa using hb), List.takeWhile_cons_of_neg (by simpa using hb),
          List.filter_eq_nil_iff]
        intro p hp
        have hlt : stringCmp key b.1 e = .lt := by
          cases hc : stringCmp key b.1 e with
          | lt => rfl
          | eq => exact absurd hc hb
          | gt => exact absurd hc (gen b (hal b (by simp)))
        simp [stringCmp_lt_mono key e ((List.pairwise_cons.1 hs2).1 p hp) hlt]

theorem walk_eq (m : Map) (key : Str) (e : Bool) : ∀ n i, m.pairs.length ≤ i + n →
    walk m n ⟨some i, e, key⟩ = (m.pairs.drop i).takeWhile (fun p => stringCmp key p.1 e = .eq) := by
  intro n
  induction n with
  | zero => intro i hi; rw [walk, List.drop_of_length_le (by omega)]; rfl
  | succ n ih =>
    intro i hi
    rw [walk]
    rcases Nat.lt_or_ge i m.pairs.length with hlt | hge
    · rw [List.drop_eq_getElem_cons hlt]
      by_cases hc : stringCmp key (m.pairs[i]).1 e = .eq
      · have hv : iterValid m ⟨some i, e, key⟩ = true := by
          simp only [iterValid, List.getElem?_eq_getElem hlt]; simpa using hc
        simp only [iterPair, iterNext, hv, if_true, List.getElem?_eq_getElem hlt, Option.map_some]
        rw [List.takeWhile_cons_of_pos (by simpa using hc), ih (i + 1) (by omega)]
      · have hv : iterValid m ⟨some i, e, key⟩ = false := by
          simp only [iterValid, List.getElem?_eq_getElem hlt]; simpa using hc
        simp only [iterPair, hv]
        rw [List.takeWhile_cons_of_neg (by simpa using hc)]
        simp
    · have hv : iterValid m ⟨some i, e, key⟩ = false := by
        simp only [iterValid, List.getElem?_eq_none hge]
      simp only [iterPair, hv]
      rw [List.drop_of_length_le hge]
      simp

/-- What holds after every history: a map marked as sorted has its keys in order. -/
def Inv (m : Map) : Prop := m.sorted = true → KeySorted m.pairs

theorem cmppair_keys {p q : Pair} (h : cmppair p q ≠ .gt) : LexLe p.1 q.1 := by
  unfold cmppair at h
  cases hc : strcmp p.1 q.1 with
  | lt => exact ((strcmp_lt _ _).1 hc).1
  | eq => rw [(strcmp_eq _ _).1 hc]; exact lexLe_refl _
  | gt => rw [hc] at h; simp at h

theorem sort_spec {qs : List Pair → List Pair} (hq : QSort cmppair qs) {m : Map} (hm : Inv m) :
    KeySorted (sort qs m).pairs ∧ (sort qs m).pairs.Perm m.pairs ∧ Inv (sort qs m) := by
  unfold sort
  split
  · rename_i h
    rw [List.length_eq_zero_iff] at h
    refine ⟨by rw [h]; exact .nil, .refl _, hm⟩
  · split
    · rename_i h; exact ⟨hm h, .refl _, hm⟩
    · have : KeySorted (qs m.pairs) := (hq.sorted m.pairs).imp cmppair_keys
      exact ⟨this, hq.perm _, fun _ => this⟩

theorem cmppair_le {p q : Pair} (h : cmppair p q ≠ .gt) : PairLe p q := by
  unfold cmppair at h
  unfold PairLe
  cases hc : strcmp p.1 q.1 with
  | lt => exact Or.inl ⟨fun e => ((strcmp_lt _ _).1 hc).2 e.symm, ((strcmp_lt _ _).1 hc).1⟩
  | eq =>
    rw [hc] at h
    refine Or.inr ⟨((strcmp_eq _ _).1 hc).symm, Classical.byContradiction fun hh => h ?_⟩
    exact (strcmp_gt _ _).2 hh
  | gt => rw [hc] at h; simp at h

end Notmuch.StringMap
