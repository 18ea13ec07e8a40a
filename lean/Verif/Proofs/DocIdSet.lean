import Verif.Model.DocIdSet

/-! # Proofs about sets of document ids -/

namespace Notmuch.DocIdSet

theorem bit_or : ∀ (x : UInt8) (i j : Fin 8),
    ((x ||| 1 <<< UInt8.ofNat i) &&& 1 <<< UInt8.ofNat j != 0) = (decide (j.val = i.val) || (x &&& 1 <<< UInt8.ofNat j != 0)) :=
  forall_byte (by decide +kernel)

theorem bit_andnot : ∀ (x : UInt8) (i j : Fin 8),
    ((x &&& ~~~ (1 <<< UInt8.ofNat i)) &&& 1 <<< UInt8.ofNat j != 0) = (!decide (j.val = i.val) && (x &&& 1 <<< UInt8.ofNat j != 0)) :=
  forall_byte (by decide +kernel)

theorem mask_or (x : UInt8) (a b : Nat) :
    ((x ||| mask a) &&& mask b != 0) = (decide (bit b = bit a) || (x &&& mask b != 0)) := by
  have := bit_or x ⟨bit a, Nat.mod_lt _ (by decide)⟩ ⟨bit b, Nat.mod_lt _ (by decide)⟩
  simpa only [mask] using this

theorem mask_andnot (x : UInt8) (a b : Nat) :
    ((x &&& ~~~ mask a) &&& mask b != 0) = (!decide (bit b = bit a) && (x &&& mask b != 0)) := by
  have := bit_andnot x ⟨bit a, Nat.mod_lt _ (by decide)⟩ ⟨bit b, Nat.mod_lt _ (by decide)⟩
  simpa only [mask] using this

theorem word_bit {a b : Nat} : word a = word b → bit a = bit b → a = b := by
  unfold word bit; omega

/-- The bit of a document. -/
def has (bitmap : List UInt8) (d : Nat) : Prop := ∃ b, bitmap[word d]? = some b ∧ (b &&& mask d != 0) = true

theorem modify_spec {bitmap : List UInt8} {d : Nat} (h : word d < bitmap.length) (f : UInt8 → UInt8) :
    ∃ b bm', bitmap[word d]? = some b ∧ modify bitmap d f = some bm' ∧ bm'.length = bitmap.length ∧
      bm'[word d]? = some (f b) ∧ ∀ w, w ≠ word d → bm'[w]? = bitmap[w]? := by
  unfold modify
  rw [List.getElem?_eq_getElem h]
  refine ⟨_, _, rfl, rfl, by simp, by simp [h], ?_⟩
  intro w hw
  rw [List.getElem?_set_ne (fun e => hw e.symm)]

theorem has_set {bitmap : List UInt8} {d : Nat} (h : word d < bitmap.length) :
    ∃ bm', modify bitmap d (fun b => b ||| mask d) = some bm' ∧ bm'.length = bitmap.length ∧
      ∀ x, has bm' x ↔ x = d ∨ has bitmap x := by
  obtain ⟨b, bm', h1, h2, h3, h4, h5⟩ := modify_spec h (fun b => b ||| mask d)
  refine ⟨bm', h2, h3, fun x => ?_⟩
  by_cases hw : word x = word d
  · unfold has
    rw [hw, h4, h1]
    simp only [Option.some.injEq, exists_eq_left']
    rw [mask_or]
    by_cases hb : bit x = bit d
    · simp [word_bit hw hb]
    · have : x ≠ d := fun e => hb (by rw [e])
      simp [hb, this]
  · have : x ≠ d := fun e => hw (by rw [e])
    unfold has
    rw [h5 _ hw]
    simp [this]

theorem has_remove {bitmap : List UInt8} {d : Nat} (h : word d < bitmap.length) :
    ∃ bm', modify bitmap d (fun b => b &&& ~~~ mask d) = some bm' ∧ bm'.length = bitmap.length ∧
      ∀ x, has bm' x ↔ x ≠ d ∧ has bitmap x := by
  obtain ⟨b, bm', h1, h2, h3, h4, h5⟩ := modify_spec h (fun b => b &&& ~~~ mask d)
  refine ⟨bm', h2, h3, fun x => ?_⟩
  by_cases hw : word x = word d
  · unfold has
    rw [hw, h4, h1]
    simp only [Option.some.injEq, exists_eq_left']
    rw [mask_andnot]
    by_cases hb : bit x = bit d
    · simp [word_bit hw hb]
    · have : x ≠ d := fun e => hb (by rw [e])
      simp [hb, this]
  · have : x ≠ d := fun e => hw (by rw [e])
    unfold has
    rw [h5 _ hw]
    simp [this]

theorem setAll_spec : ∀ (arr : List Nat) (bitmap : List UInt8), (∀ d ∈ arr, word d < bitmap.length) →
    ∃ bm', setAll bitmap arr = some bm' ∧ bm'.length = bitmap.length ∧ ∀ x, has bm' x ↔ x ∈ arr ∨ has bitmap x
  | [], bitmap, _ => ⟨bitmap, rfl, rfl, by simp⟩
  | d :: ds, bitmap, h => by
    obtain ⟨bm1, h1, h2, h3⟩ := has_set (h d (by simp))
    obtain ⟨bm2, h4, h5, h6⟩ := setAll_spec ds bm1 (fun e he => by rw [h2]; exact h e (by simp [he]))
    refine ⟨bm2, by rw [setAll, h1]; exact h4, by omega, fun x => ?_⟩
    rw [h6, h3]
    simp only [List.mem_cons]
    constructor
    · rintro (h | h | h)
      · exact Or.inl (Or.inr h)
      · exact Or.inl (Or.inl h)
      · exact Or.inr h
    · rintro ((h | h) | h)
      · exact Or.inr (Or.inl h)
      · exact Or.inl h
      · exact Or.inr (Or.inr h)

theorem foldl_max_spec : ∀ (l : List Nat) (a : Nat), a ≤ l.foldl Nat.max a ∧ (∀ d ∈ l, d ≤ l.foldl Nat.max a) ∧
    (l.foldl Nat.max a = a ∨ l.foldl Nat.max a ∈ l)
  | [], a => by simp
  | d :: l, a => by
    obtain ⟨h1, h2, h3⟩ := foldl_max_spec l (Nat.max a d)
    rw [List.foldl_cons]
    have e1 : a ≤ Nat.max a d := Nat.le_max_left _ _
    have e2 : d ≤ Nat.max a d := Nat.le_max_right _ _
    refine ⟨by omega, ?_, ?_⟩
    · intro x hx
      rcases List.mem_cons.1 hx with rfl | hx
      · omega
      · exact h2 x hx
    · rcases h3 with h3 | h3
      · rw [h3]
        rcases Nat.le_total a d with h | h
        · right; rw [show Nat.max a d = d from Nat.max_eq_right h]; simp
        · left; exact Nat.max_eq_left h
      · right; simp [h3]

/-- A set that represents `p`: bits exactly for `p`, all below the bound, and the bitmap covers the bound. -/
structure Represents (s : DocIdSet) (p : Nat → Prop) : Prop where
  covers : ∀ d < s.bound, word d < s.bitmap.length
  iff : ∀ d, d < s.bound ∧ has s.bitmap d ↔ p d

theorem init_represents (arr : List Nat) (h : ∀ d ∈ arr, d + 1 < 4294967296) :
    ∃ s, init arr = some s ∧ Represents s (· ∈ arr) := by
  obtain ⟨h1, h2, h3⟩ := foldl_max_spec arr 0
  unfold init
  simp only
  generalize hmax : arr.foldl Nat.max 0 = max at *
  obtain ⟨bm, h4, h5, h6⟩ := setAll_spec arr (List.replicate (word max + 1) 0) (by
    intro d hd
    have := h2 d hd
    rw [List.length_replicate]
    unfold word; omega)
  rw [h4]
  have hlt : max + 1 < 4294967296 := by
    rcases h3 with h3 | h3
    · omega
    · exact h _ h3
  rw [Nat.mod_eq_of_lt hlt]
  refine ⟨_, rfl, ?_, ?_⟩
  · intro d hd
    simp only at hd
    rw [h5, List.length_replicate]
    unfold word; omega
  · intro d
    simp only
    rw [h6]
    have hz : ¬ has (List.replicate (word max + 1) (0 : UInt8)) d := by
      rintro ⟨b, hb, hb'⟩
      have := List.mem_of_getElem? hb
      rw [List.mem_replicate] at this
      rw [this.2] at hb'
      simp at hb'
    simp only [hz, or_false]
    constructor
    · exact fun h => h.2
    · exact fun h => ⟨by have := h2 d h; omega, h⟩

theorem contains_represents {s : DocIdSet} {p : Nat → Prop} (h : Represents s p) (d : Nat) :
    ∃ b, contains s d = some b ∧ (b = true ↔ p d) := by
  unfold contains
  split
  · rename_i hd
    refine ⟨false, rfl, ?_⟩
    rw [← h.iff]
    simp; omega
  · rename_i hd
    have hw := h.covers d (by omega)
    rw [List.getElem?_eq_getElem hw]
    refine ⟨_, rfl, ?_⟩
    rw [← h.iff]
    unfold has
    rw [List.getElem?_eq_getElem hw]
    simp only [Option.some.injEq, exists_eq_left']
    have : d < s.bound := by omega
    simp [this]

theorem remove_represents {s : DocIdSet} {p : Nat → Prop} (h : Represents s p) (d : Nat) :
    ∃ s', remove s d = some s' ∧ Represents s' (fun x => x ≠ d ∧ p x) := by
  unfold remove
  split
  · rename_i hd
    obtain ⟨bm, h1, h2, h3⟩ := has_remove (h.covers d hd)
    rw [h1]
    refine ⟨_, rfl, ?_, ?_⟩
    · intro x hx
      simp only at *
      rw [h2]; exact h.covers x hx
    · intro x
      simp only
      rw [h3, ← h.iff]
      constructor
      · rintro ⟨a, b, c⟩; exact ⟨b, a, c⟩
      · rintro ⟨a, b, c⟩; exact ⟨b, a, c⟩
  · rename_i hd
    refine ⟨s, rfl, h.covers, ?_⟩
    intro x
    rw [h.iff]
    constructor
    · intro hx
      refine ⟨?_, hx⟩
      rintro rfl
      have := (h.iff x).2 hx
      omega
    · exact fun hx => hx.2

end Notmuch.DocIdSet
