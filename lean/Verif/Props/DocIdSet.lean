import Verif.Proofs.DocIdSet

/-!
# C24: document-id sets behave like sets
-/

namespace Notmuch.Props
open Notmuch.DocIdSet

/-- The set after a sequence of removals. -/
def removeAll : DocIdSet → List Nat → Option DocIdSet
  | s, [] => some s
  | s, d :: ds => (DocIdSet.remove s d).bind (removeAll · ds)

theorem removeAll_represents : ∀ (ds : List Nat) (s : DocIdSet) (p : Nat → Prop), Represents s p →
    ∃ s', removeAll s ds = some s' ∧ Represents s' (fun x => p x ∧ x ∉ ds)
  | [], s, p, h => ⟨s, rfl, by simpa using h⟩
  | d :: ds, s, p, h => by
    obtain ⟨s1, h1, h2⟩ := remove_represents h d
    obtain ⟨s2, h3, h4⟩ := removeAll_represents ds s1 _ h2
    refine ⟨s2, by rw [removeAll, h1]; exact h3, h4.covers, fun x => ?_⟩
    rw [h4.iff]
    simp only [List.mem_cons, not_or]
    constructor
    · rintro ⟨⟨a, b⟩, c⟩; exact ⟨b, a, c⟩
    · rintro ⟨b, a, c⟩; exact ⟨⟨a, b⟩, c⟩

/-- C24: after making a set from an array of document ids and removing any ids (present or not), membership of any
number is what it should be, and no operation accesses memory outside the bitmap. -/
theorem C24_set_semantics (arr : List Nat) (h : ∀ d ∈ arr, d < 4294967295) (removed : List Nat) (x : Nat) :
    ∃ s s' b, init arr = some s ∧ removeAll s removed = some s' ∧ contains s' x = some b ∧
      (b = true ↔ x ∈ arr ∧ x ∉ removed) := by
  obtain ⟨s, h1, h2⟩ := init_represents arr (fun d hd => by have := h d hd; omega)
  obtain ⟨s', h3, h4⟩ := removeAll_represents removed s _ h2
  obtain ⟨b, h5, h6⟩ := contains_represents h4 x
  exact ⟨s, s', b, h1, h3, h5, h6⟩

/-- The bound on document ids is needed: with the largest 32-bit id in the array the bound overflows and the
set appears empty. -/
theorem C24_largest_id_counterexample (arr : List Nat) (hb : ∀ d ∈ arr, d < 4294967296) (h : 4294967295 ∈ arr) (x : Nat) :
    ∃ s, init arr = some s ∧ contains s x = some false := by
  obtain ⟨h1, h2, h3⟩ := foldl_max_spec arr 0
  have hm : arr.foldl Nat.max 0 = 4294967295 := by
    have := h2 _ h
    rcases h3 with h3 | h3
    · omega
    · have := hb _ h3; omega
  obtain ⟨bm, h4, _, _⟩ := setAll_spec arr (List.replicate (word 4294967295 + 1) 0) (by
    intro d hd
    have := hb d hd
    rw [List.length_replicate]
    unfold word; omega)
  refine ⟨⟨bm, 0⟩, ?_, by simp [contains]⟩
  unfold init
  simp only [hm, h4]

example : ∀ d ∈ [3, 17, 8, 16], d < 4294967295 := by decide
example : ((init [3, 17, 8, 16]).bind (removeAll · [16, 99])).bind (contains · 17) = some true := by decide +kernel
example : ((init [3, 17, 8, 16]).bind (removeAll · [16, 99])).bind (contains · 16) = some false := by decide +kernel

end Notmuch.Props
