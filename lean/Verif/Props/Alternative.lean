import Verif.Proofs.Alternative

namespace Notmuch.Props
open Notmuch.Alternative Notmuch.AlternativeSpec Notmuch.AlternativeProofs

section
variable {τ : Type} [DecidableEq τ]

/-- C88: of the alternatives of a message at least one is shown; those that are shown have the same type, every part of this type is shown, and no part that is
there is less discouraged. -/
theorem C88_shown (discouraged : List (τ → Bool)) (types : List τ) (hne : types ≠ []) :
    ∃ t ∈ types, shown false discouraged types = types.map (fun x => decide (x = t)) ∧ ∀ x ∈ types, cost discouraged t ≤ cost discouraged x := by
  have hc : choose discouraged types ≠ [] := by
    obtain ⟨x, l, e⟩ := List.exists_cons_of_ne_nil hne
    intro h
    have := (mem_choose discouraged types x).2 (by rw [e]; exact List.mem_cons_self ..)
    rw [h] at this
    cases this
  obtain ⟨t, l, e⟩ := List.exists_cons_of_ne_nil hc
  refine ⟨t, (mem_choose discouraged types t).1 (by rw [e]; exact List.mem_cons_self ..), ?_, ?_⟩
  · unfold shown
    rw [e]
    refine List.map_congr_left ?_
    intro x _
    simp [eq_comm]
  · intro x hx
    have hs := choose_sorted discouraged types
    rw [e, List.pairwise_cons] at hs
    have := (mem_choose discouraged types x).2 hx
    rw [e] at this
    rcases List.mem_cons.1 this with rfl | h
    · exact Nat.le_refl _
    · exact hs.1 x h

/-- C88: if all alternatives are to be shown, they are. -/
theorem C88_all (discouraged : List (τ → Bool)) (types : List τ) : ∀ b ∈ shown true discouraged types, b = true := by
  intro b hb
  unfold shown at hb
  obtain ⟨x, _, rfl⟩ := List.mem_map.1 hb
  rfl

/-- C88: the type that is shown is the first in the message among those that are discouraged the least, if some alternative is not discouraged at all or each
type is there once. -/
theorem C88_first (discouraged : List (τ → Bool)) (types : List τ) (hne : types ≠ [])
    (h : types.Nodup ∨ ∃ x ∈ types, ∀ p ∈ discouraged, p x = false) :
    ∃ a t b, types = a ++ t :: b ∧ shown false discouraged types = types.map (fun x => decide (x = t)) ∧ (∀ x ∈ a, cost discouraged t < cost discouraged x) ∧
      ∀ x ∈ b, cost discouraged t ≤ cost discouraged x := by
  have z : ∀ (ps : List (τ → Bool)) (x : τ), (∀ p ∈ ps, p x = false) → cost ps x = 0 := by
    intro ps x
    induction ps with
    | nil => intro _; rfl
    | cons p ps ih =>
      intro h
      unfold cost
      rw [h p (List.mem_cons_self ..), ih (fun p hp => h p (List.mem_cons_of_mem _ hp))]
      rfl
  have hc : choose discouraged types ≠ [] := by
    obtain ⟨x, l, e⟩ := List.exists_cons_of_ne_nil hne
    intro h
    have := (mem_choose discouraged types x).2 (by rw [e]; exact List.mem_cons_self ..)
    rw [h] at this
    cases this
  obtain ⟨t, l, e⟩ := List.exists_cons_of_ne_nil hc
  have least : ∀ x ∈ types, cost discouraged t ≤ cost discouraged x := by
    intro x hx
    have hs := choose_sorted discouraged types
    rw [e, List.pairwise_cons] at hs
    have := (mem_choose discouraged types x).2 hx
    rw [e] at this
    rcases List.mem_cons.1 this with rfl | h
    · exact Nat.le_refl _
    · exact hs.1 x h
  have st := choose_stable discouraged types (cost discouraged t) (by
    rcases h with h | ⟨x, hx, h⟩
    · exact Or.inr h
    · left
      have := least x hx
      rw [z discouraged x h] at this
      omega)
  rw [e, List.filter_cons_of_pos (by simp)] at st
  obtain ⟨a, b, e1, e2, e3, _⟩ := List.filter_eq_cons_iff.1 st.symm
  refine ⟨a, t, b, e1, ?_, ?_, ?_⟩
  · unfold shown
    rw [e]
    refine List.map_congr_left ?_
    intro x _
    simp [eq_comm]
  · intro x hx
    have h1 := least x (by rw [e1]; exact List.mem_append_left _ hx)
    have h2 := e2 x hx
    rw [beq_iff_eq] at h2
    omega
  · intro x hx
    exact least x (by rw [e1]; exact List.mem_append_right _ (List.mem_cons_of_mem _ hx))

end

/-- C88: of discouraged types one of which is there twice, the one that is shown need not be the first. -/
theorem C88_twice_counterexample : shown false [fun _ => true] ["a", "b", "a"] = [false, true, false] := by decide +kernel

/-- C88: the usual cases. -/
theorem C88_example :
    (let prefs : List (String → Bool) := [(· == "text/html"), (· == "multipart/related")]
     shown false prefs ["text/html", "text/plain", "multipart/related", "text/calendar", "text/plain"] = [false, true, false, false, true] ∧
     shown false prefs ["text/html", "multipart/related"] = [false, true] ∧ shown false prefs ["text/html"] = [true] ∧
     cost prefs "text/html" = 2 ∧ cost prefs "multipart/related" = 1 ∧ cost prefs "text/plain" = 0) := by decide +kernel

end Notmuch.Props
