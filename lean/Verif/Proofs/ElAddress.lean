import Verif.Model.ElAddress

namespace Notmuch.ElAddress.Proofs
open Notmuch.ElAddress

theorem mem_addAddr (c : List String) (a x : String) : x ∈ addAddr c a ↔ x ∈ c ∨ x = a := by
  unfold addAddr
  split
  · rename_i h
    constructor
    · exact Or.inl
    · rintro (h' | rfl)
      · exact h'
      · exact h
  · simp

theorem mem_foldl_addAddr (x : String) : ∀ (as c : List String), x ∈ as.foldl addAddr c ↔ x ∈ c ∨ x ∈ as := by
  intro as
  induction as with
  | nil => simp
  | cons a as ih => intro c; rw [List.foldl_cons, ih, mem_addAddr]; simp [or_assoc]

theorem load_file (s : State) : (load s).1.file = s.file := by
  unfold load; split
  · split <;> rfl
  · rfl

theorem load_false {s : State} (h : (load s).2 = false) : (load s).1 = s := by
  unfold load at *
  split
  · rename_i v st l c h1 h2
    rw [h1, h2] at h
    by_cases hc : st = s.settings ∧ v = 1
    · simp [hc] at h
    · rw [if_neg hc]
  · rfl

theorem atLookup_file (s : State) (found : List String) : (atLookup s found).file = s.file := by
  unfold atLookup ready
  by_cases h : s.finished = true
  · simp [h]
  · simp only [h, Bool.false_eq_true, if_false]
    split <;> simp [load_file]

theorem save_foreign (s : State) (c : String) (h : s.file = .foreign c) : (save s).file = .foreign c := by
  unfold save; rw [h]; split <;> simp [h]

theorem step_foreign (s : State) (c : String) (h : s.file = .foreign c) (e : Event) (he : ∀ f, e ≠ .outside f) : (step s e).file = .foreign c := by
  cases e with
  | tab now found => simp only [step]; split <;> simp [atLookup_file, h]
  | out a => simp only [step]; split <;> simp [h]
  | done =>
    simp only [step]
    split
    · exact save_foreign s c h
    · exact h
  | failed b => exact h
  | customise st => exact h
  | restart => exact h
  | outside f => exact absurd rfl (he f)

/-- What is known since a harvest ended. -/
def Inv (K : List String) (s : State) : Prop :=
  s.named = true ∧ (∃ l c, s.file = .saved 1 s.settings l c ∧ ∀ a, a ∈ K → a ∈ c) ∧
    ((s.finished = true ∧ ∀ a, a ∈ K → a ∈ s.comps) ∨ (s.finished = false ∧ s.running = false))

theorem atLookup_inv {K : List String} {s : State} (h : Inv K s) (found : List String) :
    Inv K (atLookup s found) ∧ (atLookup s found).finished = true ∧ (∀ a, a ∈ K → a ∈ (atLookup s found).comps) ∧
    (s.finished = true → atLookup s found = s) ∧ (s.finished = false → ∃ l c, s.file = .saved 1 s.settings l c ∧ (atLookup s found).comps = c) := by
  obtain ⟨h1, ⟨l, c, h2, h3⟩, h4⟩ := h
  unfold atLookup ready
  rcases h4 with ⟨h4, h5⟩ | ⟨h4, h5⟩
  · simp only [h4, if_true]
    exact ⟨⟨h1, ⟨l, c, h2, h3⟩, Or.inl ⟨h4, h5⟩⟩, trivial, h5, by simp, by simp⟩
  · have hl : load s = ({ s with last := l, comps := c, finished := true }, true) := by
      unfold load; rw [h1, h2]; simp
    simp only [h4, Bool.false_eq_true, if_false, hl, if_true]
    exact ⟨⟨h1, ⟨l, c, h2, h3⟩, Or.inl ⟨rfl, h3⟩⟩, trivial, h3, by simp, fun _ => ⟨l, c, h2, rfl⟩⟩

theorem step_inv {K : List String} {s : State} (h : Inv K s) (e : Event) (he : ∀ f, e ≠ .outside f) (hc : ∀ n, e ≠ .customise n) : Inv K (step s e) := by
  cases e with
  | tab now found =>
    obtain ⟨⟨a1, a2, a3⟩, b, c, _⟩ := atLookup_inv h found
    simp only [step]
    split
    · exact ⟨a1, a2, Or.inl ⟨b, c⟩⟩
    · exact ⟨a1, a2, a3⟩
  | out a =>
    simp only [step]
    split
    · rename_i hr
      obtain ⟨h1, h2, h3⟩ := h
      rcases h3 with ⟨h3, h4⟩ | ⟨_, h4⟩
      · exact ⟨h1, h2, Or.inl ⟨h3, fun x hx => (mem_addAddr _ _ _).2 (Or.inl (h4 x hx))⟩⟩
      · rw [hr] at h4; cases h4
    · exact h
  | done =>
    simp only [step]
    split
    · rename_i hr
      obtain ⟨h1, ⟨l, c, h2, _⟩, h3⟩ := h
      rcases h3 with ⟨h3, h4⟩ | ⟨_, h4⟩
      · have hs : save s = { s with file := .saved 1 s.settings s.last s.comps } := by unfold save; rw [h1, h2]; simp
        rw [hs]
        exact ⟨h1, ⟨_, _, rfl, h4⟩, Or.inl ⟨rfl, h4⟩⟩
      · rw [hr] at h4; cases h4
    · exact h
  | failed b =>
    obtain ⟨h1, h2, h3⟩ := h
    refine ⟨h1, h2, ?_⟩
    rcases h3 with h3 | ⟨h3, h4⟩
    · exact Or.inl h3
    · exact Or.inr ⟨h3, by show (s.running && b) = false; rw [h4]; rfl⟩
  | customise n => exact absurd rfl (hc n)
  | restart =>
    obtain ⟨h1, h2, _⟩ := h
    exact ⟨h1, h2, Or.inr ⟨rfl, rfl⟩⟩
  | outside f => exact absurd rfl (he f)

theorem done_inv {s : State} (hn : s.named = true) (hf : ∀ c, s.file ≠ .foreign c) (hr : s.running = true) : Inv s.comps (step s .done) := by
  have hs : save s = { s with file := .saved 1 s.settings s.last s.comps } := by
    unfold save
    rw [if_pos hn]
    split
    · rename_i c hc; exact absurd hc (hf c)
    · rfl
  simp only [step, hr, if_true, hs]
  exact ⟨hn, ⟨_, _, rfl, fun a h => h⟩, Or.inl ⟨rfl, fun a h => h⟩⟩

/-- Since a harvest was started at `t`: nothing changed the time. -/
def Since (t : Nat) (s : State) : Prop := s.last = t ∧ (s.finished = false → (load s).2 = false)

theorem atLookup_since {t : Nat} {s : State} (h : Since t s) (found : List String) : Since t (atLookup s found) := by
  obtain ⟨h1, h2⟩ := h
  unfold atLookup ready
  by_cases hf : s.finished = true
  · simp only [hf, if_true]; exact ⟨h1, h2⟩
  · have hf' : s.finished = false := by simpa using hf
    have h3 := h2 hf'
    simp only [hf', Bool.false_eq_true, if_false, h3, load_false h3]
    refine ⟨h1, fun _ => ?_⟩
    unfold load at h3 ⊢
    dsimp only
    split
    · rename_i v st l c e1 e2
      rw [e1, e2] at h3
      by_cases hc : st = s.settings ∧ v = 1
      · simp [hc] at h3
      · simp [hc]
    · rfl

theorem step_since {t : Nat} {s : State} (h : Since t s) (e : Event) (he : ∀ f, e ≠ .outside f) (hc : ∀ n, e ≠ .customise n) (hr : e ≠ .restart)
    (hfl : ∀ b, e ≠ .failed b) (hs : ∀ now found, e = .tab now found → starts s now found = false) : Since t (step s e) := by
  cases e with
  | tab now found =>
    simp only [step, hs now found rfl, Bool.false_eq_true, if_false]
    exact atLookup_since h found
  | out a =>
    simp only [step]
    split
    · obtain ⟨h1, h2⟩ := h
      refine ⟨h1, fun hf => ?_⟩
      have h3 := h2 hf
      unfold load at h3 ⊢
      dsimp only
      split
      · rename_i v st l c e1 e2
        rw [e1, e2] at h3
        by_cases hc : st = s.settings ∧ v = 1
        · simp [hc] at h3
        · simp [hc]
      · rfl
    · exact h
  | done =>
    simp only [step]
    split
    · obtain ⟨h1, _⟩ := h
      refine ⟨?_, by simp⟩
      unfold save
      split
      · split <;> exact h1
      · exact h1
    · exact h
  | failed b => exact absurd rfl (hfl b)
  | customise n => exact absurd rfl (hc n)
  | restart => exact absurd rfl hr
  | outside f => exact absurd rfl (he f)

theorem tab_since (s : State) (now : Nat) (found : List String) (h : starts s now found = true) : Since now (step s (.tab now found)) := by
  simp only [step, h, if_true]
  refine ⟨rfl, ?_⟩
  dsimp only
  intro hf
  unfold atLookup ready at hf ⊢
  by_cases hff : s.finished = true
  · simp [hff] at hf
  · have hff' : s.finished = false := by simpa using hff
    simp only [hff', Bool.false_eq_true, if_false] at hf ⊢
    cases hl : (load s).2 with
    | true =>
      exfalso
      unfold load at hf hl
      split at hl
      · rename_i v st l c e1 e2
        rw [e1, e2] at hf
        by_cases hc : st = s.settings ∧ v = 1
        · simp [hc] at hf
        · simp [hc] at hl
      · cases hl
    | false =>
      simp only [Bool.false_eq_true, if_false, load_false hl]
      unfold load at hl ⊢
      dsimp only
      split
      · rename_i v st l c e1 e2
        rw [e1, e2] at hl
        by_cases hc : st = s.settings ∧ v = 1
        · simp [hc] at hl
        · simp [hc]
      · rfl

end Notmuch.ElAddress.Proofs
