import Verif.Proofs.ElAddress

/-! C94: addresses offered for completion in Emacs, and the file they are kept in. -/
namespace Notmuch.Props
open Notmuch.ElAddress

/-- A file that is not one of saved addresses is never overwritten, whatever happens. -/
theorem C94_foreign (s : State) (c : String) (es : List Event) (he : ∀ f, Event.outside f ∉ es) (h : s.file = .foreign c) :
    (steps s es).file = .foreign c := by
  induction es generalizing s with
  | nil => exact h
  | cons e es ih =>
    exact ih (step s e) (fun f hf => he f (List.mem_cons_of_mem _ hf))
      (ElAddress.Proofs.step_foreign s c h e (fun f hf => he f (by simp [hf])))

/-- What is offered: the addresses that match, of those known, or, while no full harvest has ended and none was saved, also of those found just now. -/
theorem C94_offered (m : String → Bool) (s : State) (found : List String) (a : String) :
    a ∈ offered m s found ↔ m a = true ∧
      ((s.finished = true ∧ a ∈ s.comps) ∨
       (s.finished = false ∧ ((∃ l c, s.named = true ∧ s.file = .saved 1 s.settings l c ∧ a ∈ c) ∨
         ((∀ l c, ¬ (s.named = true ∧ s.file = .saved 1 s.settings l c)) ∧ (a ∈ s.comps ∨ a ∈ found))))) := by
  unfold offered
  rw [List.mem_filter, and_comm]
  refine and_congr_right fun _ => ?_
  unfold atLookup ready
  cases hf : s.finished with
  | true => simp
  | false =>
    simp only [Bool.false_eq_true, if_false, false_and, false_or, true_and]
    by_cases hn : ∃ l c, s.named = true ∧ s.file = .saved 1 s.settings l c
    · obtain ⟨l, c, h1, h2⟩ := hn
      have hl : load s = ({ s with last := l, comps := c, finished := true }, true) := by unfold load; rw [h1, h2]; simp
      simp only [hl, if_true]
      constructor
      · intro h; exact Or.inl ⟨l, c, h1, h2, h⟩
      · rintro (⟨l', c', _, h4, h5⟩ | ⟨h3, _⟩)
        · rw [h2] at h4; cases h4; exact h5
        · exact absurd ⟨h1, h2⟩ (h3 l c)
    · have hl : (load s).2 = false := by
        unfold load
        split
        · rename_i v st l c e1 e2
          by_cases hc : st = s.settings ∧ v = 1
          · exfalso
            obtain ⟨rfl, rfl⟩ := hc
            exact hn ⟨l, c, e1, e2⟩
          · rw [if_neg hc]
        · rfl
      simp only [hl, Bool.false_eq_true, if_false, ElAddress.Proofs.load_false hl, ElAddress.Proofs.mem_foldl_addAddr]
      constructor
      · intro h; exact Or.inr ⟨fun l c h' => hn ⟨l, c, h'⟩, h⟩
      · rintro (⟨l, c, h1, h2, _⟩ | ⟨_, h⟩)
        · exact absurd ⟨l, c, h1, h2⟩ hn
        · exact h

/-- What is known when a full harvest has ended is kept: from then on all these addresses are offered where they match, with no other harvest needed, whatever
happens, also when Emacs was started anew any number of times, as long as the settings stay and no one else changes the file. -/
theorem C94_kept (m : String → Bool) (s : State) (hn : s.named = true) (hf : ∀ c, s.file ≠ .foreign c) (hr : s.running = true) (es : List Event)
    (he : ∀ f, Event.outside f ∉ es) (hc : ∀ n, Event.customise n ∉ es) (found : List String) (a : String) (ha : a ∈ s.comps) (hm : m a = true) :
    a ∈ offered m (steps (step s .done) es) found ∧ offered m (steps (step s .done) es) found = offered m (steps (step s .done) es) [] := by
  have hI : ∀ (es : List Event) (s' : State), ElAddress.Proofs.Inv s.comps s' → (∀ f, Event.outside f ∉ es) → (∀ n, Event.customise n ∉ es) →
      ElAddress.Proofs.Inv s.comps (steps s' es) := by
    intro es
    induction es with
    | nil => intro s' h _ _; exact h
    | cons e es ih =>
      intro s' h h1 h2
      exact ih (step s' e) (ElAddress.Proofs.step_inv h e (fun f hf => h1 f (by simp [hf])) (fun n hn => h2 n (by simp [hn])))
        (fun f hf => h1 f (List.mem_cons_of_mem _ hf)) (fun n hn => h2 n (List.mem_cons_of_mem _ hn))
  have h := hI es _ (ElAddress.Proofs.done_inv hn hf hr) he hc
  obtain ⟨_, _, h3, h4, h5⟩ := ElAddress.Proofs.atLookup_inv h found
  obtain ⟨_, _, _, h6, h7⟩ := ElAddress.Proofs.atLookup_inv h []
  refine ⟨List.mem_filter.2 ⟨h3 a ha, hm⟩, ?_⟩
  unfold offered
  cases hfin : (steps (step s .done) es).finished with
  | true => rw [h4 hfin, h6 hfin]
  | false =>
    obtain ⟨l, c, e1, e2⟩ := h5 hfin
    obtain ⟨l', c', e3, e4⟩ := h7 hfin
    rw [e1] at e3
    cases e3
    rw [e2, e4]

/-- No more than one harvest a day: from the start of one to that of the next more than 86400 seconds pass, unless one fails, the settings change, Emacs is
started anew or someone else changes the file. -/
theorem C94_daily (s : State) (t t' : Nat) (found found' : List String) (es : List Event) (h : starts s t found = true)
    (hes : ∀ e, e ∈ es → (∃ now f, e = .tab now f) ∨ (∃ a, e = .out a) ∨ e = .done)
    (hno : ∀ pre post now f, es = pre ++ .tab now f :: post → starts (steps (step s (.tab t found)) pre) now f = false)
    (h' : starts (steps (step s (.tab t found)) es) t' found' = true) : t + 86400 < t' := by
  have hI : ∀ (es : List Event) (s' : State), ElAddress.Proofs.Since t s' →
      (∀ e, e ∈ es → (∃ now f, e = .tab now f) ∨ (∃ a, e = .out a) ∨ e = .done) →
      (∀ pre post now f, es = pre ++ .tab now f :: post → starts (steps s' pre) now f = false) → ElAddress.Proofs.Since t (steps s' es) := by
    intro es
    induction es with
    | nil => intro s' h _ _; exact h
    | cons e es ih =>
      intro s' h h1 h2
      have h3 := h1 e (by simp)
      refine ih (step s' e) (ElAddress.Proofs.step_since h e ?_ ?_ ?_ ?_ ?_) (fun e he => h1 e (List.mem_cons_of_mem _ he)) ?_
      · rintro f rfl; rcases h3 with ⟨_, _, h⟩ | ⟨_, h⟩ | h <;> cases h
      · rintro f rfl; rcases h3 with ⟨_, _, h⟩ | ⟨_, h⟩ | h <;> cases h
      · rintro rfl; rcases h3 with ⟨_, _, h⟩ | ⟨_, h⟩ | h <;> cases h
      · rintro f rfl; rcases h3 with ⟨_, _, h⟩ | ⟨_, h⟩ | h <;> cases h
      · rintro now f rfl; exact h2 [] es now f rfl
      · rintro pre post now f rfl; exact h2 (e :: pre) post now f rfl
  have hS := ElAddress.Proofs.atLookup_since (hI es _ (ElAddress.Proofs.tab_since s t found h) hes hno) found'
  unfold starts at h'
  rw [hS.1] at h'
  have := of_decide_eq_true h'
  omega

/-- After a harvest that failed the next completion starts one, once the first day of the epoch is over. -/
theorem C94_retry (s : State) (still : Bool) (outs : List String) (now : Nat) (found : List String) (hf : s.finished = true) (hn : 86400 < now) :
    starts (steps (step s (.failed still)) (outs.map .out)) now found = true := by
  have hI : ∀ (outs : List String) (s' : State), s'.finished = true → s'.last = 0 → (steps s' (outs.map .out)).finished = true ∧ (steps s' (outs.map .out)).last = 0 := by
    intro outs
    induction outs with
    | nil => intro s' h1 h2; exact ⟨h1, h2⟩
    | cons a outs ih =>
      intro s' h1 h2
      refine ih (step s' (.out a)) ?_ ?_
      · simp only [step]; split <;> simp [h1]
      · simp only [step]; split <;> simp [h2]
  obtain ⟨h1, h2⟩ := hI outs (step s (.failed still)) hf rfl
  unfold starts atLookup ready
  rw [h1]
  simp only [if_true, h2]
  exact decide_eq_true (by omega)

def c94Start : State := ⟨true, .absent, 0, [], 0, false, false⟩

/-- Settings changed while a harvest runs: what it finds by the old settings is saved under the new ones, and offered from then on. -/
theorem C94_settings_counterexample :
    (steps c94Start [.tab 100000 [], .customise 1, .out "old@x", .done]).file = .saved 1 1 0 ["old@x"] ∧
    offered (fun _ => true) (steps c94Start [.tab 100000 [], .customise 1, .out "old@x", .done, .restart]) [] = ["old@x"] := by decide +kernel

theorem C94_example :
    offered (fun a => a.length == 1) c94Start ["a", "bb"] = ["a"] ∧
    starts c94Start 100000 ["a"] = true ∧
    (step c94Start (.tab 100000 ["a"])).running = true ∧
    (steps c94Start [.tab 100000 ["a"], .out "b", .out "b", .done]).file = .saved 1 0 100000 ["a", "b"] ∧
    starts (steps c94Start [.tab 100000 ["a"], .out "b", .done]) 150000 [] = false ∧
    starts (steps c94Start [.tab 100000 ["a"], .out "b", .done]) 190000 [] = true ∧
    offered (fun _ => true) (steps c94Start [.tab 100000 ["a"], .out "b", .done, .restart]) ["c"] = ["a", "b"] ∧
    offered (fun _ => true) (steps c94Start [.tab 100000 ["a"], .out "b", .done, .customise 1]) ["c"] = ["c"] ∧
    starts (steps c94Start [.tab 100000 ["a"], .failed false]) 100001 [] = true ∧
    (steps { c94Start with file := .foreign "mbox" } [.tab 100000 ["a"], .out "b", .done]).file = .foreign "mbox" ∧
    (steps { c94Start with file := .saved 0 0 5 [] } [.tab 100000 ["a"], .out "b", .done]).file = .saved 1 0 100000 ["a", "b"] := by
  refine ⟨?_, ?_, ?_, ?_, ?_, ?_, ?_, ?_, ?_, ?_, ?_⟩ <;> decide +kernel

end Notmuch.Props
