import Verif.Proofs.Handles4

/-! # Handles: a handle that is used only to read -/

namespace Notmuch.Handles

/-- It is there. -/
def Live (c : Content) (w : World) (p : Nat) : Prop := ∃ h, w.handles p = some h ∧ h.xdb = .reader c ∧ h.waits = none ∧ h.writable = false

theorem live_does {c : Content} {w w' : World} {p q : Nat} {cl : Call} {f : Bool} {o : Out} (hs : Live c w p)
    (hq : q = p → (∀ m, cl ≠ .open_ m) ∧ (∀ m, cl ≠ .reopen m) ∧ cl ≠ .close ∧ cl ≠ .destroy ∧ cl ≠ .die) (hd : Does w q cl f w' o) : Live c w' p := by
  obtain ⟨h0, hh0, hx0, hw0, hr0⟩ := hs
  by_cases e : q = p
  · subst e
    obtain ⟨q1, q2, q3, q4, q5⟩ := hq rfl
    have same : ∀ {h}, w.handles q = some h → h = h0 := fun hh => by rw [hh0] at hh; injection hh with hh; exact hh.symm
    have upd : ∀ {h h' : Handle}, w.handles q = some h → h'.xdb = h.xdb → h'.waits = h.waits → h'.writable = h.writable → Live c (w.set q (some h')) q := by
      intro h h' hh h1 h2 h3
      have := same hh
      subst this
      exact ⟨h', by rw [set_handles, if_pos rfl], by rw [h1, hx0], by rw [h2, hw0], by rw [h3, hr0]⟩
    have nwr : ∀ {h : Handle}, w.handles q = some h → ensureWritable h ≠ .success := by
      intro h hh
      rw [same hh]
      unfold ensureWritable
      rw [hr0]
      simp
    cases hd with
    | opens => exact absurd rfl (q1 _)
    | resumes hh hm => rw [same hh, hw0] at hm; cases hm
    | resumeFails hh hm => rw [same hh, hw0] at hm; cases hm
    | dies => exact absurd rfl q5
    | closeNull => exact absurd rfl q3
    | closes => exact absurd rfl q3
    | closedAlready => exact absurd rfl q3
    | destroys => exact absurd rfl q4
    | refreshes => exact absurd rfl (q2 _)
    | reopenFails => exact absurd rfl (q2 _)
    | reopens => exact absurd rfl (q2 _)
    | beginNested hh hw h1 => exact upd hh rfl rfl rfl
    | begins hh hw h1 h2 hx => rw [same hh, hx0] at hx; cases hx
    | endNested hh hw h1 h2 => exact upd hh rfl rfl rfl
    | endLate hh hw h1 h2 hx => rw [same hh, hx0] at hx; cases hx
    | ends hh hw h1 h2 hx => rw [same hh, hx0] at hx; cases hx
    | writeDies hh hw _ h1 => exact absurd h1 (nwr hh)
    | puts hh hw h1 hx => exact absurd h1 (nwr hh)
    | removes hh hw h1 hx => exact absurd h1 (nwr hh)
    | sets hh hw h1 hx => exact absurd h1 (nwr hh)
    | findNull hh hw hx => rw [same hh, hx0] at hx; cases hx
    | flushes hh hw hx => rw [same hh, hx0] at hx; cases hx
    | _ => exact ⟨h0, hh0, hx0, hw0, hr0⟩
  · exact ⟨h0, by rw [others_does hd (fun h => e h.symm)]; exact hh0, hx0, hw0, hr0⟩

theorem live_run {c : Content} {p : Nat} : ∀ (es : List Event) {w : World}, Uses p es → Live c w p → Live c (run w es) p
  | [], _, _, h => h
  | e :: es, w, hk, h =>
    live_run es (fun e' he' => hk e' (List.mem_cons_of_mem _ he')) (live_does h (hk e List.mem_cons_self) (step_does w e.who e.call e.fault))

theorem run_append : ∀ (es es' : List Event) (w : World), run w (es ++ es') = run (run w es) es'
  | [], _, _ => rfl
  | e :: es, es', w => by rw [List.cons_append, run, run, run_append es es']

/-- What opening does. -/
theorem open_success {w : World} {p : Nat} {m : Mode} {f : Bool} (h : (step w p (.open_ m) f).2 = .status .success) :
    (step w p (.open_ m) f).1 =
      { w.set p (some ⟨m == .readWrite, true, newXdb m w.disk, 0, false, w.disk.bound, 1, w.disk.conf, none⟩) with lock := if m = .readWrite then some p else w.lock } := by
  have hd := step_does w p (.open_ m) f
  generalize step w p (.open_ m) f = r at hd h
  obtain ⟨w', o⟩ := r
  simp only at hd h ⊢
  cases hd with
  | opens => rfl
  | wait => cases h
  | openFails => cases h
  | refused _ _ hc => cases hc
  | writeDies _ _ hc => cases hc

end Notmuch.Handles
