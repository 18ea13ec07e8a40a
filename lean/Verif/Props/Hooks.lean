import Verif.Spec.Hooks

/-! # C60: hooks -/

namespace Notmuch.Props

open Notmuch.Hooks

variable {σ : Type}

/-- **C60 (hooks).**  A hook that does not exist, or that was run and whose exit status is 0, is fine; any other (it may not be run, cannot be run, has another
exit status, or was killed) is an error.  What is after it is what the hook did, if it was run. -/
theorem C60_hook (H : HookSys σ) (hook : Str) (s : σ) :
    ((runHook H hook s).2 = 0 ↔ Fine H hook s) ∧ ((runHook H hook s).2 ≠ 0 → (runHook H hook s).2 = 1) ∧ (runHook H hook s).1 = afterHook H hook s := by
  classical
  unfold runHook Fine NoHook afterHook Runs
  cases h1 : H.setenv
  · simp
  · cases h2 : H.access hook s
    · cases h3 : H.fork
      · simp
      · unfold child
        cases h4 : H.exec hook s
        · cases h5 : H.run hook s with
          | mk s' w =>
            cases w with
            | exited c => cases c <;> simp
            | signalled => simp
            | unknown => simp
        · simp
        · simp
    · simp
    · simp

theorem newRest_eq (N : NewSys σ) (b : Bool) (evs : List Event) (s : σ) :
    newRest N b evs s =
      if (N.before s).2 = true then
        (if b = true ∧ (N.scan (N.before s).1).2.ok = true ∧ (N.scan (N.before s).1).2.interrupted = false then
          (evs ++ [.scan .readWrite, .hook (bs "post-new") .closed], (runHook N.hooks (bs "post-new") (N.close (N.scan (N.before s).1).1).1).1,
            if (runHook N.hooks (bs "post-new") (N.close (N.scan (N.before s).1).1).1).2 ≠ 0 then 1 else if (N.scan (N.before s).1).2.vanished then 75 else 0)
        else (evs ++ [.scan .readWrite], (N.close (N.scan (N.before s).1).1).1,
          if (N.scan (N.before s).1).2.ok = false ∨ (N.scan (N.before s).1).2.interrupted = true then 1 else if (N.scan (N.before s).1).2.vanished then 75 else 0))
      else (evs, (N.before s).1, 1) := by
  obtain ⟨hooks, config, reopen, before, scan, close⟩ := N
  unfold newRest
  cases hb : before s with
  | mk s1 ok =>
    cases ok with
    | false => simp [hb]
    | true =>
      cases hs : scan s1 with
      | mk s2 r =>
        obtain ⟨ok, int, van⟩ := r
        by_cases h : (runHook hooks (bs "post-new") (close s2).fst).snd = 0 <;>
          cases b <;> cases ok <;> cases int <;> cases van <;> simp [h, hb, hs]

/-- Without errors before the scan. -/
theorem new_ready (N : NewSys σ) (b : Bool) (s : σ) (h : Ready N b s) :
    newCommand N b s = newRest N b (pre b) (if b then afterHook N.hooks (bs "pre-new") s else s) := by
  obtain ⟨h1, h2⟩ := h
  unfold newCommand
  cases b with
  | false => simp [h1, pre]
  | true =>
    obtain ⟨h3, h4, h5⟩ := h2 rfl
    have hk := C60_hook N.hooks (bs "pre-new") s
    have : (runHook N.hooks (bs "pre-new") s).2 = 0 := hk.1.2 h4
    cases hr : runHook N.hooks (bs "pre-new") s with
    | mk s' r =>
      rw [hr] at this hk
      simp only at this
      have e : s' = afterHook N.hooks (bs "pre-new") s := hk.2.2
      subst e
      subst this
      simp [h1, h3, h5, pre]

/-- With errors before it. -/
theorem new_not_ready (N : NewSys σ) (b : Bool) (s : σ) (h : ¬Ready N b s) :
    (newCommand N b s).2.2 = 1 ∧ ((newCommand N b s).1 = [] ∧ (newCommand N b s).2.1 = s ∨
      b = true ∧ (newCommand N b s).1 = [.hook (bs "pre-new") .readOnly] ∧ (newCommand N b s).2.1 = afterHook N.hooks (bs "pre-new") s) := by
  unfold newCommand
  cases h1 : N.config with
  | false => exact ⟨rfl, Or.inl ⟨rfl, rfl⟩⟩
  | true =>
    cases b with
    | false => exact absurd ⟨h1, by simp⟩ h
    | true =>
      cases h2 : N.reopen false s with
      | false => exact ⟨rfl, Or.inl ⟨rfl, rfl⟩⟩
      | true =>
        have hk := C60_hook N.hooks (bs "pre-new") s
        cases hr : runHook N.hooks (bs "pre-new") s with
        | mk s' r =>
          rw [hr] at hk
          have e : s' = afterHook N.hooks (bs "pre-new") s := hk.2.2
          simp only [Bool.not_true, Bool.false_eq_true, if_false, if_true]
          split
          · exact ⟨rfl, Or.inr ⟨trivial, rfl, e⟩⟩
          · rename_i hr0
            have hr0 : r = 0 := by simpa using hr0
            subst hr0
            cases h3 : N.reopen true s' with
            | false => exact ⟨rfl, Or.inr ⟨trivial, rfl, e⟩⟩
            | true =>
              refine absurd ⟨h1, fun _ => ⟨h2, hk.1.1 rfl, ?_⟩⟩ h
              rw [← e]
              exact h3

/-- **C60 (pre-new).**  If the hook `pre-new` fails, the mail is not scanned, `post-new` is not called, and the status is 1. -/
theorem C60_pre_new (N : NewSys σ) (s : σ) (h : ¬Fine N.hooks (bs "pre-new") s) :
    (newCommand N true s).2.2 = 1 ∧ ∀ e ∈ (newCommand N true s).1, e = .hook (bs "pre-new") .readOnly := by
  obtain ⟨h1, h2⟩ := new_not_ready N true s (fun hr => h (hr.2 rfl).2.1)
  refine ⟨h1, ?_⟩
  rcases h2 with ⟨h2, _⟩ | ⟨_, h2, _⟩ <;> rw [h2] <;> simp

/-- **C60 (locks).**  While a hook is running, `notmuch new` does not hold the database open for writing, so that the hook can use notmuch; while it scans, it
does. -/
theorem C60_locks (N : NewSys σ) (b : Bool) (s : σ) (e : Event) (he : e ∈ (newCommand N b s).1) :
    (∀ name held, e = .hook name held → held ≠ .readWrite ∧ b = true) ∧ (∀ held, e = .scan held → held = .readWrite) := by
  by_cases h : Ready N b s
  · rw [new_ready N b s h, newRest_eq] at he
    have hp : ∀ e ∈ pre b, (∀ name held, e = .hook name held → held ≠ .readWrite ∧ b = true) ∧ (∀ held, e = .scan held → held = .readWrite) := by
      cases b <;> simp [pre]
    generalize (if b = true then afterHook N.hooks (bs "pre-new") s else s) = s0 at he
    split at he
    · split at he
      · rename_i hc
        rcases List.mem_append.1 he with he | he
        · exact hp e he
        · simp only [List.mem_cons, List.not_mem_nil, or_false] at he
          rcases he with rfl | rfl
          · simp
          · simp [hc.1]
      · rcases List.mem_append.1 he with he | he
        · exact hp e he
        · simp only [List.mem_cons, List.not_mem_nil, or_false] at he
          subst he
          simp
    · exact hp e he
  · obtain ⟨_, ⟨h2, _⟩ | ⟨hb, h2, _⟩⟩ := new_not_ready N b s h <;> rw [h2] at he
    · cases he
    · simp only [List.mem_cons, List.not_mem_nil, or_false] at he
      subst he
      simp [hb]

/-- **C60 (order).**  If all is fine before the scan: `pre-new`, the scan of what the hook left, and if that was without error and not interrupted
`post-new`, which is called when the database is closed. -/
theorem C60_order (N : NewSys σ) (b : Bool) (s : σ) (h : Prepared N b s) :
    let r := N.scan (found N b s)
    (b = true ∧ r.2.ok = true ∧ r.2.interrupted = false → (newCommand N b s).1 = pre b ++ [.scan .readWrite, .hook (bs "post-new") .closed] ∧
      (newCommand N b s).2.1 = afterHook N.hooks (bs "post-new") (N.close r.1).1) ∧
    (¬(b = true ∧ r.2.ok = true ∧ r.2.interrupted = false) → (newCommand N b s).1 = pre b ++ [.scan .readWrite] ∧ (newCommand N b s).2.1 = (N.close r.1).1) := by
  simp only
  rw [new_ready N b s h.1, newRest_eq, if_pos h.2]
  unfold found
  refine ⟨?_, ?_⟩
  · intro hc
    rw [if_pos hc]
    exact ⟨rfl, (C60_hook _ _ _).2.2⟩
  · intro hc
    rw [if_neg hc]
    exact ⟨rfl, rfl⟩

/-- **C60 (status).**  The status is 0 or 75 just if everything was fine: what is before the scan, the scan, and the hook `post-new` after it; and 75 if files
vanished while they were read.  Else it is 1. -/
theorem C60_status (N : NewSys σ) (b : Bool) (s : σ) :
    let r := N.scan (found N b s)
    let good := Prepared N b s ∧ r.2.ok = true ∧ r.2.interrupted = false ∧ (b = true → Fine N.hooks (bs "post-new") (N.close r.1).1)
    (good → (newCommand N b s).2.2 = if r.2.vanished then 75 else 0) ∧ (¬good → (newCommand N b s).2.2 = 1) := by
  simp only
  refine ⟨?_, ?_⟩
  · rintro ⟨h1, h2, h3, h4⟩
    rw [new_ready N b s h1.1, newRest_eq, if_pos h1.2]
    unfold found at *
    cases b with
    | true =>
      rw [if_pos ⟨rfl, h2, h3⟩]
      simp only
      rw [if_neg (by simpa using (C60_hook _ _ _).1.2 (h4 rfl))]
    | false =>
      rw [if_neg (by simp)]
      simp only
      rw [if_neg (by rw [h2, h3]; simp)]
  · intro h
    by_cases hp : Prepared N b s
    · rw [new_ready N b s hp.1, newRest_eq, if_pos hp.2]
      unfold found at *
      revert h
      generalize (if b = true then afterHook N.hooks (bs "pre-new") s else s) = s0
      generalize N.scan (N.before s0).1 = r
      intro h
      by_cases hc : b = true ∧ r.2.ok = true ∧ r.2.interrupted = false
      · rw [if_pos hc]
        dsimp only
        rw [if_pos]
        intro h0
        exact h ⟨hp, hc.2.1, hc.2.2, fun _ => (C60_hook _ _ _).1.1 h0⟩
      · rw [if_neg hc]
        dsimp only
        rw [if_pos]
        cases h2 : r.2.ok with
        | false => left; rfl
        | true =>
          cases h3 : r.2.interrupted with
          | true => right; rfl
          | false =>
            cases b with
            | true => exact absurd ⟨rfl, h2, h3⟩ hc
            | false => exact absurd ⟨hp, h2, h3, by simp⟩ h
    · by_cases hr : Ready N b s
      · rw [new_ready N b s hr, newRest_eq, if_neg (fun h => hp ⟨hr, h⟩)]
      · exact (new_not_ready N b s hr).1

/-- **C60 (no hooks).**  With `--no-hooks` there is nothing of them. -/
theorem C60_no_hooks (N : NewSys σ) (H : HookSys σ) (s : σ) : newCommand { N with hooks := H } false s = newCommand N false s := by
  unfold newCommand newRest
  rfl

/-- **C60 (post-insert).**  The hook `post-insert` is called, with the database closed, just if the message was inserted; what it does has no effect on the
status. -/
theorem C60_insert (H : HookSys σ) (b : Bool) (exit : Nat) (s : σ) :
    (insertEnd H b exit s).2.2 = exit ∧
    (b = true ∧ exit = 0 → (insertEnd H b exit s).1 = [.hook (bs "post-insert") .closed] ∧ (insertEnd H b exit s).2.1 = afterHook H (bs "post-insert") s) ∧
    (¬(b = true ∧ exit = 0) → (insertEnd H b exit s).1 = [] ∧ (insertEnd H b exit s).2.1 = s) := by
  unfold insertEnd
  refine ⟨by split <;> rfl, ?_, ?_⟩
  · rintro ⟨rfl, rfl⟩
    exact ⟨rfl, (C60_hook _ _ _).2.2⟩
  · intro h
    rw [if_neg (by simpa using h)]
    exact ⟨rfl, rfl⟩

/-- **Counterexample.**  That the last changes could not be committed when the database is closed is not noticed: neither the status nor the calls of hooks
depend on it. -/
theorem C60_counterexample_commit (N : NewSys σ) (b : Bool) (s : σ) (f : σ → Bool) : newCommand { N with close := fun s => ((N.close s).1, f s) } b s = newCommand N b s := rfl

/-! ## An example: the hook `pre-new` fetches a message -/

def hSys : HookSys (List Str) where
  setenv := true
  access := fun h _ => if h = bs "pre-new" then .ok else .missing
  fork := true
  exec := fun _ _ => .runs
  run := fun _ s => (s ++ [bs "fetched"], .exited 0)

def hNew : NewSys (List Str) := ⟨hSys, true, fun _ _ => true, fun s => (s, true), fun s => (s ++ [bs "scanned"], ⟨true, false, false⟩), fun s => (s, true)⟩

theorem C60_example :
    newCommand hNew true [] = ([.hook (bs "pre-new") .readOnly, .scan .readWrite, .hook (bs "post-new") .closed], [bs "fetched", bs "scanned"], 0) ∧
    newCommand hNew false [] = ([.scan .readWrite], [bs "scanned"], 0) ∧
    newCommand { hNew with hooks := { hSys with run := fun _ s => (s, .exited 3) } } true [] = ([.hook (bs "pre-new") .readOnly], [], 1) ∧
    newCommand { hNew with hooks := { hSys with access := fun h _ => if h = bs "post-new" then .ok else .missing, run := fun _ s => (s, .signalled) } } true [] =
      ([.hook (bs "pre-new") .readOnly, .scan .readWrite, .hook (bs "post-new") .closed], [bs "scanned"], 1) := by
  refine ⟨?_, ?_, ?_, ?_⟩ <;> decide +kernel

example : Prepared hNew true [] := by
  have h : Fine hNew.hooks (bs "pre-new") [] := (C60_hook _ _ _).1.1 (by decide +kernel)
  exact ⟨⟨rfl, fun _ => ⟨rfl, h, rfl⟩⟩, rfl⟩

end Notmuch.Props
