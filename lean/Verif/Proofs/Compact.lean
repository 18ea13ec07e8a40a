import Verif.Spec.Compact

namespace Notmuch.Compact

def Inj (w : World) : Prop := ∀ p q i, w.fs p = some i → w.fs q = some i → p = q

def Inv (C : List Nat → List Nat → Prop) (a : Args) (db : Nat) (c0 : List Nat) (w : World) : Pc → Prop
  | .stat => Intact db c0 w a.path ∧ ∀ i, w.fs a.compactPath = some i → w.hist i = []
  | .clean => a.backupPath ≠ a.path ∧ Intact db c0 w a.path ∧ ∀ i, w.fs a.compactPath = some i → w.hist i = []
  | .compact => a.backupPath ≠ a.path ∧ Intact db c0 w a.path ∧ ∀ i, w.fs a.compactPath = some i → w.hist i = []
  | .moveOld => a.backupPath ≠ a.path ∧ Intact db c0 w a.path ∧ ∃ i, w.fs a.compactPath = some i ∧ w.hist i = [] ∧ C c0 (w.dir i)
  | .moveNew => a.backupPath ≠ a.path ∧ a.backupPath ≠ a.compactPath ∧ Intact db c0 w a.backupPath ∧ ∃ i, w.fs a.compactPath = some i ∧ w.hist i = [] ∧ C c0 (w.dir i)
  | .remove => a.backupPath ≠ a.path ∧ Replaced C db c0 w a.path ∧ w.fs a.backupPath = some db ∧ (a.backup ≠ none → w.dir db = c0)
  | .done true => a.backupPath ≠ a.path ∧ Replaced C db c0 w a.path ∧ (a.backup ≠ none → Intact db c0 w a.backupPath) ∧ (a.backup = none → w.fs a.backupPath = none)
  | .done false => Intact db c0 w a.path ∨ Intact db c0 w a.backupPath ∨ Replaced C db c0 w a.path

theorem upd_same {α β : Type} [DecidableEq α] (f : α → β) (a : α) (b : β) : upd f a b a = b := by simp [upd]
theorem upd_ne {α β : Type} [DecidableEq α] (f : α → β) {a x : α} (b : β) (h : x ≠ a) : upd f a b x = f x := by simp [upd, h]

theorem compact_ne (a : Args) : a.compactPath ≠ a.path := by
  unfold Args.compactPath
  intro h
  have := congrArg List.length h
  rw [List.length_append, show (bs ".compact").length = 8 from by decide +kernel] at this
  omega

theorem inj_unset {w : World} (h : Inj w) (p : Str) : Inj { w with fs := upd w.fs p none } := by
  intro q r i hq hr
  simp only [upd] at hq hr
  split at hq
  · cases hq
  · split at hr
    · cases hr
    · exact h q r i hq hr

theorem inj_fresh {w : World} (h : Inj w) (p : Str) (i : Nat) (hf : ∀ p, w.fs p ≠ some i) (d : Nat → List Nat) : Inj { w with fs := upd w.fs p (some i), dir := d } := by
  intro q r j hq hr
  simp only [upd] at hq hr
  split at hq <;> split at hr
  · rename_i e1 e2; rw [e1, e2]
  · injection hq with hq; subst hq; exact absurd hr (hf r)
  · injection hr with hr; subst hr; exact absurd hq (hf q)
  · exact h q r j hq hr

theorem inj_renamed {w : World} (h : Inj w) (p q : Str) : Inj (renamed w p q) := by
  intro r s i hr hs
  simp only [renamed, upd] at hr hs
  by_cases e1 : r = q <;> by_cases e2 : s = q
  · rw [e1, e2]
  · rw [if_pos e1] at hr
    rw [if_neg e2] at hs
    split at hs
    · cases hs
    · rename_i hsp; exact absurd (h s p i hs hr) hsp
  · rw [if_neg e1] at hr
    rw [if_pos e2] at hs
    split at hr
    · cases hr
    · rename_i hrp; exact absurd (h r p i hr hs) hrp
  · rw [if_neg e1] at hr
    rw [if_neg e2] at hs
    split at hr
    · cases hr
    · split at hs
      · cases hs
      · exact h r s i hr hs

section
variable {C : List Nat → List Nat → Prop} {a : Args} {db : Nat} {c0 : List Nat}

theorem step_inv (hC : ∀ c c', C c c' → c' ≠ []) {s t : World × Pc} (h : Step C a db s t) (hi : Inj s.1) (hv : Inv C a db c0 s.1 s.2) :
    Inj t.1 ∧ Inv C a db c0 t.1 t.2 := by
  have hcp := compact_ne a
  cases h with
  | exists' _ => exact ⟨hi, Or.inl hv.1⟩
  | statError => exact ⟨hi, Or.inl hv.1⟩
  | absent h0 =>
    refine ⟨hi, ?_, hv.1, hv.2⟩
    intro e
    rw [e] at h0
    rw [hv.1.1] at h0
    cases h0
  | @cleanFile w i f h0 =>
    obtain ⟨h1, h2, h3⟩ := hv
    have hne : i ≠ db := by
      rintro rfl
      exact hcp (hi _ _ _ h0 h2.1)
    refine ⟨hi, h1, ⟨h2.1, ?_⟩, h3⟩
    show upd _ _ _ _ = _
    rw [upd_ne _ _ (fun e => hne e.symm)]
    exact h2.2
  | @cleanDir w h0 =>
    obtain ⟨h1, h2, h3⟩ := hv
    refine ⟨inj_unset hi _, h1, ⟨?_, h2.2⟩, ?_⟩
    · show upd _ _ _ _ = _
      rw [upd_ne _ _ (fun e => hcp e.symm)]
      exact h2.1
    · intro i hh
      have hh : upd w.fs a.compactPath none a.compactPath = some i := hh
      rw [upd_same] at hh
      cases hh
  | cleaned => exact ⟨hi, hv⟩
  | @compactMkdir w i h0 hf hne hh =>
    obtain ⟨h1, h2, h3⟩ := hv
    refine ⟨inj_fresh hi _ _ hf _, h1, ⟨?_, ?_⟩, ?_⟩
    · show upd _ _ _ _ = _
      rw [upd_ne _ _ (fun e => hcp e.symm)]
      exact h2.1
    · show upd _ _ _ _ = _
      rw [upd_ne _ _ (fun e => hne e.symm)]
      exact h2.2
    · intro j hj
      have hj : upd w.fs a.compactPath (some i) a.compactPath = some j := hj
      rw [upd_same] at hj
      injection hj with hj
      rw [← hj]
      exact hh
  | @compactWrite w i l h0 =>
    obtain ⟨h1, h2, h3⟩ := hv
    have hne : i ≠ db := by
      rintro rfl
      exact hcp (hi _ _ _ h0 h2.1)
    refine ⟨hi, h1, ⟨h2.1, ?_⟩, h3⟩
    show upd _ _ _ _ = _
    rw [upd_ne _ _ (fun e => hne e.symm)]
    exact h2.2
  | compactError => exact ⟨hi, Or.inl hv.2.1⟩
  | @compacted w i h0 hc =>
    obtain ⟨h1, h2, h3⟩ := hv
    exact ⟨hi, h1, h2, i, h0, h3 i h0, by rw [← h2.2]; exact hc⟩
  | moveOldError => exact ⟨hi, Or.inl hv.2.1⟩
  | @movedOld w i h0 he =>
    obtain ⟨h1, h2, j, hj, hh, hc⟩ := hv
    have hbc : a.backupPath ≠ a.compactPath := by
      intro e
      rw [e] at he
      exact hC _ _ hc (he j hj)
    refine ⟨inj_renamed hi _ _, h1, hbc, ⟨?_, h2.2⟩, j, ?_, hh, hc⟩
    · show upd _ _ _ _ = _
      rw [upd_same]
      exact h2.1
    · show upd _ _ _ _ = _
      rw [upd_ne _ _ (fun e => hbc e.symm), upd_ne _ _ hcp]
      exact hj
  | moveNewError => exact ⟨hi, Or.inr (Or.inl hv.2.2.1)⟩
  | @movedNew w i h0 he =>
    obtain ⟨h1, h2, h3, j, hj, hh, hc⟩ := hv
    have hne : j ≠ db := by
      rintro rfl
      exact h2 (hi _ _ _ h3.1 hj)
    refine ⟨inj_renamed hi _ _, h1, ⟨j, w.dir j, hne, ?_, hc, ?_⟩, ?_, fun _ => h3.2⟩
    · show upd _ _ _ _ = _
      rw [upd_same]
      exact hj
    · show w.dir j = (w.hist j).foldl _ _
      rw [hh]
      rfl
    · show upd _ _ _ _ = _
      rw [upd_ne _ _ h1, upd_ne _ _ h2]
      exact h3.1
  | keep hk =>
    obtain ⟨h1, h2, h3, h4⟩ := hv
    exact ⟨hi, h1, h2, fun _ => ⟨h3, h4 hk⟩, fun e => absurd e hk⟩
  | @removeFile w i f hk h0 =>
    obtain ⟨h1, ⟨j, c, hj, hp, hc, hd⟩, h3, h4⟩ := hv
    have h3 : w.fs a.backupPath = some db := h3
    have : i = db := by rw [h3] at h0; injection h0 with h0; exact h0.symm
    subst this
    refine ⟨hi, h1, ⟨j, c, hj, hp, hc, ?_⟩, h3, fun e => absurd hk e⟩
    show upd _ _ _ _ = _
    rw [upd_ne _ _ hj]
    exact hd
  | @removeDir w hk h0 =>
    obtain ⟨h1, ⟨j, c, hj, hp, hc, hd⟩, h3, h4⟩ := hv
    refine ⟨inj_unset hi _, h1, ⟨j, c, hj, ?_, hc, hd⟩, fun e => absurd hk e, fun _ => ?_⟩
    · show upd _ _ _ _ = _
      rw [upd_ne _ _ (fun e => h1 e.symm)]
      exact hp
    · show upd _ _ _ _ = _
      rw [upd_same]
  | removeError hk => exact ⟨hi, Or.inr (Or.inr hv.2.1)⟩

theorem replaced_other {w w' : World} (h : Other a db w w') (hr : Replaced C db c0 w a.path) : Replaced C db c0 w' a.path := by
  obtain ⟨j, c, hj, hp, hc, hd⟩ := hr
  cases h with
  | mkdir i h0 => rw [h0] at hp; cases hp
  | @write i f h0 hne =>
    have : i = j := by rw [h0] at hp; injection hp
    subst this
    refine ⟨i, c, hj, hp, hc, ?_⟩
    show upd _ _ _ _ = _
    rw [upd_same]
    show _ = List.foldl _ _ (upd w.hist i _ i)
    rw [upd_same, List.foldl_append, ← hd]
    rfl

theorem intact_other {w w' : World} {q : Str} (h : Other a db w w') (hr : Intact db c0 w q) : Intact db c0 w' q := by
  cases h with
  | mkdir i h0 hf hne hh =>
    refine ⟨?_, ?_⟩
    · show upd _ _ _ _ = _
      rw [upd_ne]
      · exact hr.1
      · rintro rfl
        rw [hr.1] at h0
        cases h0
    · show upd _ _ _ _ = _
      rw [upd_ne _ _ (fun e => hne e.symm)]
      exact hr.2
  | write f h0 hne =>
    refine ⟨hr.1, ?_⟩
    show upd _ _ _ _ = _
    rw [upd_ne _ _ (fun e => hne e.symm)]
    exact hr.2

theorem locked {w w' : World} (h : Other a db w w') (h0 : w.fs a.path = some db) : False := by
  cases h with
  | mkdir i h1 => rw [h0] at h1; cases h1
  | write f h1 hne => rw [h0] at h1; injection h1 with h1; exact hne h1.symm

theorem other_inv {w w' : World} (pc : Pc) (h : Other a db w w') (hi : Inj w) (hv : Inv C a db c0 w pc) : Inj w' ∧ Inv C a db c0 w' pc := by
  have hcp := compact_ne a
  have hinj : Inj w' := by
    cases h with
    | mkdir i h0 hf hne hh => exact inj_fresh hi _ _ hf _
    | write f h0 hne => exact hi
  refine ⟨hinj, ?_⟩
  cases pc with
  | stat => exact absurd (locked h hv.1.1) id
  | clean => exact absurd (locked h hv.2.1.1) id
  | compact => exact absurd (locked h hv.2.1.1) id
  | moveOld => exact absurd (locked h hv.2.1.1) id
  | moveNew =>
    obtain ⟨h1, h2, h3, j, hj, hh, hc⟩ := hv
    refine ⟨h1, h2, intact_other h h3, j, ?_⟩
    cases h with
    | mkdir i h0 hf hne hn =>
      refine ⟨?_, hh, ?_⟩
      · show upd _ _ _ _ = _
        rw [upd_ne _ _ hcp]
        exact hj
      · show C c0 (upd _ _ _ _)
        rw [upd_ne]
        · exact hc
        · rintro rfl
          exact hf _ hj
    | write f h0 hne =>
      rename_i i
      have : j ≠ i := by
        rintro rfl
        exact hcp (hi _ _ _ hj h0)
      refine ⟨hj, ?_, ?_⟩
      · show upd _ _ _ _ = _
        rw [upd_ne _ _ this]
        exact hh
      · show C c0 (upd _ _ _ _)
        rw [upd_ne _ _ this]
        exact hc
  | remove =>
    obtain ⟨h1, h2, h3, h4⟩ := hv
    refine ⟨h1, replaced_other h h2, ?_, ?_⟩
    · exact (intact_other (c0 := w.dir db) h ⟨h3, rfl⟩).1
    · intro hk
      exact (intact_other h ⟨h3, h4 hk⟩).2
  | done ok =>
    cases ok with
    | true =>
      obtain ⟨h1, h2, h3, h4⟩ := hv
      refine ⟨h1, replaced_other h h2, fun hk => intact_other h (h3 hk), fun hk => ?_⟩
      cases h with
      | mkdir i h0 hf hne hn =>
        show upd _ _ _ _ = _
        rw [upd_ne _ _ h1]
        exact h4 hk
      | write f h0 hne => exact h4 hk
    | false =>
      rcases hv with hv | hv | hv
      · exact Or.inl (intact_other h hv)
      · exact Or.inr (Or.inl (intact_other h hv))
      · exact Or.inr (Or.inr (replaced_other h hv))

theorem run_inv (hC : ∀ c c', C c c' → c' ≠ []) {w : World} (hs : Start a db c0 w) {t : World × Pc} (h : Run C a db (w, .stat) t) :
    Inj t.1 ∧ Inv C a db c0 t.1 t.2 := by
  induction h with
  | refl => exact ⟨hs.2.2.1, ⟨hs.1, hs.2.1⟩, fun i _ => hs.2.2.2 i⟩
  | step _ hst ih => exact step_inv hC hst ih.1 ih.2
  | other _ ho ih => exact other_inv _ ho ih.1 ih.2

end

end Notmuch.Compact
