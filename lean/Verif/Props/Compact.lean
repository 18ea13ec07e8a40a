import Verif.Proofs.Compact

/-!
# C50: compaction loses nothing

`Compacts c c'` is what Xapian promises of a compacted copy `c'` of `c`; a database always has files.
-/

namespace Notmuch.Props

open Notmuch.Compact

/-- C50: whenever the process dies, whatever fails, and whatever other programs (that do not compact) do meanwhile, the old database is there, as it was, at its
path or at the backup path, or a compacted copy is in its place with all that others wrote since. -/
theorem C50_safe (Compacts : List Nat → List Nat → Prop) (hC : ∀ c c', Compacts c c' → c' ≠ []) (a : Args) (db : Nat) (c0 : List Nat) (w : World)
    (hs : Start a db c0 w) (w' : World) (pc : Pc) (h : Run Compacts a db (w, .stat) (w', pc)) :
    Intact db c0 w' a.path ∨ Intact db c0 w' a.backupPath ∨ Replaced Compacts db c0 w' a.path := by
  have := (run_inv hC hs h).2
  cases pc with
  | stat => exact Or.inl this.1
  | clean => exact Or.inl this.2.1
  | compact => exact Or.inl this.2.1
  | moveOld => exact Or.inl this.2.1
  | moveNew => exact Or.inr (Or.inl this.2.2.1)
  | remove => exact Or.inr (Or.inr this.2.1)
  | done ok =>
    cases ok with
    | true => exact Or.inr (Or.inr this.2.1)
    | false => exact this

/-- C50: success means that a compacted copy is in place, and that the old database is at the backup path, unchanged, if one was given, and gone if not. -/
theorem C50_done (Compacts : List Nat → List Nat → Prop) (hC : ∀ c c', Compacts c c' → c' ≠ []) (a : Args) (db : Nat) (c0 : List Nat) (w : World)
    (hs : Start a db c0 w) (w' : World) (h : Run Compacts a db (w, .stat) (w', .done true)) :
    Replaced Compacts db c0 w' a.path ∧ (∀ b, a.backup = some b → Intact db c0 w' b) ∧ (a.backup = none → w'.fs (a.path ++ bs ".old") = none) := by
  have := (run_inv hC hs h).2
  refine ⟨this.2.1, fun b hb => ?_, fun hk => ?_⟩
  · have := this.2.2.1 (by rw [hb]; simp)
    rwa [show a.backupPath = b from by unfold Args.backupPath; rw [hb]; rfl] at this
  · have := this.2.2.2 hk
    rwa [show a.backupPath = a.path ++ bs ".old" from by unfold Args.backupPath; rw [hk]; rfl] at this

/-- C50: a compacted copy takes the place of the old database only when it is complete, and until then the old one stays where it is, or at the backup path between
the two renames; so the path has a database that is not the old one only after the renames, or if another program made it between them. -/
theorem C50_in_place (Compacts : List Nat → List Nat → Prop) (hC : ∀ c c', Compacts c c' → c' ≠ []) (a : Args) (db : Nat) (c0 : List Nat) (w : World)
    (hs : Start a db c0 w) (w' : World) (pc : Pc) (h : Run Compacts a db (w, .stat) (w', pc)) :
    (pc ≠ .moveNew → pc ≠ .done false → Intact db c0 w' a.path ∨ Replaced Compacts db c0 w' a.path) ∧
    (w'.fs a.path ≠ some db → ¬ Replaced Compacts db c0 w' a.path → Intact db c0 w' a.backupPath) := by
  have h1 := (run_inv hC hs h).2
  refine ⟨fun hn hd => ?_, fun hn hr => ?_⟩
  · cases pc with
    | stat => exact Or.inl h1.1
    | clean => exact Or.inl h1.2.1
    | compact => exact Or.inl h1.2.1
    | moveOld => exact Or.inl h1.2.1
    | moveNew => exact absurd rfl hn
    | remove => exact Or.inr h1.2.1
    | done ok =>
      cases ok with
      | true => exact Or.inr h1.2.1
      | false => exact absurd rfl hd
  · rcases C50_safe Compacts hC a db c0 w hs w' pc h with h2 | h2 | h2
    · exact absurd h2.1 hn
    · exact h2
    · exact absurd h2 hr

/-- C50: if anything is at the backup path (such as what an interrupted compaction left), nothing is changed at all and the compaction fails. -/
theorem C50_refuse (Compacts : List Nat → List Nat → Prop) (a : Args) (db : Nat) (c0 : List Nat) (w : World) (hs : Start a db c0 w) (i : Nat)
    (hb : w.fs a.backupPath = some i) (w' : World) (pc : Pc) (h : Run Compacts a db (w, .stat) (w', pc)) : w' = w ∧ (pc = .stat ∨ pc = .done false) := by
  generalize e : (w', pc) = t at h
  have key : t.1 = w ∧ (t.2 = .stat ∨ t.2 = .done false) := by
    clear e
    induction h with
    | refl => exact ⟨rfl, Or.inl rfl⟩
    | step _ hst ih =>
      obtain ⟨h1, h2⟩ := ih
      cases hst with
      | exists' _ => exact ⟨h1, Or.inr rfl⟩
      | statError => exact ⟨h1, Or.inr rfl⟩
      | absent h0 =>
        subst h1
        have hb : _ = some i := hb
        rw [hb] at h0
        cases h0
      | _ => rcases h2 with h2 | h2 <;> cases h2
    | other _ ho ih =>
      obtain ⟨h1, h2⟩ := ih
      rw [h1] at ho
      exact absurd (locked ho hs.1) id
  rw [← e] at key
  exact key

section
private def P : Str := bs "x"
private def w0 : World := ⟨fun p => if p = P then some 0 else none, fun i => if i = 0 then [1] else [], fun _ => []⟩
private def Cp : List Nat → List Nat → Prop := fun c c' => c' = c ∧ c ≠ []

private theorem start0 (b : Option Str) : Start ⟨P, b⟩ 0 [1] w0 := by
  refine ⟨by simp [w0, P], rfl, ?_, fun _ => rfl⟩
  intro p q i hp hq
  simp only [w0] at hp hq
  split at hp
  · split at hq
    · rename_i e1 e2; rw [e1, e2]
    · cases hq
  · cases hp

private def w1 : World := { w0 with fs := upd w0.fs (P ++ bs ".compact") (some 1), dir := upd w0.dir 1 [] }
private def w2 : World := { w1 with dir := upd w1.dir 1 [1] }
private def w3 : World := renamed w2 P (P ++ bs ".old")
private def w4 : World := renamed w3 (P ++ bs ".compact") P
private def w5 : World := { w4 with dir := upd w4.dir 0 ((w4.dir 0).filter (· ≠ 1)) }
private def w6 : World := { w5 with fs := upd w5.fs (P ++ bs ".old") none }
private def v1 : World := { w3 with fs := upd w3.fs P (some 2), dir := upd w3.dir 2 [] }
private def v2 : World := { v1 with dir := upd v1.dir 2 ((fun _ => [2]) (v1.dir 2)), hist := upd v1.hist 2 (v1.hist 2 ++ [fun _ => [2]]) }
private def v3 : World := { v2 with dir := upd v2.dir 1 ((v2.dir 1).filter (· ≠ 1)) }
private def v4 : World := { v3 with fs := upd v3.fs (P ++ bs ".compact") none }
private def v5 : World := { v4 with fs := upd v4.fs (P ++ bs ".compact") (some 3), dir := upd v4.dir 3 [] }
private def v6 : World := { v5 with dir := upd v5.dir 3 [2] }
private def v7 : World := renamed v6 P (bs "y")
private def v8 : World := renamed v7 (P ++ bs ".compact") P
private def v9 : World := { v8 with dir := upd v8.dir 0 ((v8.dir 0).filter (· ≠ 1)) }
private def v10 : World := { v9 with fs := upd v9.fs (P ++ bs ".old") none }

private theorem empty_none {w : World} {p : Str} (h : w.fs p = none) : emptyAt w p := fun i hi => by rw [h] at hi; cases hi
private theorem empty_some {w : World} {p : Str} {i : Nat} (h : w.fs p = some i) (h2 : w.dir i = []) : emptyAt w p := fun j hj => by
  rw [h] at hj
  injection hj with hj
  rw [← hj]
  exact h2

private abbrev A : Args := ⟨P, none⟩
private abbrev B : Args := ⟨P, some (bs "y")⟩

private theorem s1 : Step Cp A 0 (w0, .stat) (w0, .clean) := .absent (by decide +kernel)
private theorem s2 : Step Cp A 0 (w0, .clean) (w0, .compact) := .cleaned
private theorem s3 : Step Cp A 0 (w0, .compact) (w1, .compact) :=
  .compactMkdir 1 (by decide +kernel) (fun p => by show (if p = P then some 0 else none) ≠ some 1; split <;> simp) (by decide) rfl
private theorem s4 : Step Cp A 0 (w1, .compact) (w2, .compact) := .compactWrite [1] (i := 1) (by decide +kernel)
private theorem s5 : Step Cp A 0 (w2, .compact) (w2, .moveOld) := .compacted (i := 1) (by decide +kernel) ⟨by decide +kernel, by decide +kernel⟩
private theorem s6 : Step Cp A 0 (w2, .moveOld) (w3, .moveNew) := .movedOld (i := 0) (by decide +kernel) (empty_none (by decide +kernel))
private theorem s7 : Step Cp A 0 (w3, .moveNew) (w4, .remove) := .movedNew (i := 1) (by decide +kernel) (empty_none (by decide +kernel))
private theorem s8 : Step Cp A 0 (w4, .remove) (w5, .remove) := .removeFile (i := 0) 1 rfl (by decide +kernel)
private theorem s9 : Step Cp A 0 (w5, .remove) (w6, .done true) := .removeDir rfl (empty_some (i := 0) (by decide +kernel) (by decide +kernel))

private theorem run3 : Run Cp A 0 (w0, .stat) (w3, .moveNew) := .step (.step (.step (.step (.step (.step (.refl _) s1) s2) s3) s4) s5) s6

/-- A compaction that succeeds. -/
example : Run Cp A 0 (w0, .stat) (w6, .done true) ∧ Replaced Cp 0 [1] w6 P ∧ w6.fs (P ++ bs ".old") = none := by
  have hrun : Run Cp A 0 (w0, .stat) (w6, .done true) := .step (.step (.step run3 s7) s8) s9
  have h := C50_done Cp (fun c c' h => h.1 ▸ h.2) _ 0 [1] w0 (start0 none) _ hrun
  exact ⟨hrun, h.1, h.2.2 rfl⟩

/-- If the process dies between the two renames, there is no database at its path (`notmuch new` then makes an empty one there, and compacting it fails until
the backup is moved away: `C50_refuse`). -/
theorem C50_counterexample_gap : ∃ (a : Args) (w w' : World), Start a 0 [1] w ∧ Run (fun c c' => c' = c ∧ c ≠ []) a 0 (w, .stat) (w', .moveNew) ∧ w'.fs a.path = none :=
  ⟨A, w0, w3, start0 _, run3, by decide +kernel⟩

private theorem fresh3 : ∀ p, v4.fs p ≠ some 3 := by
  intro p
  show (if p = P ++ bs ".compact" then none else if p = P then some 2 else if p = P ++ bs ".old" then w2.fs P else if p = P then none else
    if p = P ++ bs ".compact" then some 1 else if p = P then some 0 else none) ≠ some 3
  rw [show w2.fs P = some 0 from by decide +kernel]
  repeat' split
  all_goals simp

private theorem fresh2 : ∀ p, w3.fs p ≠ some 2 := by
  intro p
  show (if p = P ++ bs ".old" then w2.fs P else if p = P then none else
    if p = P ++ bs ".compact" then some 1 else if p = P then some 0 else none) ≠ some 2
  rw [show w2.fs P = some 0 from by decide +kernel]
  repeat' split
  all_goals simp

/-- The lock of the database does not protect a compaction between its two renames. If then another program makes a new database, and that one is compacted, with a
backup path, the first compaction puts the compacted new database in place and removes the old one: it reports success and all that was in the old database is lost. -/
theorem C50_counterexample_two : ∃ (a b : Args) (w w' : World) (q : Option (Nat × Pc)), Start a 0 [1] w ∧ a.path = b.path ∧
    TwoRun (fun c c' => c' = c ∧ c ≠ []) a b 0 ⟨w, .stat, none⟩ ⟨w', .done true, q⟩ ∧
    ∀ p i, w'.fs p = some i → w'.dir i ≠ [1] := by
  refine ⟨A, B, w0, v10, some (2, .moveNew), start0 _, rfl, ?_, ?_⟩
  · have r0 : TwoRun Cp A B 0 ⟨w0, .stat, none⟩ ⟨w3, .moveNew, none⟩ :=
      .step (.step (.step (.step (.step (.step (.refl _) (.first s1)) (.first s2)) (.first s3)) (.first s4)) (.first s5)) (.first s6)
    have r1 : TwoRun Cp A B 0 ⟨w0, .stat, none⟩ ⟨v2, .moveNew, none⟩ :=
      .step (.step r0 (.other (w' := v1) (.mkdir 2 (by decide +kernel) fresh2 (by decide) rfl))) (.other (w' := v2) (.write (i := 2) (fun _ => [2]) (by decide +kernel) (by decide)))
    have r2 : TwoRun Cp A B 0 ⟨w0, .stat, none⟩ ⟨v4, .moveNew, some (2, .clean)⟩ :=
      .step (.step (.step (.step r1 (.start (i := 2) (by decide +kernel) (by decide))) (.second (.absent (by decide +kernel))))
        (.second (w' := v3) (.cleanFile (i := 1) 1 (by decide +kernel)))) (.second (w' := v4) (.cleanDir (empty_some (i := 1) (by decide +kernel) (by decide +kernel))))
    have r3 : TwoRun Cp A B 0 ⟨w0, .stat, none⟩ ⟨v7, .moveNew, some (2, .moveNew)⟩ :=
      .step (.step (.step (.step (.step r2 (.second .cleaned)) (.second (w' := v5) (.compactMkdir 3 (by decide +kernel) fresh3 (by decide) (by decide +kernel))))
        (.second (w' := v6) (.compactWrite (i := 3) [2] (by decide +kernel)))) (.second (.compacted (i := 3) (by decide +kernel) ⟨by decide +kernel, by decide +kernel⟩)))
        (.second (w' := v7) (.movedOld (i := 2) (by decide +kernel) (empty_none (by decide +kernel))))
    exact .step (.step (.step r3 (.first (w' := v8) (.movedNew (i := 3) (by decide +kernel) (empty_none (by decide +kernel)))))
      (.first (w' := v9) (.removeFile (i := 0) 1 rfl (by decide +kernel)))) (.first (w' := v10) (.removeDir rfl (empty_some (i := 0) (by decide +kernel) (by decide +kernel))))
  · intro p i hp
    have hd : ∀ i, v10.dir i ≠ [1] := by
      intro i
      show (if i = 0 then (v8.dir 0).filter (· ≠ 1) else if i = 3 then [2] else if i = 3 then [] else if i = 1 then (v2.dir 1).filter (· ≠ 1) else
        if i = 2 then [2] else if i = 2 then [] else if i = 1 then [1] else if i = 1 then [] else if i = 0 then [1] else []) ≠ [1]
      rw [show (v8.dir 0).filter (· ≠ 1) = [] from by decide +kernel, show (v2.dir 1).filter (· ≠ 1) = [] from by decide +kernel]
      repeat' split
      all_goals simp_all
    exact hd i

end

end Notmuch.Props
