import Verif.Proofs.Open

namespace Notmuch.Open

/-! ## Running the steps -/

abbrev runSteps (l : List (Db × Nat → Db × Nat)) (st : Db × Nat) : Db × Nat := l.foldl (fun st f => f st) st

theorem scan_last {α : Type} : ∀ (l : List (α → α)) (a : α), (scan a l).getLast? = some (l.foldl (fun st f => f st) a)
  | [], a => rfl
  | f :: l, a => by
    have := scan_last l (f a)
    rw [scan, List.foldl_cons]
    cases e : scan (f a) l with
    | nil => cases l <;> simp [scan] at e
    | cons b r =>
      rw [e] at this
      rw [List.getLast?_cons_cons, this]

theorem run_map {β : Type} (g : Db × Nat → β → Db × Nat) : ∀ (l : List β) (st : Db × Nat), runSteps (l.map (fun m st => g st m)) st = l.foldl g st
  | [], _ => rfl
  | _ :: l, _ => run_map g l _

theorem run_append (a b : List (Db × Nat → Db × Nat)) (st : Db × Nat) : runSteps (a ++ b) st = runSteps b (runSteps a st) := List.foldl_append

/-- The phases of the upgrade. -/
def phase1 (new target : Features) (folder : Msg → Bool) (db : Db) (st : Db × Nat) : Db × Nat :=
  if perMessage new then (db.msgs.filter (fun m => !m.ghost)).foldl (upgradeMsg new target folder) st else st

def phase2 (new : Features) (db : Db) (st : Db × Nat) : Db × Nat := if new .directoryDocs then db.stamps.foldl upgradeStamp st else st

def phase3 (new target : Features) (db : Db) (st : Db × Nat) : Db × Nat := if new .ghosts then db.threadIds.foldl (upgradeThread target) st else st

theorem run_upgrade (new target : Features) (folder : Msg → Bool) (db : Db) (st : Db × Nat) :
    runSteps (upgradeSteps new target folder db) st = upgradeMeta target (phase3 new target db (phase2 new db (phase1 new target folder db st))) := by
  unfold upgradeSteps
  rw [run_append, run_append, run_append]
  have h1 : runSteps (if perMessage new then (db.msgs.filter (fun m => !m.ghost)).map (fun m st => upgradeMsg new target folder st m) else []) st = phase1 new target folder db st := by
    unfold phase1
    split
    · rw [run_map]
    · rfl
  have h2 : ∀ st, runSteps (if new .directoryDocs then db.stamps.map (fun d st => upgradeStamp st d) else []) st = phase2 new db st := by
    intro st
    unfold phase2
    split
    · rw [run_map]
    · rfl
  have h3 : ∀ st, runSteps (if new .ghosts then db.threadIds.map (fun e st => upgradeThread target st e) else []) st = phase3 new target db st := by
    intro st
    unfold phase3
    split
    · rw [run_map]
    · rfl
  rw [h1, h2, h3]
  rfl

/-! ## Messages -/

/-- What the upgrade makes of a message. -/
structure Same (m m' : Msg) : Prop where
  mid : m'.mid = m.mid
  tid : m'.tid = m.tid
  ghost : m'.ghost = m.ghost
  names : fileNames m' = fileNames m

theorem Same.refl (m : Msg) : Same m m := ⟨rfl, rfl, rfl, rfl⟩

theorem foldl_max (l : List Nat) : ∀ a, l.foldl max a = max a (l.foldl max 0) := by
  induction l with
  | nil => intro a; simp
  | cons b l ih =>
    intro a
    rw [List.foldl_cons, List.foldl_cons, ih, ih (max 0 b)]
    omega

theorem le_foldl_max : ∀ (l : List Nat) (x : Nat), x ∈ l → x ≤ l.foldl max 0
  | b :: l, x, h => by
    rw [List.foldl_cons, foldl_max]
    rcases List.mem_cons.mp h with rfl | h
    · omega
    · have := le_foldl_max l x h
      omega

theorem foldl_max_le : ∀ (l : List Nat) (n : Nat), (∀ x ∈ l, x ≤ n) → l.foldl max 0 ≤ n
  | [], n, _ => by simp
  | b :: l, n, h => by
    rw [List.foldl_cons, foldl_max]
    have := foldl_max_le l n (fun x hx => h x (List.mem_cons_of_mem _ hx))
    have := h b (by simp)
    omega

theorem foldl_max_eq (l : List Nat) (n : Nat) (h : ∀ x ∈ l, x ≤ n) (hn : n ∈ l) : l.foldl max 0 = n :=
  Nat.le_antisymm (foldl_max_le l n h) (le_foldl_max l n hn)

/-- What holds in the first phase: the messages of the start, one by one, changed only in `lastMod` and where the file name is; the revision is the greatest `lastMod`. -/
structure Inv1 (new : Features) (db : Db) (r0 : Nat) (done : List Msg) (st : Db × Nat) : Prop where
  msgs : ∃ up : Msg → Msg, st.1.msgs = db.msgs.map up ∧ ∀ m ∈ db.msgs, Same m (up m) ∧ (m ∈ done → new .lastMod = true → r0 < (up m).lastMod) ∧
    (m ∉ done → up m = m) ∧ (m ∈ done → new .fileTerms = true → (up m).data = []) ∧ (new .fileTerms = false → (up m).data = m.data)
  load : loadRevision st.1 = st.2
  mono : r0 ≤ st.2
  lastThread : st.1.lastThread = db.lastThread
  threadIds : st.1.threadIds = db.threadIds
  stamps : st.1.stamps = db.stamps
  dirs : ∃ extra, st.1.dirs = db.dirs ++ extra ∧ ∀ e ∈ extra, e.2 = 0

theorem addDir_extra : ∀ (l : List Str) (dirs : List (Str × Int)), ∃ extra, l.foldl addDir dirs = dirs ++ extra ∧ ∀ e ∈ extra, e.2 = 0
  | [], dirs => ⟨[], by simp, by simp⟩
  | d :: l, dirs => by
    obtain ⟨ex, e1, e2⟩ := addDir_extra l (addDir dirs d)
    rw [List.foldl_cons]
    unfold addDir at e1 ⊢
    split at e1
    · exact ⟨ex, by rw [if_pos (by assumption)]; exact e1, e2⟩
    · refine ⟨(d, 0) :: ex, by rw [if_neg (by assumption), e1]; simp, ?_⟩
      intro e he
      rcases List.mem_cons.mp he with rfl | he
      · rfl
      · exact e2 e he

theorem nodup_mid {l : List Msg} (h : (l.map (·.mid)).Nodup) {a b : Msg} (ha : a ∈ l) (hb : b ∈ l) (he : a.mid = b.mid) : a = b := by
  induction l with
  | nil => cases ha
  | cons c l ih =>
    rw [List.map_cons, List.nodup_cons] at h
    rcases List.mem_cons.mp ha with ha1 | ha1
    · rcases List.mem_cons.mp hb with hb1 | hb1
      · rw [ha1, hb1]
      · exact absurd (List.mem_map.mpr ⟨b, hb1, by rw [← he, ha1]⟩) h.1
    · rcases List.mem_cons.mp hb with hb1 | hb1
      · exact absurd (List.mem_map.mpr ⟨a, ha1, by rw [he, hb1]⟩) h.1
      · exact ih h.2 ha1 hb1

theorem step1 {new target : Features} {folder : Msg → Bool} {db : Db} {r0 : Nat} {done : List Msg} {st : Db × Nat} {m : Msg}
    (ht : target .lastMod = true) (hn : (db.msgs.map (·.mid)).Nodup) (hfiles : new .fileTerms = true → ∀ m ∈ db.msgs, m.files = [])
    (hm : m ∈ db.msgs) (hd : m ∉ done) (h : Inv1 new db r0 done st) : Inv1 new db r0 (m :: done) (upgradeMsg new target folder st m) := by
  obtain ⟨⟨up, hup, hs⟩, hl, hmono, e1, e2, e3, ex, e4, e5⟩ := h
  have hmid : ∀ x ∈ db.msgs, x.mid = m.mid → x = m := fun x hx => nodup_mid hn hx hm
  generalize hmv : (new .fileTerms && decide (m.data ≠ [])) = move
  generalize hm1 : (if move then { m with files := m.files ++ [m.data], data := [] } else m : Msg) = m1
  generalize hmod : (move || (new .boolFolder && folder m) || new .lastMod) = modified
  have hstep : upgradeMsg new target folder st m =
      ({ st.1 with
          msgs := if modified then st.1.msgs.map (fun x => if x.mid = m.mid then { m1 with lastMod := st.2 + 1 } else x) else st.1.msgs
          dirs := if move then (dirsOf m.data).foldl addDir st.1.dirs else st.1.dirs },
       if modified then st.2 + 1 else st.2) := by
    subst hmod
    subst hm1
    subst hmv
    unfold upgradeMsg
    simp only [ht, Bool.and_true]
    cases hb : (new .fileTerms && decide (m.data ≠ []) || (new .boolFolder && folder m) || new .lastMod) <;> simp
  have hsame1 : Same m m1 ∧ (new .fileTerms = true → m1.data = []) ∧ (new .fileTerms = false → m1.data = m.data) := by
    subst hm1
    cases move with
    | false =>
      refine ⟨Same.refl m, fun hf => ?_, fun _ => rfl⟩
      rw [hf] at hmv
      simpa using hmv
    | true =>
      have hmv' : new .fileTerms = true ∧ m.data ≠ [] := by simpa using hmv
      refine ⟨⟨rfl, rfl, rfl, ?_⟩, fun _ => rfl, fun hf => by rw [hf] at hmv'; cases hmv'.1⟩
      unfold fileNames
      simp [hfiles hmv'.1 m hm]
  rw [hstep]
  have hdirs : ∃ extra, (if move then (dirsOf m.data).foldl addDir st.1.dirs else st.1.dirs) = db.dirs ++ extra ∧ ∀ e ∈ extra, e.2 = 0 := by
    cases move with
    | false => exact ⟨ex, e4, e5⟩
    | true =>
      obtain ⟨ex2, a, b⟩ := addDir_extra (dirsOf m.data) st.1.dirs
      refine ⟨ex ++ ex2, ?_, ?_⟩
      · show (dirsOf m.data).foldl addDir st.1.dirs = _
        rw [a, e4]; simp
      · intro e he
        rcases List.mem_append.mp he with he | he
        · exact e5 e he
        · exact b e he
  have hupm : ∀ x ∈ db.msgs, (up x).mid = x.mid := fun x hx => (hs x hx).1.mid
  cases modified with
  | false =>
    have hnm : new .lastMod = false ∧ move = false := by
      revert hmod
      cases move <;> cases new .lastMod <;> simp
    refine ⟨⟨up, hup, ?_⟩, hl, hmono, e1, e2, e3, hdirs⟩
    intro x hx
    obtain ⟨s1, s2, s3, s4, s5⟩ := hs x hx
    refine ⟨s1, ?_, ?_, ?_, s5⟩
    · intro _ hh; rw [hnm.1] at hh; cases hh
    · intro hh; exact s3 (fun hhh => hh (List.mem_cons_of_mem _ hhh))
    · intro hh hf
      rcases List.mem_cons.mp hh with rfl | hh
      · rw [s3 hd]
        have := hsame1.2.1 hf
        rw [← hm1, hnm.2] at this
        exact this
      · exact s4 hh hf
  | true =>
    refine ⟨⟨fun x => if x.mid = m.mid then { m1 with lastMod := st.2 + 1 } else up x, ?_, ?_⟩, ?_, by show r0 ≤ st.2 + 1; omega, e1, e2, e3, hdirs⟩
    · show st.1.msgs.map _ = _
      rw [hup, List.map_map]
      apply List.map_congr_left
      intro x hx
      simp only [Function.comp]
      rw [hupm x hx]
    · intro x hx
      obtain ⟨s1, s2, s3, s4, s5⟩ := hs x hx
      by_cases hxm : x.mid = m.mid
      · have := hmid x hx hxm
        subst this
        simp only [if_pos]
        obtain ⟨a, b, c⟩ := hsame1
        refine ⟨⟨a.mid, a.tid, a.ghost, ?_⟩, ?_, ?_, ?_, c⟩
        · exact a.names
        · intro _ _; show r0 < st.2 + 1; omega
        · intro hh; exact absurd (by simp) hh
        · intro _ hf; exact b hf
      · simp only [if_neg hxm]
        have hxm' : x ≠ m := fun hh => hxm (by rw [hh])
        refine ⟨s1, fun hh => s2 ((List.mem_cons.mp hh).resolve_left hxm'), fun hh => s3 (fun hhh => hh (List.mem_cons_of_mem _ hhh)),
          fun hh => s4 ((List.mem_cons.mp hh).resolve_left hxm'), s5⟩
    · show (List.map (fun m : Msg => m.lastMod) _).foldl max 0 = st.2 + 1
      apply foldl_max_eq
      · intro y hy
        obtain ⟨z, hz, rfl⟩ := List.mem_map.mp hy
        simp only [if_true] at hz
        obtain ⟨w, hw, rfl⟩ := List.mem_map.mp hz
        split
        · exact Nat.le_refl _
        · have : w.lastMod ≤ loadRevision st.1 := le_foldl_max _ _ (List.mem_map_of_mem hw)
          rw [hl] at this
          omega
      · simp only [if_true]
        refine List.mem_map.mpr ⟨{ m1 with lastMod := st.2 + 1 }, List.mem_map.mpr ⟨up m, hup ▸ List.mem_map_of_mem hm, ?_⟩, rfl⟩
        rw [if_pos (hupm m hm)]

theorem fold1 {new target : Features} {folder : Msg → Bool} {db : Db} {r0 : Nat}
    (ht : target .lastMod = true) (hn : (db.msgs.map (·.mid)).Nodup) (hfiles : new .fileTerms = true → ∀ m ∈ db.msgs, m.files = []) :
    ∀ (todo done : List Msg) (st : Db × Nat), (∀ m ∈ todo, m ∈ db.msgs ∧ m ∉ done) → todo.Nodup → Inv1 new db r0 done st →
      ∃ done', (∀ m, m ∈ done' ↔ m ∈ todo ∨ m ∈ done) ∧ Inv1 new db r0 done' (todo.foldl (upgradeMsg new target folder) st)
  | [], done, st, _, _, h => ⟨done, by simp, h⟩
  | m :: todo, done, st, hsub, hnd, h => by
    rw [List.nodup_cons] at hnd
    have hs := step1 (folder := folder) ht hn hfiles (hsub m (by simp)).1 (hsub m (by simp)).2 h
    obtain ⟨done', h1, h2⟩ := fold1 ht hn hfiles todo (m :: done) _ (fun x hx => ⟨(hsub x (List.mem_cons_of_mem _ hx)).1, by
      intro hh
      rcases List.mem_cons.mp hh with rfl | hh
      · exact hnd.1 hx
      · exact (hsub x (List.mem_cons_of_mem _ hx)).2 hh⟩) hnd.2 hs
    refine ⟨done', ?_, h2⟩
    intro x
    rw [h1]
    simp only [List.mem_cons]
    constructor
    · rintro (h | h | h) <;> simp [h]
    · rintro ((h | h) | h) <;> simp [h]

theorem nodup_of_map {l : List Msg} (h : (l.map (·.mid)).Nodup) : l.Nodup := by
  induction l with
  | nil => exact List.nodup_nil
  | cons a l ih =>
    rw [List.map_cons, List.nodup_cons] at h
    rw [List.nodup_cons]
    exact ⟨fun hh => h.1 (List.mem_map_of_mem hh), ih h.2⟩

/-- After the first phase. -/
theorem phase1_inv {new target : Features} (folder : Msg → Bool) {db : Db}
    (ht : target .lastMod = true) (hn : (db.msgs.map (·.mid)).Nodup) (hfiles : new .fileTerms = true → ∀ m ∈ db.msgs, m.files = []) :
    ∃ done, (perMessage new = true → ∀ m ∈ db.msgs, m.ghost = false → m ∈ done) ∧
      Inv1 new db (loadRevision db) done (phase1 new target folder db (db, loadRevision db)) := by
  have h0 : Inv1 new db (loadRevision db) [] (db, loadRevision db) :=
    ⟨⟨id, by simp, fun m _ => ⟨Same.refl m, by simp, by simp, by simp, by simp⟩⟩, rfl, Nat.le_refl _, rfl, rfl, rfl, [], by simp, by simp⟩
  unfold phase1
  split
  · obtain ⟨done, h1, h2⟩ := fold1 (folder := folder) ht hn hfiles (db.msgs.filter (fun m => !m.ghost)) [] _
      (fun m hm => ⟨(List.mem_filter.mp hm).1, by simp⟩) ((nodup_of_map hn).filter _) h0
    refine ⟨done, ?_, h2⟩
    intro _ m hm hg
    rw [h1]
    exact Or.inl (List.mem_filter.mpr ⟨hm, by simp [hg]⟩)
  · rename_i hp
    exact ⟨[], fun hh => absurd hh hp, h0⟩

/-! ## Directories -/

theorem find_map_ne (l : List (Str × Int)) (d d' : Str) (t : Int) (h : d' ≠ d) :
    (l.map (fun e => if e.1 = d then (d, t) else e)).find? (fun e => e.1 = d') = l.find? (fun e => e.1 = d') := by
  induction l with
  | nil => rfl
  | cons e l ih =>
    rw [List.map_cons, List.find?_cons, List.find?_cons, ih]
    by_cases h1 : e.1 = d
    · rw [if_pos h1]
      have h2 : ¬ d = d' := fun hh => h hh.symm
      have h3 : ¬ e.1 = d' := fun hh => h (hh ▸ h1)
      simp [h2, h3]
    · rw [if_neg h1]

theorem find_map_eq (l : List (Str × Int)) (d : Str) (t : Int) (h : ∃ e ∈ l, e.1 = d) :
    (l.map (fun e => if e.1 = d then (d, t) else e)).find? (fun e => e.1 = d) = some (d, t) := by
  induction l with
  | nil => obtain ⟨e, he, _⟩ := h; cases he
  | cons e l ih =>
    rw [List.map_cons, List.find?_cons]
    by_cases h1 : e.1 = d
    · rw [if_pos h1]; simp
    · rw [if_neg h1]
      simp only [h1, decide_false]
      apply ih
      obtain ⟨x, hx, hxd⟩ := h
      rcases List.mem_cons.mp hx with rfl | hx
      · exact absurd hxd h1
      · exact ⟨x, hx, hxd⟩

theorem addDir_has (dirs : List (Str × Int)) (d : Str) : ∃ e ∈ addDir dirs d, e.1 = d := by
  unfold addDir
  split
  · rename_i h
    obtain ⟨e, he, hd⟩ := List.any_eq_true.mp h
    exact ⟨e, he, of_decide_eq_true hd⟩
  · exact ⟨(d, 0), by simp, rfl⟩

theorem addDir_find (dirs : List (Str × Int)) (d d' : Str) (h : d' ≠ d) : (addDir dirs d).find? (fun e => e.1 = d') = dirs.find? (fun e => e.1 = d') := by
  unfold addDir
  split
  · rfl
  · rw [List.find?_append]
    have : ¬ d = d' := fun hh => h hh.symm
    simp [this]

theorem setMtime_find (dirs : List (Str × Int)) (d : Str) (t : Int) (d' : Str) :
    (setMtime dirs d t).find? (fun e => e.1 = d') = if d' = d then some (d, t) else dirs.find? (fun e => e.1 = d') := by
  unfold setMtime
  split
  · rename_i h
    subst h
    exact find_map_eq _ _ _ (addDir_has _ _)
  · rename_i h
    rw [find_map_ne _ _ _ _ h, addDir_find _ _ _ h]

theorem fold2_find : ∀ (l : List (Str × Int)) (st : Db × Nat) (d : Str),
    (l.foldl upgradeStamp st).1.dirs.find? (fun e => e.1 = d) =
      match l.reverse.find? (fun e => e.1 = d) with
      | some e => some e
      | none => st.1.dirs.find? (fun e => e.1 = d)
  | [], st, d => rfl
  | e :: l, st, d => by
    rw [List.foldl_cons, fold2_find l, List.reverse_cons, List.find?_append]
    cases hl : l.reverse.find? (fun e => e.1 = d) with
    | some x => rfl
    | none =>
      simp only [Option.none_or]
      show (setMtime st.1.dirs e.1 e.2).find? _ = _
      rw [setMtime_find]
      by_cases h : d = e.1
      · rw [if_pos h]
        simp [h]
      · rw [if_neg h]
        have : ¬ e.1 = d := fun hh => h hh.symm
        simp [this]

theorem fold2_rest : ∀ (l : List (Str × Int)) (st : Db × Nat), (l.foldl upgradeStamp st).2 = st.2 ∧ (l.foldl upgradeStamp st).1.msgs = st.1.msgs ∧
    (l.foldl upgradeStamp st).1.threadIds = st.1.threadIds ∧ (l.foldl upgradeStamp st).1.lastThread = st.1.lastThread ∧
    ∀ e, e ∈ (l.foldl upgradeStamp st).1.stamps ↔ e ∈ st.1.stamps ∧ e ∉ l
  | [], st => by simp
  | d :: l, st => by
    rw [List.foldl_cons]
    obtain ⟨h1, h2, h3, h4, h5⟩ := fold2_rest l (upgradeStamp st d)
    refine ⟨h1, h2, h3, h4, ?_⟩
    intro e
    rw [h5]
    show e ∈ st.1.stamps.filter _ ∧ _ ↔ _
    rw [List.mem_filter]
    simp only [List.mem_cons, not_or]
    have : (decide (e.1 ≠ d.1 ∨ e.2 ≠ d.2) = true) ↔ ¬ e = d := by
      rw [decide_eq_true_iff]
      constructor
      · rintro h rfl
        simp at h
      · intro h
        by_cases h1 : e.1 = d.1
        · right
          intro h2
          exact h (Prod.ext h1 h2)
        · exact Or.inl h1
    rw [this]
    constructor
    · rintro ⟨⟨a, b⟩, c⟩; exact ⟨a, b, c⟩
    · rintro ⟨a, b, c⟩; exact ⟨⟨a, b⟩, c⟩

/-! ## Ghosts -/

theorem find_filter_ne (l : List (Str × Str)) (a mid : Str) (h : mid ≠ a) : (l.filter (fun x => decide (x.1 ≠ a))).find? (fun e => decide (e.1 = mid)) = l.find? (fun e => decide (e.1 = mid)) := by
  induction l with
  | nil => rfl
  | cons e l ih =>
    by_cases h1 : e.1 = a
    · rw [List.filter_cons_of_neg (by simp [h1]), List.find?_cons, ih]
      have : ¬ e.1 = mid := fun hh => h (hh ▸ h1)
      simp [this]
    · rw [List.filter_cons_of_pos (by simp [h1]), List.find?_cons, List.find?_cons, ih]

/-- What holds in the third phase, with the thread ids that are left. -/
structure Inv3 (db1 : Db) (r1 : Nat) (todo : List (Str × Str)) (st : Db × Nat) : Prop where
  thread : ∀ mid, threadOf st.1 mid = threadOf db1 mid
  msgs : ∃ new, st.1.msgs = db1.msgs ++ new ∧ ∀ m ∈ new, m.ghost = true ∧ m.data = [] ∧ r1 < m.lastMod
  load : loadRevision st.1 = st.2
  mono : r1 ≤ st.2
  left : st.1.threadIds = todo
  lastThread : st.1.lastThread = db1.lastThread
  dirs : st.1.dirs = db1.dirs
  stamps : st.1.stamps = db1.stamps

theorem step3 {target : Features} {db1 : Db} {r1 : Nat} {e : Str × Str} {todo : List (Str × Str)} {st : Db × Nat} (ht : target .lastMod = true)
    (hnd : ((e :: todo).map (·.1)).Nodup) (h : Inv3 db1 r1 (e :: todo) st) : Inv3 db1 r1 todo (upgradeThread target st e) := by
  obtain ⟨h1, ⟨new, h2, h3⟩, hl, hmono, h4, h5, h6, h7⟩ := h
  rw [List.map_cons, List.nodup_cons] at hnd
  have hfil : st.1.threadIds.filter (fun x => decide (x.1 ≠ e.1)) = todo := by
    rw [h4, List.filter_cons_of_neg (by simp)]
    apply List.filter_eq_self.mpr
    intro a ha
    simp only [decide_eq_true_eq]
    intro hh
    exact hnd.1 (hh ▸ List.mem_map_of_mem ha)
  have hfind : ∀ mid, mid ≠ e.1 → todo.find? (fun x => decide (x.1 = mid)) = st.1.threadIds.find? (fun x => decide (x.1 = mid)) := by
    intro mid hm
    rw [← hfil, find_filter_ne _ _ _ hm]
  unfold upgradeThread
  simp only [ht, if_true]
  rw [hfil]
  by_cases hany : st.1.msgs.any (fun m => m.mid = e.1) = true
  · rw [if_pos hany]
    refine ⟨?_, ⟨new, h2, h3⟩, hl, hmono, rfl, h5, h6, h7⟩
    intro mid
    rw [← h1 mid]
    unfold threadOf
    by_cases hm : mid = e.1
    · subst hm
      cases hf : st.1.msgs.find? (fun m => decide (m.mid = e.1)) with
      | some m => rfl
      | none =>
        obtain ⟨m, hm, hme⟩ := List.any_eq_true.mp hany
        exact absurd hme (List.find?_eq_none.mp hf m hm)
    · simp only
      rw [hfind mid hm]
  · rw [if_neg hany]
    have hnone : ∀ m ∈ st.1.msgs, m.mid ≠ e.1 := by
      intro m hm hme
      exact hany (List.any_eq_true.mpr ⟨m, hm, by simp [hme]⟩)
    refine ⟨?_, ⟨new ++ [⟨e.1, e.2, true, [], [], st.2 + 1⟩], by rw [h2]; simp, ?_⟩, ?_, by omega, rfl, h5, h6, h7⟩
    · intro mid
      rw [← h1 mid]
      unfold threadOf
      simp only
      rw [List.find?_append]
      cases hf : st.1.msgs.find? (fun m => decide (m.mid = mid)) with
      | some m => rfl
      | none =>
        simp only [Option.none_or]
        by_cases hm : mid = e.1
        · subst hm
          rw [h4]
          simp
        · rw [hfind mid hm]
          have : ¬ e.1 = mid := fun hh => hm hh.symm
          simp [this]
    · intro m hm
      rcases List.mem_append.mp hm with hm | hm
      · exact h3 m hm
      · rw [List.mem_singleton.mp hm]
        exact ⟨rfl, rfl, by show r1 < st.2 + 1; omega⟩
    · show (List.map (fun m : Msg => m.lastMod) _).foldl max 0 = st.2 + 1
      apply foldl_max_eq
      · intro y hy
        obtain ⟨z, hz, rfl⟩ := List.mem_map.mp hy
        rcases List.mem_append.mp hz with hz | hz
        · have : z.lastMod ≤ loadRevision st.1 := le_foldl_max _ _ (List.mem_map_of_mem hz)
          omega
        · rw [List.mem_singleton.mp hz]
          exact Nat.le_refl _
      · exact List.mem_map.mpr ⟨⟨e.1, e.2, true, [], [], st.2 + 1⟩, by simp, rfl⟩

theorem fold3 {target : Features} {db1 : Db} {r1 : Nat} (ht : target .lastMod = true) : ∀ (todo : List (Str × Str)) (st : Db × Nat),
    (todo.map (·.1)).Nodup → Inv3 db1 r1 todo st → Inv3 db1 r1 [] (todo.foldl (upgradeThread target) st)
  | [], st, _, h => h
  | e :: todo, st, hnd, h => fold3 ht todo _ (by rw [List.map_cons, List.nodup_cons] at hnd; exact hnd.2) (step3 ht hnd h)

end Notmuch.Open
