import Verif.Proofs.OpenUpgrade

/-! # C48: versions, features, upgrading, thread ids across openings -/

namespace Notmuch.Props

open Notmuch Notmuch.Open

/-- **C48 (the features of a database).**  For every string: a feature is on exactly if a line declares it; the database is refused exactly if a line
declares a feature that this version does not know and that the mode requires; and the message then lists these. -/
theorem C48_features (s : Str) (writable : Bool) :
    (∀ x, (parseFeatures s 3 (modeChar writable)).1 x = true ↔ ∃ fl, Declares s (name x) fl) ∧
    ((parseFeatures s 3 (modeChar writable)).2 = none ↔ ¬ ∃ n fl, Declares s n fl ∧ Unknown n ∧ modeChar writable ∈ fl) ∧
    ((∃ n fl, Declares s n fl ∧ Unknown n ∧ modeChar writable ∈ fl) → (∀ fl, ¬ Declares s [] fl) →
      ∃ names : List Str, (∀ n, n ∈ names ↔ ∃ fl, Declares s n fl ∧ Unknown n ∧ modeChar writable ∈ fl) ∧
        (parseFeatures s 3 (modeChar writable)).2 = some (commas names)) := by
  have hm : modeChar writable ≠ 9 := by cases writable <;> decide
  have hp : parseFeatures s 3 (modeChar writable) = (lines s).foldl (parseLine (modeChar writable)) (fun _ => false, none) := by
    unfold parseFeatures
    simp only [show ((3 : Nat) = 0) = False by simp, show ((3 : Nat) = 1) = False by simp, show ((3 : Nat) = 2) = False by simp, if_false]
    exact parseLoop_eq _ _ _ (Nat.le_refl _) _
  rw [hp]
  refine ⟨?_, ?_, ?_⟩
  · intro x
    rw [fold_features]
    constructor
    · rintro (h | ⟨fl, h⟩)
      · cases h
      · exact ⟨fl, (name_notab x).1, h⟩
    · rintro ⟨fl, _, h⟩
      exact Or.inr ⟨fl, h⟩
  · rw [fold_incompat, push_isSome]
    constructor
    · rintro ⟨_, h⟩ ⟨n, hn⟩
      have := (mem_required _ hm s n).mpr hn
      rw [h] at this
      cases this
    · intro h
      refine ⟨rfl, ?_⟩
      cases e : required (modeChar writable) (lines s) with
      | nil => rfl
      | cons n l => exact absurd ⟨n, (mem_required _ hm s n).mp (by rw [e]; simp)⟩ h
  · rintro ⟨n, hn⟩ hne
    refine ⟨required (modeChar writable) (lines s), fun n => mem_required _ hm s n, ?_⟩
    rw [fold_incompat]
    apply push_commas
    · intro n hn he
      obtain ⟨fl, h1, _⟩ := (mem_required _ hm s n).mp hn
      rw [he] at h1
      exact hne fl h1
    · intro he
      have := (mem_required _ hm s n).mpr hn
      rw [he] at this
      cases this

/-- **C48 (features round-trip).**  What is written for a set of features is read back as this set, and nothing is missing. -/
theorem C48_roundtrip (f : Features) (writable : Bool) : parseFeatures (printFeatures f) 3 (modeChar writable) = (f, none) := by
  unfold parseFeatures
  simp only [show ((3 : Nat) = 0) = False by simp, show ((3 : Nat) = 1) = False by simp, show ((3 : Nat) = 2) = False by simp, if_false]
  exact parseLoop_print f _

/-- **C48 (what can be opened).** -/
theorem C48_open (db : Db) (v t : Nat) (writable : Bool) (hv : db.version = dec v ∨ (db.version = [] ∧ v = 0)) (hv32 : v < 2 ^ 32)
    (ht : loadThread db.lastThread = some t) :
    (3 < v → openDb db writable = .newerVersion) ∧
    (v ≤ 2 → ∃ h, openDb db writable = .ok h ∧ h.writable = writable ∧ h.lastThread = t ∧
      (∀ x, h.features x = true ↔ (1 ≤ v ∧ (x = .fileTerms ∨ x = .directoryDocs)) ∨ (v = 2 ∧ x = .boolFolder))) ∧
    (v = 3 → (∃ n fl, Declares db.features n fl ∧ Unknown n ∧ modeChar writable ∈ fl) → ∃ s, openDb db writable = .incompatible s) ∧
    (v = 3 → (¬ ∃ n fl, Declares db.features n fl ∧ Unknown n ∧ modeChar writable ∈ fl) →
      ∃ h, openDb db writable = .ok h ∧ h.writable = writable ∧ h.lastThread = t ∧ (∀ x, h.features x = true ↔ ∃ fl, Declares db.features (name x) fl) ∧
        (∀ m ∈ db.msgs, m.lastMod ≤ h.revision)) := by
  have hver : getVersion db.version = some v := by
    rcases hv with hv | ⟨hv, rfl⟩
    · rw [hv]; exact getVersion_dec v hv32
    · rw [hv]; rfl
  have hrev : ∀ m ∈ db.msgs, m.lastMod ≤ loadRevision db := fun m hm => le_foldl_max _ _ (List.mem_map_of_mem hm)
  unfold openDb
  rw [hver]
  simp only
  refine ⟨?_, ?_, ?_, ?_⟩
  · intro h
    rw [if_pos (by unfold currentVersion; omega)]
  · intro h
    rw [if_neg (by unfold currentVersion; omega)]
    rcases (by omega : v = 0 ∨ v = 1 ∨ v = 2) with rfl | rfl | rfl
    · simp only [parseFeatures, if_true, ht]
      refine ⟨_, rfl, rfl, rfl, ?_⟩
      intro x
      show featuresV0 x = true ↔ _
      clear hrev
      cases x <;> decide
    · simp only [parseFeatures, if_true, ht, show ((1 : Nat) = 0) = False by simp, if_false]
      refine ⟨_, rfl, rfl, rfl, ?_⟩
      intro x
      show featuresV1 x = true ↔ _
      clear hrev
      cases x <;> decide
    · simp only [parseFeatures, if_true, ht, show ((2 : Nat) = 0) = False by simp, show ((2 : Nat) = 1) = False by simp, if_false]
      refine ⟨_, rfl, rfl, rfl, ?_⟩
      intro x
      show featuresV2 x = true ↔ _
      clear hrev
      cases x <;> decide
  · rintro rfl h
    rw [if_neg (by decide)]
    have hi := (C48_features db.features writable).2.1
    unfold modeChar at hi h
    cases e : (parseFeatures db.features 3 (if writable then 119 else 114)).2 with
    | none => exact absurd h (hi.mp e)
    | some s => exact ⟨s, rfl⟩
  · rintro rfl h
    rw [if_neg (by decide)]
    obtain ⟨h1, hi, _⟩ := C48_features db.features writable
    unfold modeChar at h1 hi h
    rw [hi.mpr h, ht]
    exact ⟨_, rfl, rfl, rfl, h1, hrev⟩

/-- **C48 (what others may do).**  Every feature that a database has is declared with a flag that keeps programs that do not know it from writing, and those without
which files, directories or folders are not found also with one that keeps them from reading. -/
theorem C48_flags (f : Features) (x : Feature) (hx : f x = true) :
    ∃ fl, Declares (printFeatures f) (name x) fl ∧ modeChar true ∈ fl ∧ (modeChar false ∈ fl ↔ x = .fileTerms ∨ x = .directoryDocs ∨ x = .boolFolder) := by
  refine ⟨flags x, ⟨by cases x <;> decide +kernel, ?_⟩, by cases x <;> decide +kernel, by cases x <;> decide +kernel⟩
  rw [lines_printFeatures]
  refine List.mem_append_left _ (List.mem_map.2 ⟨x, List.mem_filter.2 ⟨by cases x <;> decide, hx⟩, ?_⟩)
  cases x <;> decide +kernel

/-- **C48 (a version that is not a number).**  A database whose version has other text after its digits is not opened. -/
theorem C48_version_text (db : Db) (v : Nat) (c : UInt8) (r : Str) (hc : isDigit c = false) (hv : db.version = dec v ++ c :: r) (writable : Bool) :
    openDb db writable = .internalError := by
  have h : getVersion db.version = none := by
    rw [hv]
    have hd := dec_digits v
    unfold getVersion strtoul10
    cases e : dec v with
    | nil => exact absurd e (dec_ne_nil v)
    | cons d ds =>
      rw [e] at hd
      have hdd := hd d List.mem_cons_self
      have hs : skipSpace (d :: ds ++ c :: r) = d :: ds ++ c :: r := by
        unfold skipSpace
        rw [List.cons_append, List.dropWhile_cons_of_neg]
        have key : ∀ d : UInt8, isDigit d = true → ¬ isSpace d = true := by apply forall_byte; decide +kernel
        exact key d hdd
      have hsg : sign (d :: ds ++ c :: r) = (false, d :: ds ++ c :: r) := by
        have h1 : d ≠ 45 := by rintro rfl; revert hdd; decide
        have h2 : d ≠ 43 := by rintro rfl; revert hdd; decide
        rw [List.cons_append]
        unfold sign
        split
        · rename_i hh; simp at hh; exact absurd hh.1 h1
        · rename_i hh; simp at hh; exact absurd hh.1 h2
        · rfl
      rw [hs, hsg]
      have ht : (d :: ds ++ c :: r).takeWhile isDigit ≠ [] := by
        rw [List.cons_append, List.takeWhile_cons_of_pos hdd]; simp
      have hr : (d :: ds ++ c :: r).dropWhile isDigit = c :: r := by
        rw [List.dropWhile_append_of_pos (fun a ha => hd a ha), List.dropWhile_cons_of_neg (by simp [hc])]
      rw [if_neg (by simp)]
      simp only [ht, if_false, hr]
      simp
  unfold openDb
  rw [h]

theorem openOk_iff {db : Db} {w : Bool} {h : Handle} (hh : openDb db w = .ok h) :
    ∃ v, getVersion db.version = some v ∧ v ≤ 3 ∧ (parseFeatures db.features v (modeChar w)).2 = none ∧ loadThread db.lastThread = some h.lastThread ∧
      h.features = (parseFeatures db.features v (modeChar w)).1 ∧ h.revision = loadRevision db ∧ h.writable = w := by
  unfold openDb at hh
  split at hh
  · cases hh
  · rename_i v hv
    split at hh
    · cases hh
    · rename_i hle
      split at hh
      · cases hh
      · rename_i hinc
        split at hh
        · cases hh
        · rename_i t ht
          injection hh with hh
          subst hh
          exact ⟨v, hv, by unfold currentVersion at hle; omega, hinc, ht, rfl, rfl, rfl⟩

/-- **C48 (upgrading).**  After an upgrade the database on disk opens with the features it had and all current ones, needs no upgrade, and: every message id has the
thread it had, also that of a missing message; every message has the file names it had, and the other documents are ghosts; every directory has the modification time
it had, and directories that were not known have none (0); if modification tracking is new then every message has been given a revision; and the handle agrees. -/
theorem C48_upgrade (folder : Msg → Bool) (db : Db) (h : Handle) (ho : openDb db true = .ok h) (hleg : Legacy h.features db) (hneed : needsUpgrade h db = some true) :
    (upgrade folder h db .none).1 = .success ∧
    ∃ db' h', diskAfter db (upgrade folder h db .none) none = db' ∧ openDb db' true = .ok h' ∧
      h'.features = (upgrade folder h db .none).2.1.features ∧ h'.revision = (upgrade folder h db .none).2.1.revision ∧ h'.lastThread = h.lastThread ∧
      (∀ x, h'.features x = true ↔ h.features x = true ∨ featuresCurrent x = true) ∧
      needsUpgrade h' db' = some false ∧
      (∀ mid, threadOf db' mid = threadOf db mid) ∧ db'.threadIds = [] ∧
      (∀ m ∈ db.msgs, ∃ m' ∈ db'.msgs, m'.mid = m.mid ∧ m'.tid = m.tid ∧ m'.ghost = m.ghost ∧ fileNames m' = fileNames m) ∧
      (∀ m' ∈ db'.msgs, (∃ m ∈ db.msgs, m.mid = m'.mid) ∨ m'.ghost = true) ∧
      (∀ m' ∈ db'.msgs, m'.ghost = false → m'.data = []) ∧
      (∀ d t, mtimeOf db d = some t → mtimeOf db' d = some t) ∧
      (∀ d, mtimeOf db d = none → mtimeOf db' d = none ∨ mtimeOf db' d = some 0) ∧ db'.stamps = [] ∧
      (h.features .lastMod = false → ∀ m' ∈ db'.msgs, m'.ghost = false → h.revision < m'.lastMod) := by
  obtain ⟨v, hv, hv3, hinc, hthr, hfeat, hrev, hw⟩ := openOk_iff ho
  generalize htarget : (fun x => h.features x || featuresCurrent x : Features) = target
  generalize hnew : (fun x => featuresCurrent x && !h.features x : Features) = new
  have htl : target .lastMod = true := by rw [← htarget]; simp [featuresCurrent]
  have hup : upgrade folder h db .none = (.success, { h with features := target, revision := (runSteps (upgradeSteps new target folder db) (db, h.revision)).2 },
      scan (db, h.revision) (upgradeSteps new target folder db)) := by
    unfold upgrade
    rw [if_neg (by rw [hw]; decide), hneed]
    simp only
    rw [htarget, hnew]
  have hnewf : ∀ x, featuresCurrent x = true → (new x = true ↔ h.features x = false) := by
    intro x hx
    rw [← hnew]
    simp [hx]
  have hfiles : new .fileTerms = true → ∀ m ∈ db.msgs, m.files = [] := fun hn => hleg.files ((hnewf _ rfl).mp hn)
  obtain ⟨done, hdone, hI1⟩ := phase1_inv folder htl hleg.mids hfiles (new := new)
  rw [hup]
  refine ⟨rfl, ?_⟩
  have hdisk : diskAfter db (Status.success, ({ h with features := target, revision := (runSteps (upgradeSteps new target folder db) (db, h.revision)).2 } : Handle),
      scan (db, h.revision) (upgradeSteps new target folder db)) none = (runSteps (upgradeSteps new target folder db) (db, h.revision)).1 := by
    unfold diskAfter
    simp only [if_true]
    rw [scan_last]
    rfl
  rw [hdisk, run_upgrade, hrev]
  simp only
  generalize hs1 : phase1 new target folder db (db, loadRevision db) = st1 at *
  generalize hs2 : phase2 new db st1 = st2
  generalize hs3 : phase3 new target db st2 = st3
  obtain ⟨⟨up, hup1, hsame⟩, hl1, hm1, a1, a2, a3, ex, a4, a5⟩ := hI1
  -- second phase
  have h2 : st2.2 = st1.2 ∧ st2.1.msgs = st1.1.msgs ∧ st2.1.threadIds = st1.1.threadIds ∧ st2.1.lastThread = st1.1.lastThread ∧ st2.1.stamps = [] := by
    subst hs2
    unfold phase2
    split
    · obtain ⟨b1, b2, b3, b4, b5⟩ := fold2_rest db.stamps st1
      refine ⟨b1, b2, b3, b4, ?_⟩
      apply List.eq_nil_iff_forall_not_mem.mpr
      intro e he
      rw [b5, a3] at he
      exact he.2 he.1
    · rename_i hn
      refine ⟨rfl, rfl, rfl, rfl, ?_⟩
      rw [a3]
      apply hleg.noStamps
      cases hf : h.features .directoryDocs with
      | true => rfl
      | false => exact absurd ((hnewf .directoryDocs rfl).mpr hf) hn
  obtain ⟨b1, b2, b3, b4, b5⟩ := h2
  -- third phase
  have h3 : Inv3 st2.1 st2.2 [] st3 := by
    have hl2 : loadRevision st2.1 = st2.2 := by
      unfold loadRevision
      rw [b2, b1]
      exact hl1
    have h0 : ∀ todo, st2.1.threadIds = todo → Inv3 st2.1 st2.2 todo st2 := fun todo ht =>
      ⟨fun _ => rfl, ⟨[], by simp, by simp⟩, hl2, Nat.le_refl _, ht, rfl, rfl, rfl⟩
    subst hs3
    unfold phase3
    split
    · exact fold3 htl _ _ hleg.tids (h0 _ (b3.trans a2))
    · rename_i hn
      apply h0
      rw [b3, a2]
      apply hleg.ghosts
      cases hf : h.features .ghosts with
      | true => rfl
      | false => exact absurd ((hnewf .ghosts rfl).mpr hf) hn
  obtain ⟨c1, ⟨newm, c2, c3⟩, c4, c5, c6, c7, c8, c9⟩ := h3
  -- the new database
  have hmsgs : st3.1.msgs = db.msgs.map up ++ newm := by rw [c2, b2, hup1]
  have hthread3 : loadThread st3.1.lastThread = some h.lastThread := by rw [c7, b4, a1]; exact hthr
  have hopen : openDb (upgradeMeta target st3).1 true = .ok ⟨target, h.lastThread, st3.2, true⟩ := by
    unfold openDb
    have hv' : getVersion (upgradeMeta target st3).1.version = some 3 := getVersion_three
    rw [hv']
    simp only
    rw [if_neg (by decide)]
    have hp : parseFeatures (upgradeMeta target st3).1.features 3 119 = (target, none) := C48_roundtrip target true
    simp only [if_true]
    rw [hp]
    simp only
    have ht' : loadThread (upgradeMeta target st3).1.lastThread = some h.lastThread := hthread3
    rw [ht']
    have hr' : loadRevision (upgradeMeta target st3).1 = st3.2 := c4
    rw [hr']
  have hmt : ∀ d, mtimeOf (upgradeMeta target st3).1 d = (st2.1.dirs.find? (fun e => decide (e.1 = d))).map (·.2) := by
    intro d
    unfold mtimeOf
    have h1 : (upgradeMeta target st3).1.dirs = st2.1.dirs := c8
    have h2 : (upgradeMeta target st3).1.stamps = [] := c9.trans b5
    rw [h1, h2]
    cases st2.1.dirs.find? (fun e => decide (e.1 = d)) <;> rfl
  have hfind : ∀ d, st2.1.dirs.find? (fun e => decide (e.1 = d)) =
      if new .directoryDocs = true then (match db.stamps.reverse.find? (fun e => decide (e.1 = d)) with
        | some e => some e
        | none => st1.1.dirs.find? (fun e => decide (e.1 = d)))
      else st1.1.dirs.find? (fun e => decide (e.1 = d)) := by
    intro d
    subst hs2
    unfold phase2
    split
    · exact fold2_find _ _ _
    · rfl
  refine ⟨_, _, rfl, hopen, rfl, rfl, rfl, ?_, ?_, ?_, c6, ?_, ?_, ?_, ?_, ?_, c9.trans b5, ?_⟩
  · intro x
    show target x = true ↔ _
    rw [← htarget]
    simp
  · unfold needsUpgrade
    rw [if_neg (by simp)]
    have : missing featuresCurrent target = false := by
      unfold missing
      rw [List.any_eq_false]
      intro x _
      rw [← htarget]
      simp
      intro hx1 _
      exact hx1
    rw [if_neg (by rw [this]; decide)]
    have hv' : getVersion (upgradeMeta target st3).1.version = some 3 := getVersion_three
    rw [hv']
    rfl
  · intro mid
    show threadOf st3.1 mid = _
    rw [c1]
    unfold threadOf
    rw [b2, b3, hup1, a2]
    have : (db.msgs.map up).find? (fun m => decide (m.mid = mid)) = (db.msgs.find? (fun m => decide (m.mid = mid))).map up := by
      rw [List.find?_map]
      congr 1
      have : ∀ l : List Msg, (∀ m ∈ l, m ∈ db.msgs) → l.find? ((fun m => decide (m.mid = mid)) ∘ up) = l.find? (fun m => decide (m.mid = mid)) := by
        intro l
        induction l with
        | nil => intro _; rfl
        | cons a l ih =>
          intro hl
          rw [List.find?_cons, List.find?_cons, ih (fun m hm => hl m (List.mem_cons_of_mem _ hm))]
          simp only [Function.comp, (hsame a (hl a (by simp))).1.mid]
      exact this _ (fun _ hm => hm)
    rw [this]
    cases e : db.msgs.find? (fun m => decide (m.mid = mid)) with
    | none => rfl
    | some m => exact congrArg some (hsame m (List.mem_of_find?_eq_some e)).1.tid
  · intro m hm
    obtain ⟨s, _⟩ := hsame m hm
    refine ⟨up m, ?_, s.mid, s.tid, s.ghost, s.names⟩
    show up m ∈ st3.1.msgs
    rw [hmsgs]
    exact List.mem_append_left _ (List.mem_map_of_mem hm)
  · intro m' hm'
    have hm' : m' ∈ st3.1.msgs := hm'
    rw [hmsgs] at hm'
    rcases List.mem_append.mp hm' with hm' | hm'
    · obtain ⟨m, hm, rfl⟩ := List.mem_map.mp hm'
      exact Or.inl ⟨m, hm, (hsame m hm).1.mid.symm⟩
    · exact Or.inr (c3 m' hm').1
  · intro m' hm' hg
    have hm' : m' ∈ st3.1.msgs := hm'
    rw [hmsgs] at hm'
    rcases List.mem_append.mp hm' with hm' | hm'
    · obtain ⟨m, hm, rfl⟩ := List.mem_map.mp hm'
      obtain ⟨s1, s2, s3, s4, s5⟩ := hsame m hm
      have hg' : m.ghost = false := by rw [← s1.ghost]; exact hg
      cases hf : h.features .fileTerms with
      | false =>
        have hn := (hnewf .fileTerms rfl).mpr hf
        exact s4 (hdone (by unfold perMessage; rw [hn]; rfl) m hm hg') hn
      | true =>
        have hnf : new .fileTerms = false := by
          cases e : new .fileTerms with
          | false => rfl
          | true => rw [(hnewf .fileTerms rfl).mp e] at hf; cases hf
        rw [s5 hnf]
        exact hleg.noFiles hf m hm
    · rw [(c3 m' hm').1] at hg; cases hg
  · intro d t hd
    rw [hmt]
    unfold mtimeOf at hd
    rw [hfind d]
    cases hf : h.features .directoryDocs with
    | false =>
      rw [hleg.dirs hf] at hd
      rw [if_pos ((hnewf .directoryDocs rfl).mpr hf)]
      simp only [List.find?_nil] at hd
      cases e : db.stamps.reverse.find? (fun e => decide (e.1 = d)) with
      | none => rw [e] at hd; cases hd
      | some e' => rw [e] at hd; exact hd
    | true =>
      rw [hleg.noStamps hf] at hd
      rw [if_neg (fun hh => by rw [(hnewf .directoryDocs rfl).mp hh] at hf; cases hf), a4, List.find?_append]
      cases e : db.dirs.find? (fun e => decide (e.1 = d)) with
      | none => rw [e] at hd; cases hd
      | some e' => rw [e] at hd; exact hd
  · intro d hd
    rw [hmt, hfind d]
    have hex : ∀ e, ex.find? (fun e => decide (e.1 = d)) = e → e.map (·.2) = none ∨ e.map (·.2) = some 0 := by
      intro e he
      cases e with
      | none => exact Or.inl rfl
      | some e => exact Or.inr (congrArg some (a5 e (List.mem_of_find?_eq_some he)))
    unfold mtimeOf at hd
    cases e1 : db.dirs.find? (fun e => decide (e.1 = d)) with
    | some e' => rw [e1] at hd; cases hd
    | none =>
      rw [e1] at hd
      have e2 : db.stamps.reverse.find? (fun e => decide (e.1 = d)) = none := by
        cases e2 : db.stamps.reverse.find? (fun e => decide (e.1 = d)) with
        | none => rfl
        | some e' => rw [e2] at hd; cases hd
      rw [a4, List.find?_append, e1, e2]
      simp only [Option.none_or]
      split
      · exact hex _ rfl
      · exact hex _ rfl
  · intro hf m' hm' hg
    have hn := (hnewf .lastMod rfl).mpr hf
    have hm' : m' ∈ st3.1.msgs := hm'
    rw [hmsgs] at hm'
    rcases List.mem_append.mp hm' with hm' | hm'
    · obtain ⟨m, hm, rfl⟩ := List.mem_map.mp hm'
      obtain ⟨s1, s2, s3, s4, s5⟩ := hsame m hm
      have hg' : m.ghost = false := by rw [← s1.ghost]; exact hg
      exact s2 (hdone (by unfold perMessage; rw [hn]; simp) m hm hg') hn
    · rw [(c3 m' hm').1] at hg; cases hg

/-- **C48 (an upgrade that does not finish).**  If it fails, or the process dies after any number of writes, the database on disk is what it was. -/
theorem C48_upgrade_atomic (folder : Msg → Bool) (db : Db) (h : Handle) (fault : Fault) :
    ((upgrade folder h db fault).1 ≠ .success → diskAfter db (upgrade folder h db fault) none = db) ∧
    ∀ k, diskAfter db (upgrade folder h db fault) (some k) = db := by
  refine ⟨?_, fun k => rfl⟩
  intro hs
  unfold diskAfter
  simp only
  rw [if_neg hs]

/-- A database of version 2 with a message that is missing. -/
def legacyDb : Db :=
  { version := bs "2", features := [], lastThread := hex16 7,
    msgs := [⟨bs "a", hex16 6, false, [], [bs "cur/1"], 0⟩],
    threadIds := [(bs "b", hex16 7)], stamps := [], dirs := [([], 0), (bs "cur", 5)] }

/-- The handle that opening it gives. -/
def legacyHandle : Handle := ⟨featuresV2, 7, 0, true⟩

/-- **C48 (counterexample: trying again).**  A program whose upgrade failed and that tries again with the same handle is told that the upgrade succeeded, the
database says that it has ghost messages, but the thread of the missing message was not converted: its document does not exist. -/
theorem C48_counterexample_retry :
    ∃ h, openDb legacyDb true = .ok h ∧ Legacy h.features legacyDb ∧
      (upgrade (fun _ => true) h legacyDb (.later 1)).1 = .failed ∧
      (upgrade (fun _ => true) (upgrade (fun _ => true) h legacyDb (.later 1)).2.1 legacyDb .none).1 = .success ∧
      ∃ db' h', diskAfter legacyDb (upgrade (fun _ => true) (upgrade (fun _ => true) h legacyDb (.later 1)).2.1 legacyDb .none) none = db' ∧
        openDb db' true = .ok h' ∧ h'.features .ghosts = true ∧ needsUpgrade h' db' = some false ∧
        threadOf legacyDb (bs "b") = some (hex16 7) ∧ db'.msgs.find? (fun m => m.mid = bs "b") = none := by
  have ho : openDb legacyDb true = .ok legacyHandle := by
    unfold openDb
    rw [show getVersion legacyDb.version = some 2 by decide +kernel]
    simp only
    rw [if_neg (by decide)]
    rw [show loadThread legacyDb.lastThread = some 7 by decide +kernel]
    have : loadRevision legacyDb = 0 := by decide +kernel
    rw [this]
    rfl
  refine ⟨legacyHandle, ho, ?_, by decide +kernel, by decide +kernel, ?_⟩
  · refine ⟨?_, ?_, ?_, ?_, ?_, ?_, ?_, ?_⟩ <;> decide +kernel
  · refine ⟨{ legacyDb with version := bs "3", features := printFeatures featuresCurrent }, ⟨featuresCurrent, 7, 0, true⟩, by decide +kernel, ?_, rfl, ?_,
      by decide +kernel, by decide +kernel⟩
    · unfold openDb
      rw [show getVersion (bs "3") = some 3 from getVersion_three]
      simp only
      rw [if_neg (by decide)]
      simp only [if_true]
      rw [show parseFeatures (printFeatures featuresCurrent) 3 119 = (featuresCurrent, none) from C48_roundtrip _ true]
      simp only
      rw [show loadThread legacyDb.lastThread = some 7 by decide +kernel]
      have : loadRevision { legacyDb with version := bs "3", features := printFeatures featuresCurrent } = 0 := by decide +kernel
      rw [this]
    · decide +kernel

/-! ## Thread ids -/

theorem open_lastThread (db : Db) (h : Handle) (ho : openDb db true = .ok h) (n : Nat) (hn : n < 2 ^ 64) :
    ∃ h', openDb { db with lastThread := hex16 n } true = .ok h' ∧ h'.lastThread = n := by
  obtain ⟨v, hv, hv3, hinc, _⟩ := openOk_iff ho
  unfold openDb
  simp only [hv]
  rw [if_neg (by unfold currentVersion; omega)]
  have hinc : (parseFeatures db.features v 119).2 = none := hinc
  simp only [if_true]
  rw [hinc, loadThread_hex16 n hn]
  exact ⟨_, rfl, rfl⟩

/-- Thread ids in use are different, and were given out. -/
def Given (k : Nat) (used : List Str) : Prop := used.Nodup ∧ ∀ t ∈ used, ∃ i, i ≤ k ∧ t = hex16 i

theorem Given.new {k : Nat} {used : List Str} (h : Given k used) (hk : k + 1 < 2 ^ 64) : Given (k + 1) (used ++ [hex16 (k + 1)]) := by
  refine ⟨?_, ?_⟩
  · rw [List.nodup_append]
    refine ⟨h.1, List.nodup_cons.mpr ⟨by simp, List.nodup_nil⟩, ?_⟩
    rintro a ha b hb rfl
    rw [List.mem_singleton.mp hb] at ha
    obtain ⟨i, hi, e⟩ := h.2 _ ha
    have := hex16_inj hk (by omega) e
    omega
  · intro t ht
    rcases List.mem_append.mp ht with ht | ht
    · obtain ⟨i, hi, e⟩ := h.2 t ht
      exact ⟨i, by omega, e⟩
    · exact ⟨k + 1, Nat.le_refl _, List.mem_singleton.mp ht⟩

/-- **C48 (thread ids are not used twice).**  Start from a database on disk that opens, with thread ids that were given out before.  Whatever happens after that — new
threads, commits, crashes, opening again — as long as fewer than 2^64 threads are made: opening always succeeds, and no thread id is ever given to two threads
that are in the database at the same time. -/
theorem C48_thread_ids (db : Db) (h : Handle) (used : List Str) (ho : openDb db true = .ok h) (hg : Given h.lastThread used) (evs : List Ev)
    (hn : h.lastThread + evs.length < 2 ^ 64) : ∃ w, World.run ⟨h, db, used, db, used⟩ evs = some w ∧ w.used.Nodup ∧ w.diskUsed.Nodup := by
  have key : ∀ (evs : List Ev) (w : World) (hn' hd : Handle), openDb w.now true = .ok hn' → hn'.lastThread = w.handle.lastThread → openDb w.disk true = .ok hd →
      Given w.handle.lastThread w.used → Given hd.lastThread w.diskUsed → w.handle.lastThread + evs.length < 2 ^ 64 → hd.lastThread + evs.length < 2 ^ 64 →
      ∃ w', w.run evs = some w' ∧ w'.used.Nodup ∧ w'.diskUsed.Nodup := by
    intro evs
    induction evs with
    | nil =>
      intro w hn' hd h1 h2 h3 h4 h5 h6 h7
      exact ⟨w, rfl, h4.1, h5.1⟩
    | cons e evs ih =>
      intro w hn' hd h1 h2 h3 h4 h5 h6 h7
      rw [List.length_cons] at h6 h7
      cases e with
      | newThread =>
        have hlt : w.handle.lastThread + 1 < 2 ^ 64 := by omega
        obtain ⟨h'', e1, e2⟩ := open_lastThread w.now hn' h1 (w.handle.lastThread + 1) hlt
        have hmod : (w.handle.lastThread + 1) % 2 ^ 64 = w.handle.lastThread + 1 := Nat.mod_eq_of_lt hlt
        refine ih _ h'' hd e1 ?_ h3 ?_ h5 ?_ (by omega)
        · rw [e2]; exact hmod.symm
        · show Given ((w.handle.lastThread + 1) % 2 ^ 64) _
          rw [hmod]
          exact h4.new hlt
        · show (w.handle.lastThread + 1) % 2 ^ 64 + evs.length < 2 ^ 64
          rw [hmod]; omega
      | commit =>
        refine ih _ hn' hn' h1 h2 h1 h4 ?_ (by show w.handle.lastThread + evs.length < _; omega) (by rw [h2]; omega)
        show Given hn'.lastThread w.used
        rw [h2]; exact h4
      | reopen =>
        have : w.step .reopen = some { w with handle := hd, now := w.disk, used := w.diskUsed } := by
          unfold World.step
          simp only
          rw [h3]
        obtain ⟨w', e1, e2⟩ := ih { w with handle := hd, now := w.disk, used := w.diskUsed } hd hd h3 rfl h3 h5 h5 (by show hd.lastThread + evs.length < _; omega) (by omega)
        exact ⟨w', by unfold World.run; rw [this]; exact e1, e2⟩
  exact key evs _ h h ho rfl ho hg hg hn hn

/-- **C48 (a new database).**  It opens, has every feature, and needs no upgrade. -/
theorem C48_create :
    create.1 = .success ∧ (∀ x, create.2.1.features x = true) ∧
    ∃ h, openDb create.2.2 true = .ok h ∧ (∀ x, h.features x = true) ∧ h.lastThread = 0 ∧ h.revision = 0 ∧ needsUpgrade h create.2.2 = some false := by
  have hf : create.2.2 = ⟨bs "3", printFeatures (fun _ => true), [], [], [], [], []⟩ := by decide +kernel
  refine ⟨by decide +kernel, ?_, ⟨fun _ => true, 0, 0, true⟩, ?_, fun _ => rfl, rfl, rfl, ?_⟩
  · intro x
    cases x <;> decide +kernel
  · rw [hf]
    unfold openDb
    rw [show getVersion (bs "3") = some 3 from getVersion_three]
    simp only
    rw [if_neg (by decide)]
    simp only [if_true]
    rw [show parseFeatures (printFeatures (fun _ => true)) 3 119 = (fun _ => true, none) from C48_roundtrip _ true]
    rfl
  · rw [hf]
    decide +kernel

/-- **C48 (counterexample: a version far ahead).**  The version is kept in 32 bits: a database of version 2^32 + 3 is not refused for its version. -/
theorem C48_counterexample_version : getVersion (dec (2 ^ 32 + 3)) = some 3 := by decide +kernel

/-- An example for `C48_upgrade`: a database of version 0, with a message whose file name is in its data, a missing message, and the time of a directory. -/
def oldDb : Db :=
  { version := [], features := [], lastThread := hex16 7,
    msgs := [⟨bs "a", hex16 6, false, bs "cur/1", [], 0⟩, ⟨bs "c", hex16 7, false, bs "cur/2", [], 0⟩],
    threadIds := [(bs "b", hex16 7)], stamps := [(bs "cur", 5)], dirs := [] }

theorem C48_example :
    openDb oldDb true = .ok ⟨featuresV0, 7, 0, true⟩ ∧ Legacy featuresV0 oldDb ∧ needsUpgrade ⟨featuresV0, 7, 0, true⟩ oldDb = some true ∧
    diskAfter oldDb (upgrade (fun _ => true) ⟨featuresV0, 7, 0, true⟩ oldDb .none) none =
      { version := bs "3", features := printFeatures featuresCurrent, lastThread := hex16 7,
        msgs := [⟨bs "a", hex16 6, false, [], [bs "cur/1"], 1⟩, ⟨bs "c", hex16 7, false, [], [bs "cur/2"], 2⟩, ⟨bs "b", hex16 7, true, [], [], 3⟩],
        threadIds := [], stamps := [], dirs := [([], 0), (bs "cur", 5)] } ∧
    Given 7 [hex16 6, hex16 7] ∧
    (parseFeatures (bs "modification tracking\tw\ntime travel\trw\n") 3 114).2 = some (bs "time travel") := by
  refine ⟨?_, ?_, by decide +kernel, by decide +kernel, ?_, ?_⟩
  · unfold openDb
    rw [show getVersion oldDb.version = some 0 by decide +kernel]
    simp only
    rw [if_neg (by decide)]
    rw [show loadThread oldDb.lastThread = some 7 by decide +kernel]
    have : loadRevision oldDb = 0 := by decide +kernel
    rw [this]
    rfl
  · refine ⟨?_, ?_, ?_, ?_, ?_, ?_, ?_, ?_⟩ <;> decide +kernel
  · refine ⟨by decide +kernel, ?_⟩
    intro t ht
    rcases List.mem_cons.mp ht with h | h
    · exact ⟨6, by decide, h⟩
    · exact ⟨7, by decide, List.mem_singleton.mp h⟩
  · unfold parseFeatures
    simp only [show ((3 : Nat) = 0) = False by simp, show ((3 : Nat) = 1) = False by simp, show ((3 : Nat) = 2) = False by simp, if_false]
    rw [parseLoop_eq _ _ _ (Nat.le_refl _)]
    decide +kernel

end Notmuch.Props
