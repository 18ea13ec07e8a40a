import Verif.Spec.New
import Verif.Proofs.NewEx

/-! # C38, C39: `notmuch new` -/

namespace Notmuch.Props
open Notmuch.New

/-- The database is what the changes of the run make of it. -/
theorem C38_log {E : Env} (hE : Sane E) {db : Db} (hdb : DbOk db) (hfr : Fresh E db) {fuel : Nat} {intr : Option Nat} {ok : Bool} {st : St}
    (h : newCommand E fuel db intr = some (ok, st)) : st.db = after db st.log := by
  obtain ⟨_, A, R, S, hp⟩ := newCommand_spec hE.env hE.mtime hE.links hdb hfr h
  rw [hp.log, hp.final]

/-- A file of the mail store that the database has, it has at every point of a run: nothing that is there is ever removed. -/
theorem C38_safe {E : Env} (hE : Sane E) {db : Db} (hdb : DbOk db) (hfr : Fresh E db) {fuel : Nat} {intr : Option Nat} {ok : Bool} {st : St}
    (h : newCommand E fuel db intr = some (ok, st)) {x : List Op} (hx : x <+: st.log) {p : Path} {n : Str} (hv : Visible E p n) (hn : n ∈ db.files p) :
    n ∈ (after db x).files p := by
  obtain ⟨_, A, R, S, hp⟩ := newCommand_spec hE.env hE.mtime hE.links hdb hfr h
  exact (mid_of_parts hE.mtime hdb hfr hp hx).filesKeep p n hn hv

/-- At every point of a run the database has only files that it had or that are mail in the mail store: in particular no file that is ignored, in a `tmp`
of a maildir or in `.notmuch` is added. -/
theorem C38_sound {E : Env} (hE : Sane E) {db : Db} (hdb : DbOk db) (hfr : Fresh E db) {fuel : Nat} {intr : Option Nat} {ok : Bool} {st : St}
    (h : newCommand E fuel db intr = some (ok, st)) {x : List Op} (hx : x <+: st.log) {p : Path} {n : Str} (hn : n ∈ (after db x).files p) :
    n ∈ db.files p ∨ Mail E p n := by
  obtain ⟨_, A, R, S, hp⟩ := newCommand_spec hE.env hE.mtime hE.links hdb hfr h
  exact (mid_of_parts hE.mtime hdb hfr hp hx).filesNew p n hn

/-- A message that has a file in the database and one in the mail store (the file may have been renamed, or moved to another directory) has a file in the
database at every point of the run: it is never removed with its tags to be added anew. -/
theorem C38_rename {E : Env} (hE : Sane E) {db : Db} (hdb : DbOk db) (hfr : Fresh E db) {fuel : Nat} {intr : Option Nat} {ok : Bool} {st : St}
    (h : newCommand E fuel db intr = some (ok, st)) {x : List Op} (hx : x <+: st.log) {M : Type} (mid : Path → Str → M) {m : M}
    (hdbm : ∃ p n, mid p n = m ∧ n ∈ db.files p) (hfsm : ∃ p n, mid p n = m ∧ Mail E p n) : ∃ p n, mid p n = m ∧ n ∈ (after db x).files p := by
  obtain ⟨_, A, R, S, hp⟩ := newCommand_spec hE.env hE.mtime hE.links hdb hfr h
  rcases (mid_of_parts hE.mtime hdb hfr hp hx).all with h1 | h1
  · obtain ⟨p, n, e, hn⟩ := hdbm
    exact ⟨p, n, e, h1 p n hn⟩
  · obtain ⟨p, n, e, hn⟩ := hfsm
    exact ⟨p, n, e, h1 p n hn⟩

/-- After a run without error or signal the database has exactly the files of the mail store that are mail or that it had before. -/
theorem C38_complete {E : Env} (hE : Sane E) {db : Db} (hdb : DbOk db) (hfr : Fresh E db) (hd : DirsOk E db) {fuel : Nat} {intr : Option Nat} {st : St}
    (h : newCommand E fuel db intr = some (true, st)) (hi : ¬ Fired st) (p : Path) (n : Str) :
    n ∈ st.db.files p ↔ Visible E p n ∧ (E.outcome p n = .added ∨ n ∈ db.files p) := by
  obtain ⟨hroot, A, R, S, hp⟩ := newCommand_spec hE.env hE.mtime hE.links hdb hfr h
  have m := mid_of_parts hE.mtime hdb hfr hp (List.prefix_rfl (l := st.log))
  rw [← C38_log hE hdb hfr h] at m
  have right : ∀ q, Scanned E q → RightAt E st.db q := by
    intro q hq
    obtain ⟨ef, es⟩ := after_files_set (E := E) S (after db (A ++ R)) hp.sets
    have r := hp.right (.inr ⟨rfl, hi⟩) q hq
    rw [hp.final, after_append]
    exact ⟨by rw [ef]; exact r.has, by rw [ef]; exact r.only, by rw [es]; exact r.subs⟩
  constructor
  · intro hn
    have hs := known_scanned (hroot rfl) hd m.ok m.subNew right p (m.ok.file p n hn)
    refine ⟨(right p hs).only n hn, ?_⟩
    rcases m.filesNew p n hn with h1 | h1
    · exact .inr h1
    · exact .inl h1.2
  · rintro ⟨hv, h1 | h1⟩
    · exact (right p hv.1).has n ⟨hv, h1⟩
    · exact m.filesKeep p n h1 hv

/-- A run ends if the directories are not nested without bound (no loop of symbolic links). -/
theorem C38_terminates {E : Env} {db : Db} {D : Nat} (hD : ∀ p, E.fs.kind p = .dir → p.length ≤ D) (hk : ∀ p, (db.known p).isSome → p.length ≤ D)
    (intr : Option Nat) {fuel : Nat} (hf : D + 2 ≤ fuel) : ∃ r, newCommand E fuel db intr = some r := by
  unfold newCommand
  obtain ⟨⟨ok, st⟩, h1, h2⟩ := addFiles_ends hD fuel [] ⟨db, [], [], [], [], intr⟩ (by simp) (by simpa using hf) ⟨hk, by simp⟩
  rw [h1]
  cases ok with
  | false => exact ⟨_, rfl⟩
  | true =>
    obtain ⟨r, h3⟩ := removeDirsLoop_ends hf st.removedDirs _ h2.2 (below_removeFilesLoop st.removedFiles st h2.1)
    simp only
    rw [h3]
    exact ⟨_, rfl⟩

/-! ## Crashes, signals, and runs after another -/

/-- At every point of a run the database is well-formed and its mtimes can be trusted. -/
theorem C39_crash {E : Env} (hE : Sane E) {db : Db} (hdb : DbOk db) (hfr : Fresh E db) {fuel : Nat} {intr : Option Nat} {ok : Bool} {st : St}
    (h : newCommand E fuel db intr = some (ok, st)) {x : List Op} (hx : x <+: st.log) : DbOk (after db x) ∧ Fresh E (after db x) := by
  obtain ⟨_, A, R, S, hp⟩ := newCommand_spec hE.env hE.mtime hE.links hdb hfr h
  have m := mid_of_parts hE.mtime hdb hfr hp hx
  exact ⟨m.ok, m.fresh⟩

/-- A run after one that was stopped anywhere gives what the first would have given. -/
theorem C39_rerun {E : Env} (hE : Sane E) {db : Db} (hdb : DbOk db) (hfr : Fresh E db) (hd : DirsOk E db) {fuel fuel2 : Nat} {intr intr2 : Option Nat}
    {ok : Bool} {st st2 : St} (h : newCommand E fuel db intr = some (ok, st)) {x : List Op} (hx : x <+: st.log)
    (h2 : newCommand E fuel2 (after db x) intr2 = some (true, st2)) (hi : ¬ Fired st2) (p : Path) (n : Str) :
    n ∈ st2.db.files p ↔ Visible E p n ∧ (E.outcome p n = .added ∨ n ∈ db.files p) := by
  obtain ⟨_, A, R, S, hp⟩ := newCommand_spec hE.env hE.mtime hE.links hdb hfr h
  have m := mid_of_parts hE.mtime hdb hfr hp hx
  have hd' : DirsOk E (after db x) := by
    intro q c hq hc hcn
    rcases m.subNew q c hc with h1 | h1
    · exact hd q c hq h1 hcn
    · exact h1
  rw [C38_complete hE m.ok m.fresh hd' h2 hi]
  constructor
  · rintro ⟨hv, h1 | h1⟩
    · exact ⟨hv, .inl h1⟩
    · rcases m.filesNew p n h1 with h3 | h3
      · exact ⟨hv, .inr h3⟩
      · exact ⟨hv, .inl h3.2⟩
  · rintro ⟨hv, h1 | h1⟩
    · exact ⟨hv, .inl h1⟩
    · exact ⟨hv, .inr (m.filesKeep p n h1 hv)⟩

/-- After any number of runs, each stopped anywhere, with changes of the mail store in between, the database is well-formed and its mtimes can be
trusted. -/
theorem C39_history {E : Env} {db : Db} (h : Reach E db) : DbOk db ∧ ((∀ p, E.fs.mtime p ≠ 0) → Fresh E db) := by
  have key : DbOk db ∧ ((∀ p, E.fs.mtime p ≠ 0) → Fresh E db) ∧ ((∀ p, 0 < E.statTime p) → ∀ p t, db.known p = some t → t < E.statTime p) := by
    induction h with
    | first E =>
      refine ⟨⟨fun _ => List.Pairwise.nil, fun _ => List.Pairwise.nil, ?_, ?_, ?_⟩, ?_, ?_⟩ <;> simp [emptyDb, Fresh]
    | @next E E' db fuel intr ok st x hr hE hrun hx hl ih =>
      obtain ⟨ih1, ih2, ih3⟩ := ih
      obtain ⟨_, A, R, S, hp⟩ := newCommand_spec hE.env hE.mtime hE.links ih1 (ih2 hE.mtime) hrun
      have m := mid_of_parts hE.mtime ih1 (ih2 hE.mtime) hp hx
      have pos : ∀ p, 0 < E.statTime p := fun p => Nat.lt_of_lt_of_le (Nat.pos_of_ne_zero (hE.mtime p)) (hl.past p)
      have old : ∀ p t, (after db x).known p = some t → t < E.statTime p := by
        intro p t hk
        rcases m.known p t hk with h1 | h1 | ⟨h1, h2, _⟩
        · exact ih3 pos p t h1
        · rw [h1]; exact pos p
        · have := hl.past p
          omega
      refine ⟨m.ok, fun _ p hp hk => ?_, fun _ p t hk => Nat.lt_trans (old p t hk) (hl.clock p)⟩
      have hlt := old p _ hk
      rcases hl.changed p with ⟨h1, h2⟩ | h1
      · rw [h2.mtime] at hk
        have r := m.fresh p h1 hk
        have hc : ∀ n, Counts E' p n ↔ Counts E p n := by
          intro n
          unfold Counts
          rw [h2.list, hl.ignored]
        have hv : ∀ n, Visible E' p n ↔ Visible E p n := by
          intro n
          unfold Visible
          rw [hc, h2.kind]
          simp only [hp, h1]
        refine ⟨fun n hn => r.has n ⟨(hv n).1 hn.1, by rw [← hl.outcome]; exact hn.2⟩, fun n hn => (hv n).2 (r.only n hn), fun c hcs => (hc c).2 (r.subs c hcs)⟩
      · omega
  exact ⟨key.1, key.2.1⟩

/-- After any such history a run to the end makes the database agree with the mail store. -/
theorem C39_catches_up {E : Env} {db : Db} (h : Reach E db) (hE : Sane E) (hd : DirsOk E db) {fuel : Nat} {intr : Option Nat} {st : St}
    (hrun : newCommand E fuel db intr = some (true, st)) (hi : ¬ Fired st) (p : Path) (n : Str) :
    n ∈ st.db.files p ↔ Visible E p n ∧ (E.outcome p n = .added ∨ n ∈ db.files p) := by
  obtain ⟨h1, h2⟩ := C39_history h
  exact C38_complete hE h1 (h2 hE.mtime) hd hrun hi p n

/-- After a run to the end, directories that were moved away before it may even come back with their old mtime: the database forgot them. -/
theorem C39_moves {E E' : Env} (hE : Sane E) {db : Db} (hdb : DbOk db) (hfr : Fresh E db) (hd : DirsOk E db)
    (hold : ∀ p t, db.known p = some t → t < E.statTime p) {fuel : Nat} {intr : Option Nat} {st : St}
    (h : newCommand E fuel db intr = some (true, st)) (hi : ¬ Fired st) (hl : LaterMoves E E') :
    DbOk st.db ∧ Fresh E' st.db ∧ ∀ p t, st.db.known p = some t → t < E'.statTime p := by
  obtain ⟨hroot, A, R, S, hp⟩ := newCommand_spec hE.env hE.mtime hE.links hdb hfr h
  have m := mid_of_parts hE.mtime hdb hfr hp (List.prefix_rfl (l := st.log))
  rw [← C38_log hE hdb hfr h] at m
  have right : ∀ q, Scanned E q → RightAt E st.db q := by
    intro q hq
    obtain ⟨ef, es⟩ := after_files_set (E := E) S (after db (A ++ R)) hp.sets
    have r := hp.right (.inr ⟨rfl, hi⟩) q hq
    rw [hp.final, after_append]
    exact ⟨by rw [ef]; exact r.has, by rw [ef]; exact r.only, by rw [es]; exact r.subs⟩
  have pos : ∀ p, 0 < E.statTime p := fun p => Nat.lt_of_lt_of_le (Nat.pos_of_ne_zero (hE.mtime p)) (hl.past p)
  have old : ∀ p t, st.db.known p = some t → t < E.statTime p := by
    intro p t hk
    rcases m.known p t hk with h1 | h1 | ⟨h1, h2, _⟩
    · exact hold p t h1
    · rw [h1]; exact pos p
    · have := hl.past p
      omega
  refine ⟨m.ok, fun p hp' hk => ?_, fun p t hk => Nat.lt_trans (old p t hk) (hl.clock p)⟩
  have hs := known_scanned (hroot rfl) hd m.ok m.subNew right p (by rw [hk]; rfl)
  have hlt := old p _ hk
  rcases hl.changed p hs with h2 | h1
  · have r := right p hs
    have hc : ∀ n, Counts E' p n ↔ Counts E p n := by
      intro n
      unfold Counts
      rw [h2.list, hl.ignored]
    have hv : ∀ n, Visible E' p n ↔ Visible E p n := by
      intro n
      unfold Visible
      rw [hc, h2.kind]
      simp only [hp', hs]
    refine ⟨fun n hn => r.has n ⟨(hv n).1 hn.1, by rw [← hl.outcome]; exact hn.2⟩, fun n hn => (hv n).2 (r.only n hn), fun c hcs => (hc c).2 (r.subs c hcs)⟩
  · omega

/-! ## Examples -/

/-- A mail store with a file in the root and one below, and the same later: one file was moved within a directory. -/
def newEx1 : Env := envOf (tree [([], [bs "a", bs "cur"], 5), ([bs "cur"], [bs "m"], 6)] [[bs "a"], [bs "cur", bs "m"]] 1) 10
def newEx2 : Env := envOf (tree [([], [bs "a", bs "cur"], 5), ([bs "cur"], [bs "k"], 12)] [[bs "a"], [bs "cur", bs "k"]] 100) 20

theorem newEx1_sane : Sane newEx1 := sane_tree _ _ _ _ (by decide) (by decide) (by decide)
theorem newEx2_sane : Sane newEx2 := sane_tree _ _ _ _ (by decide) (by decide) (by decide)

theorem newEx_later : Later newEx1 newEx2 := by
  refine ⟨rfl, rfl, fun _ => (by decide : 10 < 20), ?_, ?_⟩
  · intro p
    simp only [newEx1, envOf, tree, List.find?_cons, List.find?_nil]
    split
    · decide
    · split <;> decide
  · intro p
    by_cases e : p = []
    · subst e
      refine .inl ⟨Scanned.root (by decide), rfl, ?_, by decide⟩
      intro n
      simp [newEx1, newEx2, envOf, tree]
    · refine .inr ?_
      simp only [newEx1, newEx2, envOf, tree, List.find?_cons, List.find?_nil]
      split
      · rename_i h
        simp at h
        exact absurd h e
      · split <;> decide

/-- The first run. -/
example : ∃ ok st, newCommand newEx1 5 emptyDb none = some (ok, st) ∧
    (ok, st.intr, st.log) = (true, none, [.add [bs "cur"] (bs "m"), .add [] (bs "a"), .setMtime [bs "cur"] 6, .setMtime [] 5]) :=
  run_of (f := fun r => (r.1, r.2.intr, r.2.log)) (by decide +kernel)

/-- The first run, stopped by a crash after its first change, and the next one: the hypotheses of the theorems are met, and the new name is found. -/
example : Reach newEx2 (after emptyDb [.add [bs "cur"] (bs "m")]) ∧ DirsOk newEx2 (after emptyDb [.add [bs "cur"] (bs "m")]) ∧
    ∃ ok st, newCommand newEx2 5 (after emptyDb [.add [bs "cur"] (bs "m")]) none = some (ok, st) ∧
      ((ok, st.intr), st.db.known [bs "cur"], st.db.files [], st.db.files [bs "cur"]) = ((true, none), some 12, [bs "a"], [bs "k"]) := by
  refine ⟨?_, ?_, run_of (f := fun r => ((r.1, r.2.intr), r.2.db.known [bs "cur"], r.2.db.files [], r.2.db.files [bs "cur"])) (by decide +kernel)⟩
  · obtain ⟨ok, st, h1, h2⟩ := run_of (o := newCommand newEx1 5 emptyDb none) (f := fun r => r.2.log)
      (v := [.add [bs "cur"] (bs "m"), .add [] (bs "a"), .setMtime [bs "cur"] 6, .setMtime [] 5]) (by decide +kernel)
    exact Reach.next (Reach.first _) newEx1_sane h1 (by rw [show st.log = _ from h2]; exact ⟨_, rfl⟩) newEx_later
  · intro p c hp hc hcn
    rcases mem_subdirs_add.1 hc with h | h
    · cases h
    · have : p ++ [c] = [bs "cur"] := by
        obtain ⟨r, hr⟩ := h
        cases p with
        | nil => simp at hr; simp [hr.1]
        | cons a p => simp at hr
      rw [this]
      exact Scanned.sub (p := []) (n := bs "cur") (Scanned.root (by decide)) (by refine ⟨by decide, by decide, by decide, rfl⟩) (by decide) (fun h => absurd h.2 (by decide)) (by decide)

/-! ## What the hypotheses exclude -/

/-- The mail store when `cur` was replaced by a file of that name. -/
def newExFile : Env := envOf (tree [([], [bs "cur"], 12)] [[bs "cur"]] 1) 20

/-- `DirsOk` is needed: the files below a directory that was replaced by a file of the same name stay in the database, and so do their messages. -/
theorem C38_replaced : ∃ (E : Env) (db : Db), Sane E ∧ DbOk db ∧ Fresh E db ∧ ∃ ok st, newCommand E 5 db none = some (ok, st) ∧ ok = true ∧ ¬ Fired st ∧
    ∃ p n, n ∈ st.db.files p ∧ ¬ Visible E p n := by
  refine ⟨newExFile, emptyDb.addFile [bs "cur"] (bs "m"), sane_tree _ _ _ _ (by decide) (by decide) (by decide), dbOk_empty.addFile _ _, ?_, ?_⟩
  · intro p hp hk
    rcases known_add.1 hk with h | ⟨_, h, _⟩
    · cases h
    · exact absurd h ((sane_tree [([], [bs "cur"], 12)] [[bs "cur"]] 1 20 (by decide) (by decide) (by decide)).mtime p)
  · obtain ⟨ok, st, h1, h2⟩ := run_of (o := newCommand newExFile 5 (emptyDb.addFile [bs "cur"] (bs "m")) none)
      (f := fun r => (r.1, r.2.intr, r.2.db.files [bs "cur"])) (v := (true, none, [bs "m"])) (by decide +kernel)
    simp only [Prod.mk.injEq] at h2
    refine ⟨ok, st, h1, h2.1, by unfold Fired; rw [h2.2.1]; simp, [bs "cur"], bs "m", by rw [h2.2.2]; simp, ?_⟩
    intro hv
    have := scanned_kind hv.1
    revert this
    decide

/-- The root has a file and a symbolic link to a directory, in which there is a file now. -/
def newExLink : Env := { envOf (tree [([], [bs "a", bs "s"], 5), ([bs "s"], [bs "m"], 12)] [[bs "a"], [bs "s", bs "m"]] 1) 20 with
  fs := { tree [([], [bs "a", bs "s"], 5), ([bs "s"], [bs "m"], 12)] [[bs "a"], [bs "s", bs "m"]] 1 with nlink := fun _ => 2 } }

/-- `LinksOk` is needed: a symbolic link to a directory is not counted in the links of the directory it is in, so mail that comes later behind it is not
found as long as that directory does not change. -/
theorem C38_symlink : ∃ (E : Env) (db : Db), EnvOk E ∧ (∀ p, E.fs.mtime p ≠ 0) ∧ DbOk db ∧ Fresh E db ∧ ∃ ok st, newCommand E 5 db none = some (ok, st) ∧
    ok = true ∧ ¬ Fired st ∧ ∃ p n, Mail E p n ∧ n ∉ st.db.files p := by
  have hs := sane_tree [([], [bs "a", bs "s"], 5), ([bs "s"], [bs "m"], 12)] [[bs "a"], [bs "s", bs "m"]] 1 20 (by decide) (by decide) (by decide)
  have hroot : Scanned newExLink [] := Scanned.root (by decide)
  refine ⟨newExLink, (emptyDb.addFile [] (bs "a")).setMtime [] 5, ⟨hs.env.1, hs.env.2, hs.env.3, hs.env.4⟩, hs.mtime,
    (dbOk_empty.addFile _ _).setMtime _ _ (by decide), ?_, ?_⟩
  · intro p hp hk
    have hp0 : p = [] := by
      apply Classical.byContradiction
      intro e
      simp only [Db.setMtime, if_neg e] at hk
      rcases known_add.1 hk with h | ⟨_, h, _⟩
      · cases h
      · exact hs.mtime p h
    subst hp0
    refine ⟨?_, ?_, ?_⟩
    · intro n hn
      have h1 : n ∈ [bs "a", bs "s"] := hn.1.2.1.1
      have h2 := hn.1.2.2
      have : n = bs "a" := by
        rcases List.mem_cons.1 h1 with h | h
        · exact h
        · rw [List.mem_singleton] at h
          subst h
          revert h2; decide
      rw [this]
      decide
    · intro n hn
      have : n = bs "a" := List.mem_singleton.1 hn
      rw [this]
      exact ⟨hroot, ⟨by decide, by decide, by decide, rfl⟩, by decide⟩
    · intro c hc
      cases hc
  · obtain ⟨ok, st, h1, h2⟩ := run_of (o := newCommand newExLink 5 ((emptyDb.addFile [] (bs "a")).setMtime [] 5) none)
      (f := fun r => (r.1, r.2.intr, r.2.db.files [bs "s"])) (v := (true, none, [])) (by decide +kernel)
    simp only [Prod.mk.injEq] at h2
    refine ⟨ok, st, h1, h2.1, by unfold Fired; rw [h2.2.1]; simp, [bs "s"], bs "m", ⟨⟨?_, ⟨by decide, by decide, by decide, rfl⟩, by decide⟩, rfl⟩, by rw [h2.2.2]; simp⟩
    exact Scanned.sub (p := []) (n := bs "s") hroot ⟨by decide, by decide, by decide, rfl⟩ (by decide) (fun h => absurd h.2 (by decide)) (by decide)

/-- The root is dated at the epoch. -/
def newExZero : Env := envOf (tree [([], [bs "a", bs "cur"], 0), ([bs "cur"], [bs "m"], 6)] [[bs "a"], [bs "cur", bs "m"]] 1) 10

/-- An mtime of 0 is also what a directory gets that was not yet scanned to the end: after a crash, mail in such a directory is not found. -/
theorem C39_epoch : ∃ (E : Env) (db : Db), EnvOk E ∧ LinksOk E ∧ (∃ ok st, newCommand E 5 emptyDb none = some (ok, st) ∧ ∃ x, x <+: st.log ∧ db = after emptyDb x) ∧
    ∃ ok st, newCommand E 5 db none = some (ok, st) ∧ ok = true ∧ ¬ Fired st ∧ ∃ p n, Mail E p n ∧ n ∉ st.db.files p := by
  refine ⟨newExZero, after emptyDb [.add [bs "cur"] (bs "m")], ⟨sortNames_perm, sortNames_sorted, fun _ _ => List.Perm.refl _, ?_⟩, (fun p n h => by cases h), ?_, ?_⟩
  · intro p
    simp only [newExZero, envOf, tree, List.find?_cons, List.find?_nil]
    split
    · decide
    · split <;> decide
  · obtain ⟨ok, st, h1, h2⟩ := run_of (o := newCommand newExZero 5 emptyDb none) (f := fun r => r.2.log.take 1) (v := [.add [bs "cur"] (bs "m")]) (by decide +kernel)
    exact ⟨ok, st, h1, _, List.take_prefix 1 st.log, by rw [show st.log.take 1 = _ from h2]⟩
  · obtain ⟨ok, st, h1, h2⟩ := run_of (o := newCommand newExZero 5 (after emptyDb [.add [bs "cur"] (bs "m")]) none)
      (f := fun r => (r.1, r.2.intr, r.2.db.files [])) (v := (true, none, [])) (by decide +kernel)
    simp only [Prod.mk.injEq] at h2
    exact ⟨ok, st, h1, h2.1, by unfold Fired; rw [h2.2.1]; simp, [], bs "a", ⟨⟨Scanned.root (by decide), ⟨by decide, by decide, by decide, rfl⟩, by decide⟩, rfl⟩,
      by rw [h2.2.2]; simp⟩

/-- Two files in `cur`; then `cur` was moved away; then it was moved back, with its mtime. -/
def newExBefore : Env := envOf (tree [([], [bs "cur"], 5), ([bs "cur"], [bs "k", bs "m"], 6)] [[bs "cur", bs "k"], [bs "cur", bs "m"]] 1) 10
def newExAway : Env := envOf (tree [([], [], 12)] [] 1) 20
def newExBack : Env := envOf (tree [([], [bs "cur"], 22), ([bs "cur"], [bs "k", bs "m"], 6)] [[bs "cur", bs "k"], [bs "cur", bs "m"]] 1) 30
def newExDb : Db := after emptyDb [.add [bs "cur"] (bs "k"), .add [bs "cur"] (bs "m"), .setMtime [bs "cur"] 6, .setMtime [] 5]

/-- That a directory that comes back has a new mtime is needed when runs may crash: a crash while a directory that is away is being removed leaves its mtime
in the database but not all its files, and they are not found when it is back. -/
theorem C39_crash_moved : (∃ ok st, newCommand newExBefore 5 emptyDb none = some (ok, st) ∧ ok = true ∧ after emptyDb st.log = newExDb) ∧
    (∃ ok st, newCommand newExAway 5 newExDb none = some (ok, st) ∧ [.removeFile [bs "cur"] (bs "k")] <+: st.log) ∧
    (∃ ok st, newCommand newExBack 5 (after newExDb [.removeFile [bs "cur"] (bs "k")]) none = some (ok, st) ∧ ok = true ∧ ¬ Fired st ∧
      Mail newExBack [bs "cur"] (bs "k") ∧ bs "k" ∉ st.db.files [bs "cur"]) := by
  refine ⟨?_, ?_, ?_⟩
  · obtain ⟨ok, st, h1, h2⟩ := run_of (o := newCommand newExBefore 5 emptyDb none) (f := fun r => (r.1, r.2.log))
      (v := (true, [.add [bs "cur"] (bs "k"), .add [bs "cur"] (bs "m"), .setMtime [bs "cur"] 6, .setMtime [] 5])) (by decide +kernel)
    simp only [Prod.mk.injEq] at h2
    exact ⟨ok, st, h1, h2.1, by rw [h2.2]; rfl⟩
  · obtain ⟨ok, st, h1, h2⟩ := run_of (o := newCommand newExAway 5 newExDb none) (f := fun r => r.2.log.take 1) (v := [.removeFile [bs "cur"] (bs "k")]) (by decide +kernel)
    exact ⟨ok, st, h1, by rw [← show st.log.take 1 = _ from h2]; exact List.take_prefix 1 st.log⟩
  · obtain ⟨ok, st, h1, h2⟩ := run_of (o := newCommand newExBack 5 (after newExDb [.removeFile [bs "cur"] (bs "k")]) none)
      (f := fun r => (r.1, r.2.intr, r.2.db.files [bs "cur"])) (v := (true, none, [bs "m"])) (by decide +kernel)
    simp only [Prod.mk.injEq] at h2
    refine ⟨ok, st, h1, h2.1, by unfold Fired; rw [h2.2.1]; simp, ⟨⟨?_, ⟨by decide, by decide, by decide, rfl⟩, by decide⟩, rfl⟩, by rw [h2.2.2]; decide⟩
    exact Scanned.sub (p := []) (n := bs "cur") (Scanned.root (by decide)) ⟨by decide, by decide, by decide, rfl⟩ (by decide) (fun h => absurd h.2 (by decide)) (by decide)

end Notmuch.Props
