import Verif.Proofs.NewScan

/-! # `notmuch new`: removing, and the whole run -/

namespace Notmuch.New
open Notmuch.StringMap Notmuch.StringMapSpec

/-- Removing what is not in the mail store. -/
def IsRemoval (E : Env) (o : Op) : Prop := (∃ d n, o = .removeFile d n ∧ ¬ Visible E d n) ∨ (∃ d, o = .deleteDir d ∧ ¬ Scanned E d)

/-- What a series of removals does. -/
structure Pruned (E : Env) (db db' : Db) : Prop where
  filesSub : ∀ p n, n ∈ db'.files p → n ∈ db.files p
  filesKeep : ∀ p n, n ∈ db.files p → Visible E p n → n ∈ db'.files p
  knownSub : ∀ p t, db'.known p = some t → db.known p = some t
  knownKeep : ∀ p t, db.known p = some t → Scanned E p → db'.known p = some t
  subSub : ∀ p c, c ∈ db'.subdirs p → c ∈ db.subdirs p

theorem Pruned.refl (E : Env) (db : Db) : Pruned E db db :=
  ⟨fun _ _ => id, fun _ _ h _ => h, fun _ _ => id, fun _ _ h _ => h, fun _ _ => id⟩

theorem Pruned.trans {E : Env} {a b c : Db} (h : Pruned E a b) (g : Pruned E b c) : Pruned E a c :=
  ⟨fun p n x => h.filesSub p n (g.filesSub p n x), fun p n x v => g.filesKeep p n (h.filesKeep p n x v) v, fun p t x => h.knownSub p t (g.knownSub p t x),
   fun p t x s => g.knownKeep p t (h.knownKeep p t x s) s, fun p c x => h.subSub p c (g.subSub p c x)⟩

theorem mem_files_remove {db : Db} {d p : Path} {n x : Str} : x ∈ (db.removeFile d n).files p ↔ x ∈ db.files p ∧ ¬ (p = d ∧ x = n) := by
  simp only [Db.removeFile]
  split
  · rename_i h
    simp [h]
  · rename_i h
    simp [h]

theorem pruned_one {E : Env} (db : Db) {o : Op} (h : IsRemoval E o) : Pruned E db (db.apply o) := by
  rcases h with ⟨d, n, rfl, hv⟩ | ⟨d, rfl, hs⟩
  · refine ⟨?_, ?_, fun _ _ => id, fun _ _ h _ => h, fun _ _ => id⟩
    · intro p x hx
      exact (mem_files_remove.1 hx).1
    · intro p x hx hvis
      refine mem_files_remove.2 ⟨hx, ?_⟩
      rintro ⟨rfl, rfl⟩
      exact hv hvis
  · refine ⟨fun _ _ => id, fun _ _ h _ => h, ?_, ?_, ?_⟩
    · intro p t h
      simp only [Db.apply, Db.deleteDir] at h
      split at h
      · cases h
      · exact h
    · intro p t h hp
      simp only [Db.apply, Db.deleteDir]
      rw [if_neg (by rintro rfl; exact hs hp)]
      exact h
    · intro p c h
      simp only [Db.apply, Db.deleteDir] at h
      exact (List.mem_filter.1 h).1

theorem pruned_after {E : Env} : ∀ (ops : List Op) (db : Db), (∀ o ∈ ops, IsRemoval E o) → Pruned E db (after db ops)
  | [], db, _ => Pruned.refl E db
  | o :: ops, db, h => (pruned_one db (h o (by simp))).trans (pruned_after ops _ (fun o ho => h o (by simp [ho])))

theorem rightAt_pruned {E : Env} {db db' : Db} (h : Pruned E db db') {p : Path} (r : RightAt E db p) : RightAt E db' p where
  has n hn := h.filesKeep p n (r.has n hn) hn.1
  only n hn := r.only n (h.filesSub p n hn)
  subs c hc := r.subs c (h.subSub p c hc)

theorem fresh_pruned {E : Env} {db db' : Db} (h : Pruned E db db') (f : Fresh E db) : Fresh E db' :=
  fun p hp hk => rightAt_pruned h (f p hp (h.knownSub p _ hk))

theorem prefix_append_cases {α : Type} {x a b : List α} (h : x <+: a ++ b) : x <+: a ∨ ∃ y, x = a ++ y ∧ y <+: b := by
  rcases List.prefix_or_prefix_of_prefix h (List.prefix_append a b) with h1 | ⟨y, rfl⟩
  · exact .inl h1
  · exact .inr ⟨y, rfl, (List.prefix_append_right_inj a).1 h⟩

/-- The database stays as the library keeps it. -/
def OkAll (db : Db) (ops : List Op) : Prop := DbOk db → ∀ x, x <+: ops → DbOk (after db x)

theorem OkAll.nil (db : Db) : OkAll db [] := fun h x hx => by rw [List.prefix_nil.1 hx]; exact h

theorem OkAll.one {db : Db} {o : Op} (h : DbOk db → DbOk (db.apply o)) : OkAll db [o] := by
  intro hd x hx
  cases x with
  | nil => exact hd
  | cons a x =>
    obtain ⟨rfl, h2⟩ := List.cons_prefix_cons.1 hx
    rw [List.prefix_nil.1 h2]
    exact h hd

theorem OkAll.append {db : Db} {a b : List Op} (h : OkAll db a) (g : OkAll (after db a) b) : OkAll db (a ++ b) := by
  intro hd x hx
  rcases prefix_append_cases hx with h1 | ⟨y, rfl, h1⟩
  · exact h hd x h1
  · rw [after_append]
    exact g (h hd a List.prefix_rfl) y h1

/-- What the removal may do from one state to another. -/
structure Prune (E : Env) (st st' : St) : Prop where
  log : ∃ ops, st'.log = st.log ++ ops ∧ (∀ o ∈ ops, IsRemoval E o) ∧ st'.db = after st.db ops ∧ OkAll st.db ops
  mtimes : st'.mtimes = st.mtimes
  dirs : st'.removedDirs = st.removedDirs
  fired : Fired st → Fired st' ∧ st'.log = st.log

theorem Prune.pruned {E : Env} {st st' : St} (h : Prune E st st') : Pruned E st.db st'.db := by
  obtain ⟨ops, _, h2, h3, _⟩ := h.log
  rw [h3]; exact pruned_after ops _ h2

theorem Prune.ok {E : Env} {st st' : St} (h : Prune E st st') (hd : DbOk st.db) : DbOk st'.db := by
  obtain ⟨ops, _, _, h3, h4⟩ := h.log
  rw [h3]; exact h4 hd ops List.prefix_rfl

/-- `Prune` for steps that do not look at the signal. -/
structure Prune0 (E : Env) (st st' : St) : Prop where
  log : ∃ ops, st'.log = st.log ++ ops ∧ (∀ o ∈ ops, IsRemoval E o) ∧ st'.db = after st.db ops ∧ OkAll st.db ops
  mtimes : st'.mtimes = st.mtimes
  dirs : st'.removedDirs = st.removedDirs
  intr : st'.intr = st.intr

theorem Prune0.pruned {E : Env} {st st' : St} (h : Prune0 E st st') : Pruned E st.db st'.db := by
  obtain ⟨ops, _, h2, h3, _⟩ := h.log
  rw [h3]; exact pruned_after ops _ h2

theorem Prune0.ok {E : Env} {st st' : St} (h : Prune0 E st st') (hd : DbOk st.db) : DbOk st'.db := by
  obtain ⟨ops, _, _, h3, h4⟩ := h.log
  rw [h3]; exact h4 hd ops List.prefix_rfl

theorem Prune0.refl (E : Env) (st : St) : Prune0 E st st := ⟨⟨[], by simp, by simp, rfl, OkAll.nil _⟩, rfl, rfl, rfl⟩

theorem Prune0.trans {E : Env} {a b c : St} (h : Prune0 E a b) (g : Prune0 E b c) : Prune0 E a c := by
  obtain ⟨⟨o1, h1, h2, h3, h6⟩, h4, h5, h7⟩ := h
  obtain ⟨⟨o2, g1, g2, g3, g6⟩, g4, g5, g7⟩ := g
  refine ⟨⟨o1 ++ o2, by rw [g1, h1, List.append_assoc], ?_, by rw [g3, h3, after_append], h6.append (by rw [← h3]; exact g6)⟩, by rw [g4, h4], by rw [g5, h5], by rw [g7, h7]⟩
  intro o ho
  rcases List.mem_append.1 ho with ho | ho
  · exact h2 o ho
  · exact g2 o ho

theorem prune0_removeFilename {E : Env} (st : St) {d : Path} {n : Str} (hv : ¬ Visible E d n) :
    Prune0 E st (removeFilename st d n) ∧ n ∉ (removeFilename st d n).db.files d := by
  unfold removeFilename
  by_cases h : n ∈ st.db.files d
  · rw [if_pos h]
    refine ⟨⟨⟨[.removeFile d n], rfl, ?_, rfl, OkAll.one (fun hh => hh.removeFile d n)⟩, rfl, rfl, rfl⟩, ?_⟩
    · intro o ho
      rw [List.mem_singleton] at ho
      exact .inl ⟨d, n, ho, hv⟩
    · intro hm
      exact (mem_files_remove.1 hm).2 ⟨rfl, rfl⟩
  · rw [if_neg h]
    exact ⟨Prune0.refl E st, h⟩

theorem prune0_foldl {E : Env} {d : Path} (hs : ¬ Scanned E d) : ∀ (l : List Str) (st : St),
    Prune0 E st (l.foldl (fun st n => removeFilename st d n) st) ∧ ∀ n ∈ l, n ∉ (l.foldl (fun st n => removeFilename st d n) st).db.files d
  | [], st => ⟨Prune0.refl E st, by simp⟩
  | a :: l, st => by
    obtain ⟨h1, h2⟩ := @prune0_removeFilename E st d a (fun h => hs h.1)
    obtain ⟨h3, h4⟩ := prune0_foldl hs l (removeFilename st d a)
    refine ⟨h1.trans h3, ?_⟩
    intro n hn
    rcases List.mem_cons.1 hn with rfl | hn
    · exact fun h => h2 (h3.pruned.filesSub d _ h)
    · exact h4 n hn

theorem removeSubdirs_spec {E : Env} {rec : Path → St → Option St}
    (hrec : ∀ p st st', ¬ Scanned E p → DbOk st.db → rec p st = some st' → Prune0 E st st' ∧ st'.db.known p = none)
    {path : Path} (hp : ¬ Scanned E path) : ∀ (ss : List Str) (st st' : St), DbOk st.db → removeSubdirs rec path ss st = some st' →
      Prune0 E st st' ∧ ∀ s ∈ ss, st'.db.known (path ++ [s]) = none := by
  intro ss
  induction ss with
  | nil =>
    intro st st' _ h
    simp only [removeSubdirs, Option.some.injEq] at h
    subst h
    exact ⟨Prune0.refl E st, by simp⟩
  | cons s ss ih =>
    intro st st' hdb h
    simp only [removeSubdirs] at h
    cases hr : rec (path ++ [s]) st with
    | none => rw [hr] at h; simp at h
    | some st1 =>
      rw [hr] at h
      simp only at h
      obtain ⟨a, b⟩ := hrec _ _ _ (fun hs => hp (scanned_inv hs).1) hdb hr
      obtain ⟨c, d⟩ := ih st1 st' (a.ok hdb) h
      refine ⟨a.trans c, ?_⟩
      intro x hx
      rcases List.mem_cons.1 hx with rfl | hx
      · cases e : st'.db.known (path ++ [x]) with
        | none => rfl
        | some t => rw [c.pruned.knownSub _ _ e] at b; cases b
      · exact d x hx

theorem removeDirectory_succ (fuel : Nat) (path : Path) (st : St) : removeDirectory (fuel + 1) path st =
    if st.db.known path = none then some st
    else
      match removeSubdirs (removeDirectory fuel) path (((st.db.files path).foldl (fun st n => removeFilename st path n) st).db.subdirs path)
        ((st.db.files path).foldl (fun st n => removeFilename st path n) st) with
      | none => none
      | some st2 => some (st2.op (.deleteDir path)) := rfl

theorem removeDirectory_spec {E : Env} : ∀ (fuel : Nat) (path : Path) (st st' : St), ¬ Scanned E path → DbOk st.db →
    removeDirectory fuel path st = some st' → Prune0 E st st' ∧ st'.db.known path = none := by
  intro fuel
  induction fuel with
  | zero => intro path st st' _ _ h; simp [removeDirectory] at h
  | succ fuel ih =>
    intro path st st' hp hdb h
    rw [removeDirectory_succ] at h
    by_cases c1 : st.db.known path = none
    · rw [if_pos c1, Option.some.injEq] at h
      subst h
      exact ⟨Prune0.refl E st, c1⟩
    rw [if_neg c1] at h
    obtain ⟨p1, e1⟩ := prune0_foldl hp (st.db.files path) st
    generalize (st.db.files path).foldl (fun st n => removeFilename st path n) st = st1 at h p1 e1
    cases hs : removeSubdirs (removeDirectory fuel) path (st1.db.subdirs path) st1 with
    | none => rw [hs] at h; simp at h
    | some st2 =>
      rw [hs] at h
      simp only [Option.some.injEq] at h
      subst h
      obtain ⟨p2, e2⟩ := removeSubdirs_spec (fun p st st' a b c => ih p st st' a b c) hp _ st1 st2 (p1.ok hdb) hs
      have p12 := p1.trans p2
      have hdb2 := p12.ok hdb
      have hf : st2.db.files path = [] := by
        cases e : st2.db.files path with
        | nil => rfl
        | cons a l =>
          have h1 : a ∈ st2.db.files path := by rw [e]; simp
          have h2 := p2.pruned.filesSub _ _ h1
          exact absurd h2 (e1 a (p1.pruned.filesSub _ _ h2))
      have hsub : st2.db.subdirs path = [] := by
        cases e : st2.db.subdirs path with
        | nil => rfl
        | cons a l =>
          have h1 : a ∈ st2.db.subdirs path := by rw [e]; simp
          have h2 := e2 a (p2.pruned.subSub _ _ h1)
          have h3 := (hdb2.sub path a).1 h1
          rw [h2] at h3; simp at h3
      have p3 : Prune0 E st2 (st2.op (.deleteDir path)) := by
        refine ⟨⟨[.deleteDir path], rfl, ?_, rfl, OkAll.one (fun _ => hdb2.deleteDir path hf hsub)⟩, rfl, rfl, rfl⟩
        intro o ho
        rw [List.mem_singleton] at ho
        exact .inr ⟨path, ho, hp⟩
      refine ⟨p12.trans p3, ?_⟩
      simp [St.op, Db.apply, Db.deleteDir]

/-! ## The loops -/

theorem Prune.trans {E : Env} {a b c : St} (h : Prune E a b) (g : Prune E b c) : Prune E a c := by
  obtain ⟨⟨o1, h1, h2, h3, h6⟩, h4, h5, h7⟩ := h
  obtain ⟨⟨o2, g1, g2, g3, g6⟩, g4, g5, g7⟩ := g
  refine ⟨⟨o1 ++ o2, by rw [g1, h1, List.append_assoc], ?_, by rw [g3, h3, after_append], h6.append (by rw [← h3]; exact g6)⟩, by rw [g4, h4], by rw [g5, h5], ?_⟩
  · intro o ho
    rcases List.mem_append.1 ho with ho | ho
    · exact h2 o ho
    · exact g2 o ho
  · intro hf
    obtain ⟨x, y⟩ := h7 hf
    obtain ⟨z, w⟩ := g7 x
    exact ⟨z, by rw [w, y]⟩

theorem Prune.refl (E : Env) (st : St) : Prune E st st := ⟨⟨[], by simp, by simp, rfl, OkAll.nil _⟩, rfl, rfl, fun h => ⟨h, rfl⟩⟩

/-- A test of the signal that failed, and a step. -/
theorem prune_step {E : Env} {st st' : St} (c : (check st).1 ≠ true) (h : Prune0 E (check st).2 st') : Prune E st st' := by
  obtain ⟨c1, c2, c3, c4, c5⟩ := check_db st
  obtain ⟨⟨o, h1, h2, h3, h6⟩, h4, h5, h7⟩ := h
  refine ⟨⟨o, by rw [h1, c5], h2, by rw [h3, c1], by rw [← c1]; exact h6⟩, by rw [h4, c4], by rw [h5, c3], ?_⟩
  intro hf
  exfalso
  apply c
  unfold check
  unfold Fired at hf
  rw [hf]

theorem prune_check {E : Env} {st : St} (c : (check st).1 = true) : Prune E st (check st).2 := by
  obtain ⟨c1, c2, c3, c4, c5⟩ := check_db st
  refine ⟨⟨[], by rw [c5, List.append_nil], by simp, by rw [c1]; rfl, OkAll.nil _⟩, c4, c3, fun _ => ⟨check_fired c, c5⟩⟩

theorem removeFilesLoop_spec {E : Env} : ∀ (l : List (Path × Str)) (st : St), (∀ x ∈ l, ¬ Visible E x.1 x.2) →
    Prune E st (removeFilesLoop l st) ∧ (¬ Fired (removeFilesLoop l st) → ∀ x ∈ l, x.2 ∉ (removeFilesLoop l st).db.files x.1)
  | [], st, _ => ⟨Prune.refl E st, by simp⟩
  | x :: l, st, h => by
    rw [removeFilesLoop]
    by_cases c : (check st).1 = true
    · rw [if_pos c]
      exact ⟨prune_check c, fun hf => absurd (check_fired c) hf⟩
    · rw [if_neg c]
      obtain ⟨a, b⟩ := @prune0_removeFilename E (check st).2 x.1 x.2 (h x (by simp))
      obtain ⟨p, q⟩ := removeFilesLoop_spec l (removeFilename (check st).2 x.1 x.2) (fun y hy => h y (by simp [hy]))
      refine ⟨(prune_step c a).trans p, fun hf y hy => ?_⟩
      rcases List.mem_cons.1 hy with rfl | hy
      · exact fun hm => b (p.pruned.filesSub _ _ hm)
      · exact q hf y hy

theorem removeDirsLoop_spec {E : Env} (fuel : Nat) : ∀ (l : List Path) (st st' : St), (∀ x ∈ l, ¬ Scanned E x) → DbOk st.db →
    removeDirsLoop fuel l st = some st' → Prune E st st' ∧ (¬ Fired st' → ∀ x ∈ l, st'.db.known x = none)
  | [], st, st', _, _, h => by
    simp only [removeDirsLoop, Option.some.injEq] at h
    subst h
    exact ⟨Prune.refl E st, by simp⟩
  | x :: l, st, st', hl, hdb, h => by
    rw [removeDirsLoop] at h
    by_cases c : (check st).1 = true
    · rw [if_pos c, Option.some.injEq] at h
      subst h
      exact ⟨prune_check c, fun hf => absurd (check_fired c) hf⟩
    · rw [if_neg c] at h
      have hdb0 : DbOk (check st).2.db := by rw [(check_db st).1]; exact hdb
      cases hr : removeDirectory fuel x (check st).2 with
      | none => rw [hr] at h; simp at h
      | some st1 =>
        rw [hr] at h
        simp only at h
        obtain ⟨a, b⟩ := removeDirectory_spec fuel x _ _ (hl x (by simp)) hdb0 hr
        obtain ⟨p, q⟩ := removeDirsLoop_spec fuel l st1 st' (fun y hy => hl y (by simp [hy])) (a.ok hdb0) h
        refine ⟨(prune_step c a).trans p, fun hf y hy => ?_⟩
        rcases List.mem_cons.1 hy with rfl | hy
        · cases e : st'.db.known y with
          | none => rfl
          | some t => rw [p.pruned.knownSub _ _ e] at b; cases b
        · exact q hf y hy

/-- Recording the mtime of a directory of the mail store that the database knows. -/
def IsSet (E : Env) (db : Db) (o : Op) : Prop :=
  ∃ p, o = .setMtime p (E.fs.mtime p) ∧ Scanned E p ∧ (db.known p).isSome ∧ E.fs.mtime p ≠ E.statTime p

theorem setMtime_known {db : Db} {d : Path} {t : Nat} (hk : (db.known d).isSome) (q : Path) : ((db.setMtime d t).known q).isSome = (db.known q).isSome := by
  simp only [Db.setMtime]
  by_cases e : q = d
  · rw [if_pos e, e, hk]; rfl
  · rw [if_neg e]

theorem mtimesLoop_spec {E : Env} : ∀ (l : List (Path × Nat)) (st : St), (∀ x ∈ l, Scanned E x.1 ∧ x.2 = E.fs.mtime x.1 ∧ x.2 ≠ E.statTime x.1) →
    ∃ ops, (mtimesLoop l st).log = st.log ++ ops ∧ (∀ o ∈ ops, IsSet E st.db o) ∧ (mtimesLoop l st).db = after st.db ops ∧
      (Fired st → Fired (mtimesLoop l st)) ∧ (ops ≠ [] → ¬ Fired st) ∧
      (¬ Fired (mtimesLoop l st) → ∀ x ∈ l, (st.db.known x.1).isSome → .setMtime x.1 (E.fs.mtime x.1) ∈ ops)
  | [], st, _ => ⟨[], by simp [mtimesLoop], by simp, rfl, id, by simp, by simp⟩
  | x :: l, st, h => by
    rw [mtimesLoop]
    obtain ⟨c1, c2, c3, c4, c5⟩ := check_db st
    by_cases c : (check st).1 = true
    · rw [if_pos c]
      exact ⟨[], by rw [c5, List.append_nil], by simp, by rw [c1]; rfl, fun _ => check_fired c, by simp, fun hf => absurd (check_fired c) hf⟩
    · rw [if_neg c]
      have hnf : ¬ Fired st := by
        intro hf
        apply c
        unfold check
        unfold Fired at hf
        rw [hf]
      by_cases k : ((check st).2.db.known x.1).isSome = true
      · rw [if_pos k]
        obtain ⟨ops, h1, h2, h3, h4, _, h6⟩ := mtimesLoop_spec l ((check st).2.op (.setMtime x.1 x.2)) (fun y hy => h y (by simp [hy]))
        obtain ⟨hx1, hx2, hx3⟩ := h x (by simp)
        have hdbE : ((check st).2.op (.setMtime x.1 x.2)).db = st.db.setMtime x.1 x.2 := by
          show ((check st).2.db.setMtime x.1 x.2) = _
          rw [c1]
        have hkn : ∀ q, ((st.db.setMtime x.1 x.2).known q).isSome = (st.db.known q).isSome := by
          rw [c1] at k
          exact setMtime_known k
        refine ⟨.setMtime x.1 x.2 :: ops, ?_, ?_, ?_, fun hf => absurd hf hnf, fun _ => hnf, ?_⟩
        · rw [h1]
          show ((check st).2.log ++ [_]) ++ ops = _
          rw [c5]; simp
        · intro o ho
          rcases List.mem_cons.1 ho with rfl | ho
          · refine ⟨x.1, by rw [hx2], hx1, by rw [← c1]; exact k, by rw [← hx2]; exact hx3⟩
          · obtain ⟨p, e1, e2, e3, e4⟩ := h2 o ho
            refine ⟨p, e1, e2, ?_, e4⟩
            rw [hdbE, hkn] at e3
            exact e3
        · rw [h3, hdbE]; rfl
        · intro hf y hy hky
          rcases List.mem_cons.1 hy with rfl | hy
          · rw [hx2]; simp
          · refine List.mem_cons_of_mem _ (h6 hf y hy ?_)
            rw [hdbE, hkn]; exact hky
      · rw [if_neg k]
        obtain ⟨ops, h1, h2, h3, h4, _, h6⟩ := mtimesLoop_spec l (check st).2 (fun y hy => h y (by simp [hy]))
        rw [c1] at h2 h3 h6 k
        rw [c5] at h1
        refine ⟨ops, h1, h2, h3, fun hf => absurd hf hnf, fun _ => hnf, ?_⟩
        intro hf y hy hky
        rcases List.mem_cons.1 hy with rfl | hy
        · exact absurd hky k
        · exact h6 hf y hy hky

theorem after_files_set {E : Env} {db0 : Db} : ∀ (ops : List Op) (db : Db), (∀ o ∈ ops, IsSet E db0 o) →
    (after db ops).files = db.files ∧ (after db ops).subdirs = db.subdirs
  | [], _, _ => ⟨rfl, rfl⟩
  | o :: ops, db, h => by
    obtain ⟨p, rfl, _⟩ := h o (by simp)
    exact after_files_set ops (db.setMtime p _) (fun o ho => h o (by simp [ho]))

/-- The parts of a run: additions, removals, and recording mtimes. -/
structure RunParts (E : Env) (db : Db) (ok : Bool) (st : St) (A R S : List Op) : Prop where
  log : st.log = A ++ R ++ S
  final : st.db = after db (A ++ R ++ S)
  adds : ∀ o ∈ A, IsAdd E o
  removals : ∀ o ∈ R, IsRemoval E o
  sets : ∀ o ∈ S, IsSet E (after db (A ++ R)) o
  okAll : OkAll (after db A) R
  added : R ++ S ≠ [] → ∀ p n, Mail E p n → n ∈ (after db A).files p
  right : S ≠ [] ∨ (ok = true ∧ ¬ Fired st) → ∀ p, Scanned E p → RightAt E (after db (A ++ R)) p

theorem newCommand_spec {E : Env} (hE : EnvOk E) (hm : ∀ p, E.fs.mtime p ≠ 0) (hl : LinksOk E) {db : Db} (hdb : DbOk db) (hfr : Fresh E db)
    {fuel : Nat} {intr : Option Nat} {ok : Bool} {st : St} (h : newCommand E fuel db intr = some (ok, st)) :
    (ok = true → E.fs.kind [] = .dir) ∧ ∃ A R S, RunParts E db ok st A R S := by
  unfold newCommand at h
  by_cases hroot : E.fs.kind [] = .dir
  case neg =>
    cases fuel with
    | zero => simp [addFiles] at h
    | succ fuel =>
      rw [addFiles, if_pos hroot] at h
      simp only [Option.some.injEq, Prod.mk.injEq] at h
      obtain ⟨rfl, rfl⟩ := h
      exact ⟨by simp, [], [], [], rfl, rfl, by simp, by simp, by simp, OkAll.nil _, by simp, by simp⟩
  refine ⟨fun _ => hroot, ?_⟩
  cases ha : addFiles E fuel [] ⟨db, [], [], [], [], intr⟩ with
  | none => rw [ha] at h; simp at h
  | some r =>
    obtain ⟨ok1, st1⟩ := r
    obtain ⟨g, d⟩ := addFiles_spec hE hm fuel [] _ _ (Scanned.root hroot) hdb hfr ha
    simp only at g d
    obtain ⟨⟨A, hA1, hA2, hA3⟩, ⟨lf, hf1, hf2⟩, ⟨ld, hd1, hd2⟩, ⟨lm, hm1, hm2⟩, hfired⟩ := g
    simp only [List.nil_append] at hA1 hA3 hf1 hd1 hm1
    rw [ha] at h
    cases ok1 with
    | false =>
      simp only [Option.some.injEq, Prod.mk.injEq] at h
      obtain ⟨rfl, rfl⟩ := h
      exact ⟨A, [], [], by simp [hA1], by simp [hA3], hA2, by simp, by simp, OkAll.nil _, by simp, by simp⟩
    | true =>
      simp only at h
      obtain ⟨p1, q1⟩ := removeFilesLoop_spec st1.removedFiles st1 (by rw [hf1]; exact hf2)
      have hdb1 : DbOk st1.db := by rw [hA3]; exact (added_after A db hA2).ok hdb
      cases hr : removeDirsLoop fuel st1.removedDirs (removeFilesLoop st1.removedFiles st1) with
      | none => rw [hr] at h; simp at h
      | some st3 =>
        rw [hr] at h
        simp only [Option.some.injEq, Prod.mk.injEq] at h
        obtain ⟨rfl, rfl⟩ := h
        obtain ⟨p2, q2⟩ := removeDirsLoop_spec fuel st1.removedDirs _ st3 (by rw [hd1]; exact hd2) (p1.ok hdb1) hr
        have p := p1.trans p2
        obtain ⟨R, hR1, hR2, hR3, hR4⟩ := p.log
        have hmt : st3.mtimes = lm := by rw [p.mtimes, hm1]
        obtain ⟨S, hS1, hS2, hS3, hS4, hS5, _⟩ := mtimesLoop_spec st3.mtimes st3 (by rw [hmt]; exact hm2)
        have e1 : st3.db = after db (A ++ R) := by rw [hR3, hA3, after_append]
        have nf : ∀ {P : Prop}, (Fired st1 → P) → (¬ Fired st1 → P) → P := fun a b => (Classical.em _).elim a b
        have done1 : ¬ Fired st1 → ∀ q, Scanned E q → DoneAt E st1 q := fun hnf q hq => d rfl hnf hl q hq ⟨q, rfl⟩
        refine ⟨A, R, S, ?_, ?_, hA2, hR2, ?_, ?_, ?_, ?_⟩
        · rw [hS1, hR1, hA1]
        · rw [hS3, e1, ← after_append]
        · rw [← e1]; exact hS2
        · rw [← hA3]; exact hR4
        · intro hne p' n hmail
          rw [← hA3]
          refine (done1 ?_ p' hmail.1.1).has n hmail
          intro hf
          obtain ⟨f1, f2⟩ := p.fired hf
          apply hne
          rw [f2] at hR1
          have r0 : R = [] := List.append_right_eq_self.1 hR1.symm
          have s0 : S = [] := by
            apply Classical.byContradiction
            intro hs
            exact hS5 hs f1
          rw [r0, s0]; rfl
        · intro hc q hq
          have hnf3 : ¬ Fired st3 := by
            rcases hc with hc | ⟨_, hc⟩
            · exact hS5 hc
            · exact fun hf => hc (hS4 hf)
          have hnf2 : ¬ Fired (removeFilesLoop st1.removedFiles st1) := fun hf => hnf3 (p2.fired hf).1
          have hnf1 : ¬ Fired st1 := fun hf => hnf2 (p1.fired hf).1
          have dn := done1 hnf1 q hq
          rw [← e1]
          have pr := p.pruned
          refine ⟨fun n hn => pr.filesKeep q n (dn.has n hn) hn.1, fun n hn => ?_, fun c hc => ?_⟩
          · rcases dn.only n (pr.filesSub q n hn) with h1 | h1
            · exact h1
            · exact absurd (p2.pruned.filesSub q n hn) (q1 hnf2 (q, n) h1)
          · rcases dn.subs c (pr.subSub q c hc) with h1 | h1
            · exact h1
            · have h2 := q2 hnf3 _ h1
              have h3 := ((p.ok hdb1).sub q c).1 hc
              rw [h2] at h3; simp at h3

/-! ## Parts of the log -/

theorem after_pruned_files {E : Env} {db : Db} {ok : Bool} {st : St} {A R S : List Op} (h : RunParts E db ok st A R S) {x : List Op} (hx : x <+: st.log) :
    (x <+: A) ∨ (∃ y, x = A ++ y ∧ y <+: R ∧ y ≠ []) ∨ (∃ y, x = A ++ R ++ y ∧ y <+: S ∧ y ≠ []) := by
  rw [h.log] at hx
  rcases prefix_append_cases hx with h1 | ⟨y, rfl, h1⟩
  · rcases prefix_append_cases h1 with h2 | ⟨y, rfl, h2⟩
    · exact .inl h2
    · by_cases e : y = []
      · subst e; exact .inl (by simp)
      · exact .inr (.inl ⟨y, rfl, h2, e⟩)
  · by_cases e : y = []
    · subst e
      by_cases e2 : R = []
      · subst e2; exact .inl (by simp)
      · exact .inr (.inl ⟨R, by simp, List.prefix_rfl, e2⟩)
    · exact .inr (.inr ⟨y, rfl, h1, e⟩)

theorem prefix_all {α : Type} {P : α → Prop} {x l : List α} (h : x <+: l) (hl : ∀ o ∈ l, P o) : ∀ o ∈ x, P o := fun o ho => hl o (h.subset ho)

/-- Recording the mtimes: what is known. -/
theorem set_known {E : Env} {db0 : Db} : ∀ (ops : List Op) (db : Db), (∀ o ∈ ops, IsSet E db0 o) → (∀ p, (db.known p).isSome = (db0.known p).isSome) →
    (∀ p, ((after db ops).known p).isSome = (db0.known p).isSome) ∧
    (∀ p t, (after db ops).known p = some t → db.known p = some t ∨ (t = E.fs.mtime p ∧ t ≠ E.statTime p ∧ Scanned E p))
  | [], _, _, h => ⟨h, fun _ _ => .inl⟩
  | o :: ops, db, h, hk => by
    obtain ⟨p, rfl, h1, h2, h3⟩ := h o (by simp)
    have hk' : ∀ q, ((db.setMtime p (E.fs.mtime p)).known q).isSome = (db0.known q).isSome := by
      intro q
      rw [setMtime_known (by rw [hk]; exact h2), hk]
    obtain ⟨a, b⟩ := set_known ops (db.setMtime p (E.fs.mtime p)) (fun o ho => h o (by simp [ho])) hk'
    refine ⟨a, fun q t hq => ?_⟩
    rcases b q t hq with h4 | h4
    · simp only [Db.setMtime] at h4
      by_cases e : q = p
      · subst e
        rw [if_pos rfl, Option.some.injEq] at h4
        subst h4
        exact .inr ⟨rfl, h3, h1⟩
      · rw [if_neg e] at h4
        exact .inl h4
    · exact .inr h4

theorem set_ok {E : Env} {db0 : Db} : ∀ (ops : List Op) (db : Db), (∀ o ∈ ops, IsSet E db0 o) → (∀ p, (db.known p).isSome = (db0.known p).isSome) → DbOk db →
    DbOk (after db ops)
  | [], _, _, _, h => h
  | o :: ops, db, h, hk, hd => by
    obtain ⟨p, rfl, h1, h2, h3⟩ := h o (by simp)
    have hk' : ∀ q, ((db.setMtime p (E.fs.mtime p)).known q).isSome = (db0.known q).isSome := by
      intro q
      rw [setMtime_known (by rw [hk]; exact h2), hk]
    exact set_ok ops _ (fun o ho => h o (by simp [ho])) hk' (hd.setMtime p _ (by rw [hk]; exact h2))

/-- What holds after every part of a run. -/
structure Mid (E : Env) (db db' : Db) : Prop where
  ok : DbOk db'
  fresh : Fresh E db'
  filesKeep : ∀ p n, n ∈ db.files p → Visible E p n → n ∈ db'.files p
  filesNew : ∀ p n, n ∈ db'.files p → n ∈ db.files p ∨ Mail E p n
  subNew : ∀ p c, c ∈ db'.subdirs p → c ∈ db.subdirs p ∨ Scanned E (p ++ [c])
  known : ∀ p t, db'.known p = some t → db.known p = some t ∨ t = 0 ∨ (t = E.fs.mtime p ∧ t ≠ E.statTime p ∧ Scanned E p)
  all : (∀ p n, n ∈ db.files p → n ∈ db'.files p) ∨ (∀ p n, Mail E p n → n ∈ db'.files p)

theorem mid_of_parts {E : Env} (hm : ∀ p, E.fs.mtime p ≠ 0) {db : Db} (hdb : DbOk db) (hfr : Fresh E db) {ok : Bool} {st : St} {A R S : List Op}
    (h : RunParts E db ok st A R S) {x : List Op} (hx : x <+: st.log) : Mid E db (after db x) := by
  have fromA : ∀ y, y <+: A → Added E db (after db y) := fun y hy => added_after y db (prefix_all hy h.adds)
  have aA := fromA A List.prefix_rfl
  have knA : ∀ {db' : Db}, Added E db db' → ∀ p t, db'.known p = some t → db.known p = some t ∨ t = 0 ∨ (t = E.fs.mtime p ∧ t ≠ E.statTime p ∧ Scanned E p) := by
    intro db' a p t hk
    rcases a.knownNew p t hk with h1 | h1
    · exact .inl h1
    · exact .inr (.inl h1.2.1)
  have prs : ∀ y, y <+: R → Pruned E (after db A) (after db (A ++ y)) := by
    intro y hy
    rw [after_append]
    exact pruned_after y _ (prefix_all hy h.removals)
  rcases after_pruned_files h hx with h1 | ⟨y, rfl, h1, hne⟩ | ⟨y, rfl, h1, hne⟩
  · have a := fromA x h1
    exact ⟨a.ok hdb, fresh_added hm a hfr, fun p n hn _ => a.filesMono p n hn, a.filesNew, a.subNew, knA a, .inl a.filesMono⟩
  · have pr := prs y h1
    refine ⟨?_, fresh_pruned pr (fresh_added hm aA hfr), fun p n hn hv => pr.filesKeep p n (aA.filesMono p n hn) hv,
      fun p n hn => aA.filesNew p n (pr.filesSub p n hn), fun p c hc => aA.subNew p c (pr.subSub p c hc), fun p t hk => knA aA p t (pr.knownSub p t hk), .inr ?_⟩
    · rw [after_append]; exact h.okAll (aA.ok hdb) y h1
    · intro p n hn
      refine pr.filesKeep p n (h.added ?_ p n hn) hn.1
      intro e
      rw [List.append_eq_nil_iff] at e
      rw [e.1] at h1
      exact hne (List.prefix_nil.1 h1)
  · have pr := prs R List.prefix_rfl
    have hsne : S ≠ [] := by
      intro e
      rw [e] at h1
      exact hne (List.prefix_nil.1 h1)
    have hset := prefix_all h1 h.sets
    obtain ⟨ef, es⟩ := after_files_set (E := E) y (after db (A ++ R)) hset
    obtain ⟨k1, k2⟩ := set_known (E := E) y (after db (A ++ R)) hset (fun _ => rfl)
    have right := h.right (.inl hsne)
    refine ⟨?_, ?_, ?_, ?_, ?_, ?_, .inr ?_⟩ <;> rw [after_append]
    · refine set_ok (E := E) y (after db (A ++ R)) hset (fun _ => rfl) ?_
      rw [after_append]; exact h.okAll (aA.ok hdb) R List.prefix_rfl
    · intro p hp _
      obtain ⟨r1, r2, r3⟩ := right p hp
      exact ⟨by rw [ef]; exact r1, by rw [ef]; exact r2, by rw [es]; exact r3⟩
    · intro p n hn hv
      rw [ef]; exact pr.filesKeep p n (aA.filesMono p n hn) hv
    · intro p n hn
      rw [ef] at hn
      exact aA.filesNew p n (pr.filesSub p n hn)
    · intro p c hc
      rw [es] at hc
      exact aA.subNew p c (pr.subSub p c hc)
    · intro p t hk
      rcases k2 p t hk with h4 | h4
      · exact knA aA p t (pr.knownSub p t h4)
      · exact .inr (.inr h4)
    · intro p n hn
      rw [ef]; exact (right p hn.1.1).has n hn

/-- After a run to the end, the directories that the database knows are those of the mail store. -/
theorem known_scanned {E : Env} {db db' : Db} (hroot : E.fs.kind [] = .dir) (hd : DirsOk E db) (hok : DbOk db')
    (hsub : ∀ p c, c ∈ db'.subdirs p → c ∈ db.subdirs p ∨ Scanned E (p ++ [c])) (hr : ∀ p, Scanned E p → RightAt E db' p) :
    ∀ p, (db'.known p).isSome → Scanned E p := by
  have key : ∀ (p : Path), (db'.known p.reverse).isSome → Scanned E p.reverse := by
    intro p
    induction p with
    | nil => intro _; exact Scanned.root hroot
    | cons c p ih =>
      rw [List.reverse_cons]
      intro hk
      have hp := ih (hok.parent _ _ hk)
      have hc := (hok.sub _ _).2 hk
      rcases hsub _ _ hc with h1 | h1
      · exact hd _ _ hp h1 ((hr _ hp).subs c hc)
      · exact h1
  intro p
  have := key p.reverse
  rwa [List.reverse_reverse] at this

/-! ## The run ends -/

/-- No directory is deeper than `D`. -/
def Below (D : Nat) (db : Db) : Prop := ∀ p, (db.known p).isSome → p.length ≤ D

def BelowS (D : Nat) (st : St) : Prop := Below D st.db ∧ ∀ p ∈ st.removedDirs, p.length ≤ D + 1

theorem belowS_check {D : Nat} {st : St} (h : BelowS D st) : BelowS D (check st).2 := by
  obtain ⟨c1, _, c3, _, _⟩ := check_db st
  unfold BelowS
  rw [c1, c3]
  exact h

theorem below_add {E : Env} {D : Nat} (hD : ∀ p, E.fs.kind p = .dir → p.length ≤ D) {st : St} {d : Path} {n : Str} (hd : E.fs.kind d = .dir)
    (h : BelowS D st) : BelowS D (addFile E st d n).2 := by
  unfold addFile
  cases E.outcome d n with
  | added =>
    refine ⟨fun p hp => ?_, h.2⟩
    have hp' : ((st.db.addFile d n).known p).isSome := hp
    rcases isSome_known_add.1 hp' with h1 | h1
    · exact h.1 p h1
    · exact Nat.le_trans h1.length_le (hD d hd)
  | skipped => exact h
  | fatal => exact h

theorem below_pass2 {E : Env} {D : Nat} (hD : ∀ p, E.fs.kind p = .dir → p.length ≤ D) {path : Path} (hp : E.fs.kind path = .dir) :
    ∀ (ns fl sl : List Str) (st : St), BelowS D st → BelowS D (pass2 E path ns fl sl st).st := by
  intro ns
  induction ns with
  | nil => intro fl sl st h; exact h
  | cons n ns ih =>
    intro fl sl st h
    have h0 : BelowS D (check st).2 := belowS_check h
    rw [pass2_cons]
    by_cases c1 : (check st).1 = true
    · rw [if_pos c1]; exact h0
    rw [if_neg c1]
    by_cases c2 : special n = true
    · rw [if_pos c2]; exact ih _ _ _ h0
    rw [if_neg c2]
    by_cases c3 : E.ignored path n = true
    · rw [if_pos c3]; exact ih _ _ _ h0
    rw [if_neg c3]
    have h1 : BelowS D (queueDirs path n sl (queueFiles path n fl (check st).2)) := by
      refine ⟨h0.1, fun p hpm => ?_⟩
      simp only [queueDirs, queueFiles, List.mem_append, List.mem_map] at hpm
      rcases hpm with hpm | ⟨s, _, rfl⟩
      · exact h0.2 p hpm
      · have := hD path hp
        simp; omega
    by_cases c4 : E.fs.kind (path ++ [n]) = .error
    · rw [if_pos c4]; exact h1
    rw [if_neg c4]
    by_cases c5 : E.fs.kind (path ++ [n]) ≠ .file
    · rw [if_pos c5]; exact ih _ _ _ h1
    rw [if_neg c5]
    split
    · exact ih _ _ _ h1
    · split
      · exact ih _ _ _ (below_add hD hp h1)
      · exact below_add hD hp h1

theorem below_scan {E : Env} {D : Nat} (hD : ∀ p, E.fs.kind p = .dir → p.length ≤ D) {path : Path} (hp : E.fs.kind path = .dir) (k : Bool)
    (entries : List Str) (st : St) (h : BelowS D st) : BelowS D (scan E path k entries st).2 := by
  have h1 := below_pass2 hD hp entries (if k then st.db.files path else []) (if k then st.db.subdirs path else []) st h
  unfold scan
  generalize pass2 E path entries (if k then st.db.files path else []) (if k then st.db.subdirs path else []) st = r at h1
  simp only
  split
  · exact h1
  · split
    · exact belowS_check h1
    · have h2 := belowS_check h1
      refine ⟨h2.1, fun p hpm => ?_⟩
      simp only [finish, List.mem_append, List.mem_map] at hpm
      rcases hpm with hpm | ⟨s, _, rfl⟩
      · exact h2.2 p hpm
      · have := hD path hp
        simp; omega

theorem pass1_ends {E : Env} {D : Nat} {rec : Path → St → Option (Bool × St)} {path : Path} {maildir : Bool}
    (hrec : ∀ n st, BelowS D st → ∃ r, rec (path ++ [n]) st = some r ∧ BelowS D r.2) :
    ∀ (ns : List Str) (st : St), BelowS D st → ∃ r, pass1 rec E path maildir ns st = some r ∧ BelowS D r.2 := by
  intro ns
  induction ns with
  | nil => intro st h; exact ⟨_, rfl, h⟩
  | cons n ns ih =>
    intro st h
    have h0 : BelowS D (check st).2 := belowS_check h
    rw [pass1_cons]
    by_cases c1 : (check st).1 = true
    · rw [if_pos c1]; exact ⟨_, rfl, h0⟩
    rw [if_neg c1]
    by_cases c2 : special n = true
    · rw [if_pos c2]; exact ih _ h0
    rw [if_neg c2]
    by_cases c3 : E.ignored path n = true
    · rw [if_pos c3]; exact ih _ h0
    rw [if_neg c3]
    by_cases c4 : E.fs.kind (path ++ [n]) = .error
    · rw [if_pos c4]; exact ⟨_, rfl, h0⟩
    rw [if_neg c4]
    by_cases c5 : E.fs.kind (path ++ [n]) ≠ .dir
    · rw [if_pos c5]; exact ih _ h0
    rw [if_neg c5]
    by_cases c6 : skipDir maildir path n = true
    · rw [if_pos c6]; exact ih _ h0
    rw [if_neg c6]
    obtain ⟨⟨ok, st1⟩, h1, h2⟩ := hrec n (check st).2 h0
    rw [h1]
    cases ok with
    | false => exact ⟨_, rfl, h2⟩
    | true => exact ih st1 h2

theorem addFiles_ends {E : Env} {D : Nat} (hD : ∀ p, E.fs.kind p = .dir → p.length ≤ D) : ∀ (fuel : Nat) (path : Path) (st : St),
    path.length ≤ D + 1 → D + 2 ≤ fuel + path.length → BelowS D st → ∃ r, addFiles E fuel path st = some r ∧ BelowS D r.2 := by
  intro fuel
  induction fuel with
  | zero => intro path st h1 h2 _; omega
  | succ fuel ih =>
    intro path st h1 h2 h
    rw [addFiles_succ]
    by_cases c1 : E.fs.kind path ≠ .dir
    · rw [if_pos c1]; exact ⟨_, rfl, h⟩
    have hk : E.fs.kind path = .dir := Classical.not_not.1 c1
    have hlen := hD path hk
    rw [if_neg c1]
    by_cases c2 : unchangedLeaf E path st.db = true
    · rw [if_pos c2]; exact ⟨_, rfl, h⟩
    rw [if_neg c2]
    obtain ⟨⟨ok, st1⟩, e1, e2⟩ := pass1_ends (E := E) (path := path) (maildir := resembleMaildir E.fs path (entriesOf E path (st.db.known path).isSome) 0)
      (fun n st hb => ih (path ++ [n]) st (by simp; omega) (by simp; omega) hb) (entriesOf E path (st.db.known path).isSome) st h
    rw [e1]
    cases ok with
    | false => exact ⟨_, rfl, e2⟩
    | true =>
      simp only
      split
      · exact ⟨_, rfl, e2⟩
      · exact ⟨_, rfl, below_scan hD hk _ _ _ e2⟩

theorem below_removeFilename {D : Nat} {st : St} (d : Path) (n : Str) (h : Below D st.db) : Below D (removeFilename st d n).db := by
  unfold removeFilename
  split
  · exact h
  · exact h

theorem below_foldl {D : Nat} (d : Path) : ∀ (l : List Str) (st : St), Below D st.db → Below D (l.foldl (fun st n => removeFilename st d n) st).db
  | [], _, h => h
  | n :: l, st, h => below_foldl d l _ (below_removeFilename d n h)

theorem removeSubdirs_ends {D : Nat} {rec : Path → St → Option St} {path : Path} (hrec : ∀ s st, Below D st.db → ∃ r, rec (path ++ [s]) st = some r ∧ Below D r.db) :
    ∀ (ss : List Str) (st : St), Below D st.db → ∃ r, removeSubdirs rec path ss st = some r ∧ Below D r.db
  | [], st, h => ⟨st, rfl, h⟩
  | s :: ss, st, h => by
    obtain ⟨st1, h1, h2⟩ := hrec s st h
    rw [removeSubdirs, h1]
    exact removeSubdirs_ends hrec ss st1 h2

theorem removeDirectory_ends {D : Nat} : ∀ (fuel : Nat) (path : Path) (st : St), path.length ≤ D + 1 → D + 2 ≤ fuel + path.length → Below D st.db →
    ∃ r, removeDirectory fuel path st = some r ∧ Below D r.db := by
  intro fuel
  induction fuel with
  | zero => intro path st h1 h2 _; omega
  | succ fuel ih =>
    intro path st h1 h2 h
    rw [removeDirectory_succ]
    by_cases c1 : st.db.known path = none
    · rw [if_pos c1]; exact ⟨_, rfl, h⟩
    rw [if_neg c1]
    have hlen := h path (by cases e : st.db.known path <;> simp_all)
    obtain ⟨r, e1, e2⟩ := removeSubdirs_ends (path := path) (fun s st hb => ih (path ++ [s]) st (by simp; omega) (by simp; omega) hb)
      (((st.db.files path).foldl (fun st n => removeFilename st path n) st).db.subdirs path) _ (below_foldl path (st.db.files path) st h)
    rw [e1]
    refine ⟨_, rfl, ?_⟩
    intro p hp
    have hp' : ((r.db.deleteDir path).known p).isSome := hp
    simp only [Db.deleteDir] at hp'
    split at hp'
    · simp at hp'
    · exact e2 p hp'

theorem below_removeFilesLoop {D : Nat} : ∀ (l : List (Path × Str)) (st : St), Below D st.db → Below D (removeFilesLoop l st).db
  | [], _, h => h
  | x :: l, st, h => by
    have h0 : Below D (check st).2.db := by rw [(check_db st).1]; exact h
    rw [removeFilesLoop]
    split
    · exact h0
    · exact below_removeFilesLoop l _ (below_removeFilename _ _ h0)

theorem removeDirsLoop_ends {D fuel : Nat} (hf : D + 2 ≤ fuel) : ∀ (l : List Path) (st : St), (∀ p ∈ l, p.length ≤ D + 1) → Below D st.db →
    ∃ r, removeDirsLoop fuel l st = some r
  | [], st, _, _ => ⟨st, rfl⟩
  | x :: l, st, hl, h => by
    have h0 : Below D (check st).2.db := by rw [(check_db st).1]; exact h
    rw [removeDirsLoop]
    split
    · exact ⟨_, rfl⟩
    · obtain ⟨r, h1, h2⟩ := removeDirectory_ends fuel x (check st).2 (hl x (by simp)) (by omega) h0
      rw [h1]
      exact removeDirsLoop_ends hf l r (fun p hp => hl p (by simp [hp])) h2

end Notmuch.New
