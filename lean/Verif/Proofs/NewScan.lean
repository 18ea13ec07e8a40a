import Verif.Proofs.New

/-! # `notmuch new`: the scan -/

namespace Notmuch.New
open Notmuch.StringMap Notmuch.StringMapSpec
open Notmuch.TermList (addTerm mem_addTerm sorted_addTerm Sorted sorted_filter sorted_nodup lt_irrefl' lt_trans' not_lt_iff eq_iff)

/-- The scan of a directory is complete: what is not as it should be is queued. -/
structure DoneAt (E : Env) (st : St) (p : Path) : Prop where
  has : ∀ n, Mail E p n → n ∈ st.db.files p
  only : ∀ n ∈ st.db.files p, Visible E p n ∨ (p, n) ∈ st.removedFiles
  subs : ∀ c ∈ st.db.subdirs p, Counts E p c ∨ p ++ [c] ∈ st.removedDirs

theorem RightAt.done {E : Env} {st : St} {p : Path} (h : RightAt E st.db p) : DoneAt E st p :=
  ⟨h.has, fun n hn => .inl (h.only n hn), fun c hc => .inl (h.subs c hc)⟩

/-- What the scan may do from one state to another. -/
structure Grow (E : Env) (st st' : St) : Prop where
  log : ∃ ops, st'.log = st.log ++ ops ∧ (∀ o ∈ ops, IsAdd E o) ∧ st'.db = after st.db ops
  files : ∃ l, st'.removedFiles = st.removedFiles ++ l ∧ ∀ x ∈ l, ¬ Visible E x.1 x.2
  dirs : ∃ l, st'.removedDirs = st.removedDirs ++ l ∧ ∀ x ∈ l, ¬ Scanned E x
  mtimes : ∃ l, st'.mtimes = st.mtimes ++ l ∧ ∀ x ∈ l, Scanned E x.1 ∧ x.2 = E.fs.mtime x.1 ∧ x.2 ≠ E.statTime x.1
  fired : Fired st → Fired st'

theorem Grow.added {E : Env} {st st' : St} (h : Grow E st st') : Added E st.db st'.db := by
  obtain ⟨ops, _, h2, h3⟩ := h.log
  rw [h3]; exact added_after ops _ h2

theorem Grow.refl (E : Env) (st : St) : Grow E st st :=
  ⟨⟨[], by simp, by simp, rfl⟩, ⟨[], by simp, by simp⟩, ⟨[], by simp, by simp⟩, ⟨[], by simp, by simp⟩, id⟩

theorem Grow.trans {E : Env} {a b c : St} (h : Grow E a b) (g : Grow E b c) : Grow E a c := by
  obtain ⟨⟨o1, h1, h2, h3⟩, ⟨f1, h4, h5⟩, ⟨d1, h6, h7⟩, ⟨m1, h8, h9⟩, h10⟩ := h
  obtain ⟨⟨o2, g1, g2, g3⟩, ⟨f2, g4, g5⟩, ⟨d2, g6, g7⟩, ⟨m2, g8, g9⟩, g10⟩ := g
  refine ⟨⟨o1 ++ o2, by rw [g1, h1, List.append_assoc], ?_, by rw [g3, h3, after_append]⟩, ⟨f1 ++ f2, by rw [g4, h4, List.append_assoc], ?_⟩,
    ⟨d1 ++ d2, by rw [g6, h6, List.append_assoc], ?_⟩, ⟨m1 ++ m2, by rw [g8, h8, List.append_assoc], ?_⟩, g10 ∘ h10⟩
  all_goals
    intro x hx
    rcases List.mem_append.1 hx with hx | hx
  · exact h2 x hx
  · exact g2 x hx
  · exact h5 x hx
  · exact g5 x hx
  · exact h7 x hx
  · exact g7 x hx
  · exact h9 x hx
  · exact g9 x hx

theorem Grow.files_mono {E : Env} {a b : St} (h : Grow E a b) {x : Path × Str} (hx : x ∈ a.removedFiles) : x ∈ b.removedFiles := by
  obtain ⟨l, e, _⟩ := h.files
  rw [e]; exact List.mem_append_left _ hx

theorem Grow.dirs_mono {E : Env} {a b : St} (h : Grow E a b) {x : Path} (hx : x ∈ a.removedDirs) : x ∈ b.removedDirs := by
  obtain ⟨l, e, _⟩ := h.dirs
  rw [e]; exact List.mem_append_left _ hx

theorem DoneAt.grow {E : Env} {a b : St} {p : Path} (h : DoneAt E a p) (g : Grow E a b) : DoneAt E b p where
  has n hn := g.added.filesMono p n (h.has n hn)
  only n hn := by
    rcases g.added.filesNew p n hn with h1 | h1
    · rcases h.only n h1 with h2 | h2
      · exact .inl h2
      · exact .inr (g.files_mono h2)
    · exact .inl h1.1
  subs c hc := by
    rcases g.added.subNew p c hc with h1 | h1
    · rcases h.subs c h1 with h2 | h2
      · exact .inl h2
      · exact .inr (g.dirs_mono h2)
    · exact .inl (scanned_inv h1).2.1

theorem grow_check (E : Env) (st : St) : Grow E st (check st).2 := by
  unfold check
  split
  · exact Grow.refl E st
  · exact Grow.refl E st
  · rename_i k h
    refine ⟨⟨[], by simp, by simp, rfl⟩, ⟨[], by simp, by simp⟩, ⟨[], by simp, by simp⟩, ⟨[], by simp, by simp⟩, ?_⟩
    intro hf
    unfold Fired at hf
    rw [h] at hf
    simp at hf

theorem check_fired {st : St} (h : (check st).1 = true) : Fired (check st).2 := by
  unfold check at h ⊢
  unfold Fired
  split at h
  · simp at h
  · rename_i h1; simpa [h1] using h1
  · simp at h

/-- The state after a test that failed, and the database in it. -/
theorem check_db (st : St) : (check st).2.db = st.db ∧ (check st).2.removedFiles = st.removedFiles ∧ (check st).2.removedDirs = st.removedDirs ∧
    (check st).2.mtimes = st.mtimes ∧ (check st).2.log = st.log := by
  unfold check
  split <;> exact ⟨rfl, rfl, rfl, rfl, rfl⟩

/-! ## Maildirs -/

theorem special_iff {n : Str} : special n = false ↔ n ≠ bs "." ∧ n ≠ bs ".." := by
  unfold special
  simp

theorem resemble_count (fs : Fs) (p : Path) : ∀ (l : List Str) (k : Nat), k < 3 →
    (resembleMaildir fs p l k = true ↔ 3 ≤ k + (l.filter (fun n => decide (fs.kind (p ++ [n]) = .dir ∧ (n = bs "new" ∨ n = bs "cur" ∨ n = bs "tmp")))).length)
  | [], k, h => by simp [resembleMaildir]; omega
  | n :: l, k, h => by
    rw [resembleMaildir]
    by_cases h1 : fs.kind (p ++ [n]) = .dir
    · rw [if_neg (by simpa using h1)]
      by_cases h2 : n = bs "new" ∨ n = bs "cur" ∨ n = bs "tmp"
      · rw [if_pos h2, List.filter_cons_of_pos (by simp [h1, h2]), List.length_cons]
        by_cases h3 : k + 1 = 3
        · rw [if_pos h3]
          simp only [true_iff]
          omega
        · rw [if_neg h3, resemble_count fs p l (k + 1) (by omega)]
          omega
      · rw [if_neg h2, resemble_count fs p l k h, List.filter_cons_of_neg (by simp [h1, h2])]
    · rw [if_pos (by simpa using h1), resemble_count fs p l k h, List.filter_cons_of_neg (by simp [h1])]

/-- A list without repetition whose members are among `m` is not longer. -/
theorem nodup_length_le : ∀ {l m : List Str}, l.Nodup → (∀ x ∈ l, x ∈ m) → l.length ≤ m.length
  | [], _, _, _ => Nat.zero_le _
  | a :: l, m, hn, hs => by
    have hn' := List.nodup_cons.1 hn
    have ha := hs a (by simp)
    have := nodup_length_le (m := m.erase a) hn'.2 (by
      intro x hx
      have hne : x ≠ a := by rintro rfl; exact hn'.1 hx
      exact (List.mem_erase_of_ne hne).2 (hs x (by simp [hx])))
    rw [List.length_erase_of_mem ha] at this
    have : 0 < m.length := List.length_pos_of_mem ha
    rw [List.length_cons]
    omega

theorem resemble_iff {fs : Fs} {p : Path} {l : List Str} (hn : l.Nodup) (hl : ∀ n, n ∈ l ↔ n ∈ fs.list p) :
    resembleMaildir fs p l 0 = true ↔ IsMaildir fs p := by
  rw [resemble_count fs p l 0 (by omega), Nat.zero_add]
  generalize hf : (l.filter (fun n => decide (fs.kind (p ++ [n]) = .dir ∧ (n = bs "new" ∨ n = bs "cur" ∨ n = bs "tmp")))) = f
  have hfn : f.Nodup := by rw [← hf]; exact hn.sublist List.filter_sublist
  have hm : ∀ n, n ∈ f ↔ n ∈ fs.list p ∧ fs.kind (p ++ [n]) = .dir ∧ (n = bs "new" ∨ n = bs "cur" ∨ n = bs "tmp") := by
    intro n
    rw [← hf, List.mem_filter, hl, decide_eq_true_eq]
  constructor
  · intro h3 n hcase
    have hin : n ∈ f := by
      apply Classical.byContradiction
      intro hnf
      have : f.length ≤ ([bs "new", bs "cur", bs "tmp"].erase n).length := by
        refine nodup_length_le hfn ?_
        intro x hx
        have hne : x ≠ n := by rintro rfl; exact hnf hx
        rw [List.mem_erase_of_ne hne]
        have := ((hm x).1 hx).2.2
        simpa using this
      have h2 : ([bs "new", bs "cur", bs "tmp"].erase n).length = 2 := by
        rw [List.length_erase_of_mem (by simpa using hcase)]; rfl
      omega
    exact ⟨((hm n).1 hin).1, ((hm n).1 hin).2.1⟩
  · intro h
    have : [bs "new", bs "cur", bs "tmp"].length ≤ f.length := by
      refine nodup_length_le (by decide) ?_
      intro x hx
      have hx' : x = bs "new" ∨ x = bs "cur" ∨ x = bs "tmp" := by simpa using hx
      exact (hm x).2 ⟨(h x hx').1, (h x hx').2, hx'⟩
    exact this

/-! ## Pass 2 -/

theorem sorted_dropWhile {l : List Str} (f : Str → Bool) (h : Sorted l) : Sorted (l.dropWhile f) := h.sublist (List.dropWhile_sublist _)

/-- Names of a sorted list after those before `n`: none is before `n`. -/
theorem dropWhile_lt {n : Str} : ∀ {l : List Str}, Sorted l → ∀ x, x ∈ l.dropWhile (fun f => strcmp f n = .lt) ↔ x ∈ l ∧ strcmp x n ≠ .lt
  | [], _, x => by simp
  | a :: l, hs, x => by
    have hs' := List.pairwise_cons.1 hs
    rw [List.dropWhile_cons]
    by_cases h : strcmp a n = .lt
    · rw [if_pos (by simpa using h), dropWhile_lt hs'.2]
      constructor
      · rintro ⟨h1, h2⟩; exact ⟨by simp [h1], h2⟩
      · rintro ⟨h1, h2⟩
        rcases List.mem_cons.1 h1 with rfl | h1
        · exact absurd h h2
        · exact ⟨h1, h2⟩
    · rw [if_neg (by simpa using h)]
      constructor
      · intro h1
        refine ⟨h1, ?_⟩
        rcases List.mem_cons.1 h1 with rfl | h1
        · exact h
        · intro h2
          exact h (lt_trans' (hs'.1 x h1) h2)
      · exact fun h => h.1

theorem takeWhile_lt {n : Str} {l : List Str} {x : Str} (h : x ∈ l.takeWhile (fun f => strcmp f n = .lt)) : x ∈ l ∧ strcmp x n = .lt := by
  refine ⟨List.takeWhile_sublist _ |>.mem h, ?_⟩
  have := List.all_eq_true.1 List.all_takeWhile x h
  simpa using this

theorem mem_take_or_drop {f : Str → Bool} {l : List Str} {x : Str} (h : x ∈ l) : x ∈ l.takeWhile f ∨ x ∈ l.dropWhile f := by
  rw [← List.mem_append, List.takeWhile_append_dropWhile]; exact h

theorem strcmp_gt_lt {a b : Str} : strcmp a b = .gt ↔ strcmp b a = .lt := by
  rw [strcmp_gt, TermList.lt_iff]
  constructor
  · intro h
    rcases lexLe_total a b with h1 | h1
    · exact absurd h1 h
    · refine ⟨h1, ?_⟩
      rintro rfl
      exact h h1
  · rintro ⟨h1, h2⟩ h3
    exact h2 (lexLe_antisymm _ _ h3 h1)

theorem dropWhile_le {n : Str} : ∀ {l : List Str}, Sorted l → ∀ x, x ∈ l.dropWhile (fun f => strcmp f n ≠ .gt) ↔ x ∈ l ∧ strcmp n x = .lt
  | [], _, x => by simp
  | a :: l, hs, x => by
    have hs' := List.pairwise_cons.1 hs
    rw [List.dropWhile_cons]
    by_cases h : strcmp a n = .gt
    · rw [if_neg (by simpa using h)]
      rw [strcmp_gt_lt] at h
      constructor
      · intro h1
        refine ⟨h1, ?_⟩
        rcases List.mem_cons.1 h1 with rfl | h1
        · exact h
        · exact lt_trans' h (hs'.1 x h1)
      · exact fun h => h.1
    · rw [if_pos (by simpa using h), dropWhile_le hs'.2]
      rw [strcmp_gt_lt] at h
      constructor
      · rintro ⟨h1, h2⟩; exact ⟨by simp [h1], h2⟩
      · rintro ⟨h1, h2⟩
        rcases List.mem_cons.1 h1 with rfl | h1
        · exact absurd h2 h
        · exact ⟨h1, h2⟩

theorem takeWhile_le {n : Str} {l : List Str} {x : Str} (h : x ∈ l.takeWhile (fun f => strcmp f n ≠ .gt)) : x ∈ l ∧ strcmp n x ≠ .lt := by
  refine ⟨List.takeWhile_sublist _ |>.mem h, ?_⟩
  have := List.all_eq_true.1 List.all_takeWhile x h
  rw [ne_eq, ← strcmp_gt_lt]
  simpa using this

theorem Grow.ofLists {E : Env} {st st' : St} (hl : st'.log = st.log) (hd : st'.db = st.db) (hi : st'.intr = st.intr)
    (files : ∃ l, st'.removedFiles = st.removedFiles ++ l ∧ ∀ x ∈ l, ¬ Visible E x.1 x.2)
    (dirs : ∃ l, st'.removedDirs = st.removedDirs ++ l ∧ ∀ x ∈ l, ¬ Scanned E x)
    (mtimes : ∃ l, st'.mtimes = st.mtimes ++ l ∧ ∀ x ∈ l, Scanned E x.1 ∧ x.2 = E.fs.mtime x.1 ∧ x.2 ≠ E.statTime x.1) : Grow E st st' :=
  ⟨⟨[], by rw [hl, List.append_nil], by simp, hd⟩, files, dirs, mtimes, by unfold Fired; rw [hi]; exact id⟩

theorem grow_queue {E : Env} {path : Path} {n : Str} {fl sl : List Str} (st : St)
    (hf : ∀ f ∈ fl, strcmp f n = .lt → ¬ Visible E path f) (hs : ∀ c ∈ sl, strcmp c n = .lt → ¬ Counts E path c) :
    Grow E st (queueDirs path n sl (queueFiles path n fl st)) := by
  refine Grow.ofLists rfl rfl rfl ⟨_, rfl, ?_⟩ ⟨_, rfl, ?_⟩ ⟨[], by simp [queueDirs, queueFiles], by simp⟩
  · intro x hx
    rw [List.mem_map] at hx
    obtain ⟨f, h1, rfl⟩ := hx
    obtain ⟨h2, h3⟩ := takeWhile_lt h1
    exact hf f h2 h3
  · intro x hx
    rw [List.mem_map] at hx
    obtain ⟨c, h1, rfl⟩ := hx
    rw [List.mem_filter, decide_eq_true_eq] at h1
    intro hsc
    exact hs c (takeWhile_le h1.1).1 h1.2 (scanned_inv hsc).2.1

theorem grow_addFile {E : Env} {path : Path} {n : Str} (st : St) (hv : Visible E path n) : Grow E st (addFile E st path n).2 := by
  unfold addFile
  cases h : E.outcome path n with
  | added =>
    refine ⟨⟨[.add path n], rfl, ?_, rfl⟩, ⟨[], by simp [St.op], by simp⟩, ⟨[], by simp [St.op], by simp⟩, ⟨[], by simp [St.op], by simp⟩, id⟩
    intro o ho
    rw [List.mem_singleton] at ho
    exact ⟨path, n, ho, hv, h⟩
  | skipped => exact Grow.refl E st
  | fatal => exact Grow.refl E st

/-- What pass 2 gives. -/
structure Pass2Done (E : Env) (path : Path) (ns fl sl : List Str) (r : Pass2) : Prop where
  files : ∀ f ∈ r.files, ¬ Visible E path f
  subs : ∀ c ∈ r.subs, ¬ Counts E path c
  allFiles : ∀ f ∈ fl, Visible E path f ∨ (path, f) ∈ r.st.removedFiles ∨ f ∈ r.files
  allSubs : ∀ c ∈ sl, Counts E path c ∨ path ++ [c] ∈ r.st.removedDirs ∨ c ∈ r.subs
  mail : ∀ n ∈ ns, Mail E path n → n ∈ fl ∨ n ∈ r.st.db.files path

theorem pass2_cons (E : Env) (path : Path) (n : Str) (ns fl sl : List Str) (st : St) : pass2 E path (n :: ns) fl sl st =
    if (check st).1 then ⟨true, fl, sl, (check st).2⟩
    else if special n then pass2 E path ns fl sl (check st).2
    else if E.ignored path n then pass2 E path ns fl sl (check st).2
    else if E.fs.kind (path ++ [n]) = .error then ⟨false, fl.dropWhile (fun f => strcmp f n = .lt), sl.dropWhile (fun s => strcmp s n ≠ .gt), queueDirs path n sl (queueFiles path n fl (check st).2)⟩
    else if E.fs.kind (path ++ [n]) ≠ .file then pass2 E path ns (fl.dropWhile (fun f => strcmp f n = .lt)) (sl.dropWhile (fun s => strcmp s n ≠ .gt)) (queueDirs path n sl (queueFiles path n fl (check st).2))
    else if (fl.dropWhile (fun f => strcmp f n = .lt)).head? = some n then pass2 E path ns (fl.dropWhile (fun f => strcmp f n = .lt)).tail (sl.dropWhile (fun s => strcmp s n ≠ .gt)) (queueDirs path n sl (queueFiles path n fl (check st).2))
    else if (addFile E (queueDirs path n sl (queueFiles path n fl (check st).2)) path n).1 then
      pass2 E path ns (fl.dropWhile (fun f => strcmp f n = .lt)) (sl.dropWhile (fun s => strcmp s n ≠ .gt)) (addFile E (queueDirs path n sl (queueFiles path n fl (check st).2)) path n).2
    else ⟨false, fl.dropWhile (fun f => strcmp f n = .lt), sl.dropWhile (fun s => strcmp s n ≠ .gt), (addFile E (queueDirs path n sl (queueFiles path n fl (check st).2)) path n).2⟩ := rfl

theorem pass2_spec {E : Env} {path : Path} (hp : Scanned E path) : ∀ (ns fl sl : List Str) (st : St),
    (∀ n ∈ ns, n ∈ E.fs.list path) → (Sorted ns ∨ (fl = [] ∧ sl = [])) → Sorted fl → Sorted sl →
    (∀ f ∈ fl, Visible E path f → f ∈ ns) → (∀ c ∈ sl, Counts E path c → c ∈ ns) →
    Grow E st (pass2 E path ns fl sl st).st ∧
      ((pass2 E path ns fl sl st).ok = true → ¬ Fired (pass2 E path ns fl sl st).st → Pass2Done E path ns fl sl (pass2 E path ns fl sl st)) := by
  intro ns
  induction ns with
  | nil =>
    intro fl sl st _ _ _ _ hf hs
    refine ⟨Grow.refl E st, fun _ _ => ⟨?_, ?_, ?_, ?_, ?_⟩⟩
    · intro f h1 h2; exact absurd (hf f h1 h2) (by simp)
    · intro f h1 h2; exact absurd (hs f h1 h2) (by simp)
    · intro f h; exact .inr (.inr h)
    · intro f h; exact .inr (.inr h)
    · simp
  | cons n ns ih =>
    intro fl sl st hin hord hfl hsl hf hs
    have g0 := grow_check E st
    have hin' : ∀ m ∈ ns, m ∈ E.fs.list path := fun m hm => hin m (by simp [hm])
    have hord' : ∀ {fl' sl' : List Str}, (fl = [] → fl' = []) → (sl = [] → sl' = []) → Sorted ns ∨ (fl' = [] ∧ sl' = []) := by
      intro fl' sl' h1 h2
      rcases hord with h | h
      · exact .inl (List.pairwise_cons.1 h).2
      · exact .inr ⟨h1 h.1, h2 h.2⟩
    -- names of the database that are still to come in the file system are after `n`
    have hgt : ∀ x, (x ∈ fl ∨ x ∈ sl) → x ∈ n :: ns → x = n ∨ strcmp n x = .lt := by
      intro x hx hxn
      rcases hord with h | ⟨h1, h2⟩
      · rcases List.mem_cons.1 hxn with e | e
        · exact .inl e
        · exact .inr ((List.pairwise_cons.1 h).1 x e)
      · rw [h1, h2] at hx; simp at hx
    -- skipping an entry that does not count
    have skip : ¬ Counts E path n → Grow E st (pass2 E path ns fl sl (check st).2).st ∧
        ((pass2 E path ns fl sl (check st).2).ok = true → ¬ Fired (pass2 E path ns fl sl (check st).2).st →
          Pass2Done E path (n :: ns) fl sl (pass2 E path ns fl sl (check st).2)) := by
      intro hnc
      have ih' := ih fl sl (check st).2 hin' (hord' id id) hfl hsl
        (by
          intro f h1 h2
          rcases List.mem_cons.1 (hf f h1 h2) with rfl | h
          · exact absurd h2.2.1 hnc
          · exact h)
        (by
          intro f h1 h2
          rcases List.mem_cons.1 (hs f h1 h2) with rfl | h
          · exact absurd h2 hnc
          · exact h)
      refine ⟨g0.trans ih'.1, fun h1 h2 => ?_⟩
      obtain ⟨a, b, c, d, e⟩ := ih'.2 h1 h2
      refine ⟨a, b, c, d, ?_⟩
      intro m hm hmail
      rcases List.mem_cons.1 hm with rfl | hm
      · exact absurd hmail.1.2.1 hnc
      · exact e m hm hmail
    rw [pass2_cons]
    by_cases c1 : (check st).1 = true
    · rw [if_pos c1]
      exact ⟨g0, fun _ h => absurd (check_fired c1) h⟩
    rw [if_neg c1]
    by_cases c2 : special n = true
    · rw [if_pos c2]
      apply skip
      intro h
      have := special_iff.2 ⟨h.2.1, h.2.2.1⟩
      rw [c2] at this; cases this
    rw [if_neg c2]
    by_cases c3 : E.ignored path n = true
    · rw [if_pos c3]
      apply skip
      intro h
      have := h.2.2.2
      rw [c3] at this; cases this
    rw [if_neg c3]
    have hcount : Counts E path n := by
      have := special_iff.1 (Bool.not_eq_true _ ▸ c2 : special n = false)
      exact ⟨hin n (by simp), this.1, this.2, by simpa using c3⟩
    have g1 := g0.trans (@grow_queue E path n fl sl (check st).2
      (by
        intro f h1 h2 h3
        rcases hgt f (.inl h1) (hf f h1 h3) with rfl | h
        · exact lt_irrefl' _ h2
        · exact lt_irrefl' _ (lt_trans' h h2))
      (by
        intro f h1 h2 h3
        rcases hgt f (.inr h1) (hs f h1 h3) with rfl | h
        · exact lt_irrefl' _ h2
        · exact lt_irrefl' _ (lt_trans' h h2)))
    generalize hq : queueDirs path n sl (queueFiles path n fl (check st).2) = q at g1 ⊢
    have qf : ∀ f ∈ fl, strcmp f n = .lt → (path, f) ∈ q.removedFiles := by
      intro f h1 h2
      rw [← hq]
      simp only [queueDirs, queueFiles, List.mem_append, List.mem_map]
      refine .inr ⟨f, ?_, rfl⟩
      rcases mem_take_or_drop (f := fun f => decide (strcmp f n = .lt)) h1 with h | h
      · exact h
      · exact absurd h2 ((dropWhile_lt hfl f).1 h).2
    have qs : ∀ c ∈ sl, strcmp c n = .lt → path ++ [c] ∈ q.removedDirs := by
      intro f h1 h2
      rw [← hq]
      simp only [queueDirs, queueFiles, List.mem_append, List.mem_map, List.mem_filter, decide_eq_true_eq]
      refine .inr ⟨f, ⟨?_, h2⟩, rfl⟩
      rcases mem_take_or_drop (f := fun f => decide (strcmp f n ≠ .gt)) h1 with h | h
      · exact h
      · exact absurd (lt_trans' ((dropWhile_le hsl f).1 h).2 h2) (lt_irrefl' n)
    have dfl : Sorted (fl.dropWhile (fun f => decide (strcmp f n = .lt))) := sorted_dropWhile _ hfl
    have dsl : Sorted (sl.dropWhile (fun f => decide (strcmp f n ≠ .gt))) := sorted_dropWhile _ hsl
    have e1 : fl = [] → fl.dropWhile (fun f => decide (strcmp f n = .lt)) = [] := by rintro rfl; rfl
    have e2 : sl = [] → sl.dropWhile (fun f => decide (strcmp f n ≠ .gt)) = [] := by rintro rfl; rfl
    have hs' : ∀ c ∈ sl.dropWhile (fun s => decide (strcmp s n ≠ .gt)), Counts E path c → c ∈ ns := by
      intro c h1 h2
      obtain ⟨h3, h4⟩ := (dropWhile_le hsl c).1 h1
      rcases List.mem_cons.1 (hs c h3 h2) with rfl | h
      · exact absurd h4 (lt_irrefl' _)
      · exact h
    -- what is known of the names when the rest of the pass is done
    have back : ∀ {r : Pass2} {fl' : List Str}, (∀ f ∈ fl.dropWhile (fun f => decide (strcmp f n = .lt)), f ∈ fl' ∨ Visible E path f) → (∀ f ∈ fl', f ∈ fl) →
        Grow E q r.st → (Mail E path n → n ∈ fl ∨ n ∈ r.st.db.files path) →
        Pass2Done E path ns fl' (sl.dropWhile (fun s => decide (strcmp s n ≠ .gt))) r → Pass2Done E path (n :: ns) fl sl r := by
      intro r fl' k1 k2 gr k3 d
      refine ⟨d.files, d.subs, ?_, ?_, ?_⟩
      · intro f h
        by_cases hlt : strcmp f n = .lt
        · exact .inr (.inl (gr.files_mono (qf f h hlt)))
        · rcases k1 f ((dropWhile_lt hfl f).2 ⟨h, hlt⟩) with h | h
          · exact d.allFiles f h
          · exact .inl h
      · intro c h
        by_cases hlt : strcmp c n = .lt
        · exact .inr (.inl (gr.dirs_mono (qs c h hlt)))
        · by_cases hgt' : strcmp n c = .lt
          · exact d.allSubs c ((dropWhile_le hsl c).2 ⟨h, hgt'⟩)
          · have : c = n := lexLe_antisymm _ _ ((not_lt_iff _ _).1 hgt') ((not_lt_iff _ _).1 hlt)
            exact .inl (this ▸ hcount)
      · intro m hm hmail
        rcases List.mem_cons.1 hm with rfl | hm
        · exact k3 hmail
        · rcases d.mail m hm hmail with h | h
          · exact .inl (k2 m h)
          · exact .inr h
    have hdw : ∀ f ∈ fl.dropWhile (fun f => decide (strcmp f n = .lt)), f ∈ fl := fun f h => ((dropWhile_lt hfl f).1 h).1
    by_cases c4 : E.fs.kind (path ++ [n]) = .error
    · rw [if_pos c4]
      exact ⟨g1, fun h => by simp at h⟩
    rw [if_neg c4]
    by_cases c5 : E.fs.kind (path ++ [n]) ≠ .file
    · rw [if_pos c5]
      have ih' := ih (fl.dropWhile (fun f => decide (strcmp f n = .lt))) (sl.dropWhile (fun s => decide (strcmp s n ≠ .gt))) q hin' (hord' e1 e2) dfl dsl
        (by
          intro f h1 h2
          rcases List.mem_cons.1 (hf f (hdw f h1) h2) with rfl | h
          · exact absurd h2.2.2 c5
          · exact h) hs'
      refine ⟨g1.trans ih'.1, fun h1 h2 => ?_⟩
      refine back (fun f h => .inl h) hdw ih'.1 ?_ (ih'.2 h1 h2)
      intro hm; exact absurd hm.1.2.2 c5
    rw [if_neg c5]
    have hvis : Visible E path n := ⟨hp, hcount, Classical.not_not.1 c5⟩
    by_cases c6 : (fl.dropWhile (fun f => decide (strcmp f n = .lt))).head? = some n
    · rw [if_pos c6]
      obtain ⟨tl, htl⟩ : ∃ tl, fl.dropWhile (fun f => decide (strcmp f n = .lt)) = n :: tl := by
        cases h : fl.dropWhile (fun f => decide (strcmp f n = .lt)) with
        | nil => rw [h] at c6; simp at c6
        | cons a tl => rw [h] at c6; simp only [List.head?_cons, Option.some.injEq] at c6; exact ⟨tl, by rw [c6]⟩
      rw [htl, List.tail_cons]
      rw [htl] at dfl hdw
      have hs1 := List.pairwise_cons.1 dfl
      have ih' := ih tl (sl.dropWhile (fun s => decide (strcmp s n ≠ .gt))) q hin'
        (hord' (fun e => by have := e1 e; rw [htl] at this; simp at this) e2) hs1.2 dsl
        (by
          intro f h1 h2
          rcases List.mem_cons.1 (hf f (hdw f (by simp [h1])) h2) with rfl | h
          · exact absurd (hs1.1 _ h1) (lt_irrefl' _)
          · exact h) hs'
      refine ⟨g1.trans ih'.1, fun h1 h2 => ?_⟩
      refine back ?_ (fun f h => hdw f (by simp [h])) ih'.1 ?_ (ih'.2 h1 h2)
      · intro f h
        rw [htl] at h
        rcases List.mem_cons.1 h with rfl | h
        · exact .inr hvis
        · exact .inl h
      · intro _; exact .inl (hdw n (by simp))
    rw [if_neg c6]
    have hnf : n ∉ fl.dropWhile (fun f => decide (strcmp f n = .lt)) := by
      intro h
      cases hd : fl.dropWhile (fun f => decide (strcmp f n = .lt)) with
      | nil => rw [hd] at h; simp at h
      | cons a tl =>
        rw [hd] at h c6 dfl
        rcases List.mem_cons.1 h with rfl | h
        · simp at c6
        · have h1 := (List.pairwise_cons.1 dfl).1 n h
          have h2 : a ∈ fl.dropWhile (fun f => decide (strcmp f n = .lt)) := by rw [hd]; simp
          exact ((dropWhile_lt hfl a).1 h2).2 h1
    have g2 := @grow_addFile E path n q hvis
    by_cases c7 : (addFile E q path n).1 = true
    · rw [if_pos c7]
      have ih' := ih (fl.dropWhile (fun f => decide (strcmp f n = .lt))) (sl.dropWhile (fun s => decide (strcmp s n ≠ .gt))) (addFile E q path n).2 hin' (hord' e1 e2) dfl dsl
        (by
          intro f h1 h2
          rcases List.mem_cons.1 (hf f (hdw f h1) h2) with rfl | h
          · exact absurd h1 hnf
          · exact h) hs'
      refine ⟨(g1.trans g2).trans ih'.1, fun h1 h2 => ?_⟩
      refine back (fun f h => .inl h) hdw (g2.trans ih'.1) ?_ (ih'.2 h1 h2)
      intro hm
      refine .inr (ih'.1.added.filesMono _ _ ?_)
      unfold addFile
      rw [hm.2]
      exact mem_files_add.2 (.inr ⟨rfl, rfl⟩)
    · rw [if_neg c7]
      exact ⟨g1.trans g2, fun h => by simp at h⟩

/-! ## One directory -/

theorem grow_finish {E : Env} {path : Path} (hp : Scanned E path) {fl sl : List Str} (st : St)
    (hf : ∀ f ∈ fl, ¬ Visible E path f) (hs : ∀ c ∈ sl, ¬ Counts E path c) : Grow E st (finish E path fl sl st) := by
  refine Grow.ofLists rfl rfl rfl ⟨_, rfl, ?_⟩ ⟨_, rfl, ?_⟩ ?_
  · intro x hx
    rw [List.mem_map] at hx
    obtain ⟨f, h1, rfl⟩ := hx
    exact hf f h1
  · intro x hx
    rw [List.mem_map] at hx
    obtain ⟨c, h1, rfl⟩ := hx
    exact fun h => hs c h1 (scanned_inv h).2.1
  · by_cases h : E.fs.mtime path ≠ E.statTime path
    · refine ⟨[(path, E.fs.mtime path)], by simp [finish, h], ?_⟩
      intro x hx
      rw [List.mem_singleton] at hx
      subst hx
      exact ⟨hp, rfl, h⟩
    · exact ⟨[], by simp [finish, h], by simp⟩

theorem scan_spec {E : Env} {path : Path} (hp : Scanned E path) (known : Bool) (entries : List Str) (st : St) (hdb : DbOk st.db)
    (hin : ∀ n, n ∈ entries ↔ n ∈ E.fs.list path) (hord : known = true → Sorted entries)
    (hunk : known = false → (∀ f ∈ st.db.files path, Visible E path f) ∧ ∀ c ∈ st.db.subdirs path, Counts E path c) :
    Grow E st (scan E path known entries st).2 ∧ ((scan E path known entries st).1 = true → ¬ Fired (scan E path known entries st).2 → DoneAt E (scan E path known entries st).2 path) := by
  have hnilS : Sorted [] := List.Pairwise.nil
  have spec := pass2_spec hp entries (if known then st.db.files path else []) (if known then st.db.subdirs path else []) st
    (fun n h => (hin n).1 h)
    (by cases known with
      | true => exact .inl (hord rfl)
      | false => exact .inr ⟨rfl, rfl⟩)
    (by cases known with
      | true => exact hdb.files path
      | false => exact hnilS)
    (by cases known with
      | true => exact hdb.subdirs path
      | false => exact hnilS)
    (fun f _ hv => (hin f).2 hv.2.1.1) (fun c _ hc => (hin c).2 hc.1)
  unfold scan
  simp only
  generalize pass2 E path entries (if known then st.db.files path else []) (if known then st.db.subdirs path else []) st = r at spec
  obtain ⟨g, d⟩ := spec
  by_cases c1 : (!r.ok) = true
  · rw [if_pos c1]
    exact ⟨g, fun h => by simp at h⟩
  rw [if_neg c1]
  have hok : r.ok = true := by simpa using c1
  have gc := g.trans (grow_check E r.st)
  by_cases c2 : (check r.st).1 = true
  · rw [if_pos c2]
    exact ⟨gc, fun _ h => absurd (check_fired c2) h⟩
  rw [if_neg c2]
  have hnf0 : ¬ Fired r.st := by
    intro h
    unfold check at c2
    unfold Fired at h
    rw [h] at c2
    simp at c2
  have d := d hok hnf0
  have gf := @grow_finish E path hp r.files r.subs (check r.st).2 d.files d.subs
  refine ⟨gc.trans gf, fun _ _ => ?_⟩
  have gall := gc.trans gf
  have g' := (grow_check E r.st).trans gf
  refine ⟨?_, ?_, ?_⟩
  · intro n hn
    rcases d.mail n ((hin n).2 hn.1.2.1.1) hn with h | h
    · refine gall.added.filesMono path n ?_
      cases known with
      | true => exact h
      | false => simp at h
    · exact g'.added.filesMono path n h
  · intro n hn
    rcases gall.added.filesNew path n hn with h | h
    · cases hk : known with
      | false => exact .inl ((hunk hk).1 n h)
      | true =>
        rcases d.allFiles n (by rw [hk]; exact h) with h1 | h1 | h1
        · exact .inl h1
        · exact .inr (g'.files_mono h1)
        · refine .inr ?_
          simp only [finish, List.mem_append, List.mem_map]
          exact .inr ⟨n, h1, rfl⟩
    · exact .inl h.1
  · intro c hc
    rcases gall.added.subNew path c hc with h | h
    · cases hk : known with
      | false => exact .inl ((hunk hk).2 c h)
      | true =>
        rcases d.allSubs c (by rw [hk]; exact h) with h1 | h1 | h1
        · exact .inl h1
        · exact .inr (g'.dirs_mono h1)
        · refine .inr ?_
          simp only [finish, List.mem_append, List.mem_map]
          exact .inr ⟨c, h1, rfl⟩
    · exact .inl (scanned_inv h).2.1

/-- What a call of `add_files` gives for a directory. -/
def ScanSpec (E : Env) (path : Path) (st : St) (r : Bool × St) : Prop :=
  Grow E st r.2 ∧ (r.1 = true → ¬ Fired r.2 → LinksOk E → ∀ q, Scanned E q → path <+: q → DoneAt E r.2 q)

theorem pass1_cons (rec : Path → St → Option (Bool × St)) (E : Env) (path : Path) (maildir : Bool) (n : Str) (ns : List Str) (st : St) :
    pass1 rec E path maildir (n :: ns) st =
    if (check st).1 then some (true, (check st).2)
    else if special n then pass1 rec E path maildir ns (check st).2
    else if E.ignored path n then pass1 rec E path maildir ns (check st).2
    else if E.fs.kind (path ++ [n]) = .error then some (false, (check st).2)
    else if E.fs.kind (path ++ [n]) ≠ .dir then pass1 rec E path maildir ns (check st).2
    else if skipDir maildir path n then pass1 rec E path maildir ns (check st).2
    else
      match rec (path ++ [n]) (check st).2 with
      | none => none
      | some (false, st) => some (false, st)
      | some (true, st) => pass1 rec E path maildir ns st := rfl

theorem pass1_spec {E : Env} (hm : ∀ p, E.fs.mtime p ≠ 0) {rec : Path → St → Option (Bool × St)}
    (hrec : ∀ p st r, Scanned E p → DbOk st.db → Fresh E st.db → rec p st = some r → ScanSpec E p st r)
    {path : Path} (hp : Scanned E path) {maildir : Bool} (hmd : maildir = true ↔ IsMaildir E.fs path) :
    ∀ (ns : List Str) (st : St) (r : Bool × St), (∀ n ∈ ns, n ∈ E.fs.list path) → DbOk st.db → Fresh E st.db →
      pass1 rec E path maildir ns st = some r →
      Grow E st r.2 ∧ (r.1 = true → ¬ Fired r.2 → LinksOk E → ∀ n ∈ ns, ∀ q, Scanned E q → path ++ [n] <+: q → DoneAt E r.2 q) := by
  intro ns
  induction ns with
  | nil =>
    intro st r _ _ _ h
    simp only [pass1, Option.some.injEq] at h
    subst h
    exact ⟨Grow.refl E st, by simp⟩
  | cons n ns ih =>
    intro st r hin hdb hfr h
    have g0 := grow_check E st
    have hdb0 : DbOk (check st).2.db := by rw [(check_db st).1]; exact hdb
    have hfr0 : Fresh E (check st).2.db := by rw [(check_db st).1]; exact hfr
    have hin' : ∀ m ∈ ns, m ∈ E.fs.list path := fun m hm => hin m (by simp [hm])
    have skip : ¬ Scanned E (path ++ [n]) → pass1 rec E path maildir ns (check st).2 = some r →
        Grow E st r.2 ∧ (r.1 = true → ¬ Fired r.2 → LinksOk E → ∀ m ∈ n :: ns, ∀ q, Scanned E q → path ++ [m] <+: q → DoneAt E r.2 q) := by
      intro hns h
      obtain ⟨a, b⟩ := ih _ r hin' hdb0 hfr0 h
      refine ⟨g0.trans a, fun h1 h2 h3 m hm' q hq hpre => ?_⟩
      rcases List.mem_cons.1 hm' with rfl | hm'
      · exact absurd (scanned_prefix hq hpre) hns
      · exact b h1 h2 h3 m hm' q hq hpre
    rw [pass1_cons] at h
    by_cases c1 : (check st).1 = true
    · rw [if_pos c1, Option.some.injEq] at h
      subst h
      exact ⟨g0, fun _ h => absurd (check_fired c1) h⟩
    rw [if_neg c1] at h
    by_cases c2 : special n = true
    · rw [if_pos c2] at h
      refine skip (fun hs => ?_) h
      have hc := (scanned_inv hs).2.1
      have := special_iff.2 ⟨hc.2.1, hc.2.2.1⟩
      rw [c2] at this; cases this
    rw [if_neg c2] at h
    by_cases c3 : E.ignored path n = true
    · rw [if_pos c3] at h
      refine skip (fun hs => ?_) h
      have hc := (scanned_inv hs).2.1.2.2.2
      rw [c3] at hc; cases hc
    rw [if_neg c3] at h
    by_cases c4 : E.fs.kind (path ++ [n]) = .error
    · rw [if_pos c4, Option.some.injEq] at h
      subst h
      exact ⟨g0, fun h => by simp at h⟩
    rw [if_neg c4] at h
    by_cases c5 : E.fs.kind (path ++ [n]) ≠ .dir
    · rw [if_pos c5] at h
      exact skip (fun hs => c5 (scanned_inv hs).2.2.1) h
    rw [if_neg c5] at h
    have hkind := Classical.not_not.1 c5
    by_cases c6 : skipDir maildir path n = true
    · rw [if_pos c6] at h
      refine skip (fun hs => ?_) h
      obtain ⟨_, _, _, h4, h5⟩ := scanned_inv hs
      unfold skipDir at c6
      simp only [Bool.or_eq_true, Bool.and_eq_true, decide_eq_true_eq] at c6
      rcases c6 with ⟨x, y⟩ | ⟨x, y⟩
      · exact h4 ⟨hmd.1 x, y⟩
      · exact h5 ⟨y, x⟩
    rw [if_neg c6] at h
    have hsc : Scanned E (path ++ [n]) := by
      have hsp := special_iff.1 (Bool.not_eq_true _ ▸ c2 : special n = false)
      refine .sub hp ⟨hin n (by simp), hsp.1, hsp.2, by simpa using c3⟩ hkind ?_ ?_
      · rintro ⟨x, y⟩
        apply c6
        unfold skipDir
        rw [hmd.2 x]
        simp [y]
      · rintro ⟨x, y⟩
        apply c6
        unfold skipDir
        simp [x, y]
    cases hr : rec (path ++ [n]) (check st).2 with
    | none => rw [hr] at h; simp at h
    | some r1 =>
      obtain ⟨ok1, st1⟩ := r1
      obtain ⟨g1, d1⟩ := hrec _ _ _ hsc hdb0 hfr0 hr
      rw [hr] at h
      cases ok1 with
      | false =>
        simp only [Option.some.injEq] at h
        subst h
        exact ⟨g0.trans g1, fun h => by simp at h⟩
      | true =>
        simp only at h g1 d1
        obtain ⟨a, b⟩ := ih st1 r hin' (g1.added.ok hdb0) (fresh_added hm g1.added hfr0) h
        refine ⟨(g0.trans g1).trans a, fun h1 h2 h3 m hm' q hq hpre => ?_⟩
        rcases List.mem_cons.1 hm' with rfl | hm'
        · exact (d1 trivial (fun hf => h2 (a.fired hf)) h3 q hq hpre).grow a
        · exact b h1 h2 h3 m hm' q hq hpre

theorem entries_mem {E : Env} (hE : EnvOk E) (path : Path) (k : Bool) (n : Str) : n ∈ entriesOf E path k ↔ n ∈ E.fs.list path := by
  unfold entriesOf
  split
  · exact (hE.sortPerm _).mem_iff
  · exact (hE.inodePerm _ _).mem_iff

theorem entries_nodup {E : Env} (hE : EnvOk E) (path : Path) (k : Bool) : (entriesOf E path k).Nodup := by
  unfold entriesOf
  split
  · exact (hE.sortPerm _).nodup_iff.2 (hE.names path)
  · exact (hE.inodePerm _ _).nodup_iff.2 (hE.names path)

theorem entries_sorted {E : Env} (hE : EnvOk E) (path : Path) : Sorted (entriesOf E path true) := by
  have h1 : (entriesOf E path true).Pairwise (fun a b => strcmp a b ≠ .gt) := hE.sortSorted _
  have h2 : (entriesOf E path true).Pairwise (fun a b => a ≠ b) := entries_nodup hE path true
  refine (h1.and h2).imp ?_
  rintro a b ⟨h3, h4⟩
  cases h : strcmp a b with
  | lt => rfl
  | eq => exact absurd ((eq_iff a b).1 h) h4
  | gt => exact absurd h h3

theorem addFiles_succ (E : Env) (fuel : Nat) (path : Path) (st : St) : addFiles E (fuel + 1) path st =
    if E.fs.kind path ≠ .dir then some (false, st)
    else if unchangedLeaf E path st.db then some (true, st)
    else
      match pass1 (addFiles E fuel) E path (resembleMaildir E.fs path (entriesOf E path (st.db.known path).isSome) 0) (entriesOf E path (st.db.known path).isSome) st with
      | none => none
      | some (false, st1) => some (false, st1)
      | some (true, st1) =>
        if !E.fullScan && st.db.known path = some (E.fs.mtime path) then some (true, st1)
        else some (scan E path (st.db.known path).isSome (entriesOf E path (st.db.known path).isSome) st1) := rfl

/-- `add_files` of a directory of the mail store. -/
theorem addFiles_spec {E : Env} (hE : EnvOk E) (hm : ∀ p, E.fs.mtime p ≠ 0) : ∀ (fuel : Nat) (path : Path) (st : St) (r : Bool × St),
    Scanned E path → DbOk st.db → Fresh E st.db → addFiles E fuel path st = some r → ScanSpec E path st r := by
  intro fuel
  induction fuel with
  | zero => intro path st r _ _ _ h; simp [addFiles] at h
  | succ fuel ih =>
    intro path st r hp hdb hfr h
    rw [addFiles_succ, if_neg (by simp [scanned_kind hp])] at h
    by_cases c1 : unchangedLeaf E path st.db = true
    · rw [if_pos c1, Option.some.injEq] at h
      subst h
      refine ⟨Grow.refl E st, fun _ _ hl q hq hpre => ?_⟩
      unfold unchangedLeaf at c1
      simp only [Bool.and_eq_true, decide_eq_true_eq] at c1
      obtain ⟨⟨⟨_, hk⟩, hn⟩, _⟩ := c1
      obtain ⟨rest, rfl⟩ := hpre
      cases rest with
      | nil =>
        rw [List.append_nil] at hq ⊢
        exact (hfr path hq hk).done
      | cons a rest =>
        have : Scanned E (path ++ [a]) := scanned_prefix hq ⟨rest, by simp⟩
        obtain ⟨_, h2, h3, _⟩ := scanned_inv this
        exact absurd h3 (hl path a hn h2)
    rw [if_neg c1] at h
    have hmd := resemble_iff (fs := E.fs) (p := path) (entries_nodup hE path (st.db.known path).isSome) (entries_mem hE path _)
    cases hp1 : pass1 (addFiles E fuel) E path (resembleMaildir E.fs path (entriesOf E path (st.db.known path).isSome) 0) (entriesOf E path (st.db.known path).isSome) st with
    | none => rw [hp1] at h; simp at h
    | some r1 =>
      obtain ⟨ok1, st1⟩ := r1
      obtain ⟨g1, d1⟩ := pass1_spec hm (fun p st r a b c d => ih p st r a b c d) hp hmd _ st _ (fun n hn => (entries_mem hE path _ n).1 hn) hdb hfr hp1
      rw [hp1] at h
      have collect : ∀ {st2 : St}, Grow E st1 st2 → DoneAt E st2 path → ok1 = true → ¬ Fired st1 → LinksOk E → ∀ q, Scanned E q → path <+: q → DoneAt E st2 q := by
        intro st2 g2 hd hok hnf hl q hq hpre
        obtain ⟨rest, rfl⟩ := hpre
        cases rest with
        | nil => rw [List.append_nil]; exact hd
        | cons a rest =>
          have hs : Scanned E (path ++ [a]) := scanned_prefix hq ⟨rest, by simp⟩
          refine (d1 hok hnf hl a ?_ _ hq ⟨rest, by simp⟩).grow g2
          exact (entries_mem hE path _ a).2 (scanned_inv hs).2.1.1
      cases ok1 with
      | false =>
        simp only [Option.some.injEq] at h
        subst h
        exact ⟨g1, fun h => by simp at h⟩
      | true =>
        simp only at h g1
        by_cases c2 : (!E.fullScan && decide (st.db.known path = some (E.fs.mtime path))) = true
        · rw [if_pos c2, Option.some.injEq] at h
          subst h
          refine ⟨g1, fun _ h2 hl => ?_⟩
          simp only [Bool.and_eq_true, decide_eq_true_eq] at c2
          exact collect (Grow.refl E st1) ((hfr path hp c2.2).done.grow g1) rfl h2 hl
        · rw [if_neg c2, Option.some.injEq] at h
          have spec := scan_spec hp (st.db.known path).isSome (entriesOf E path (st.db.known path).isSome) st1 (g1.added.ok hdb)
            (entries_mem hE path _) (fun hk => by rw [hk]; exact entries_sorted hE path)
            (fun hk => by
              have hnone : st.db.known path = none := by
                cases e : st.db.known path with
                | none => rfl
                | some _ => rw [e] at hk; simp at hk
              constructor
              · intro f hf
                rcases g1.added.filesNew path f hf with h | h
                · have := hdb.file path f h
                  rw [hnone] at this; simp at this
                · exact h.1
              · intro c hc
                rcases g1.added.subNew path c hc with h | h
                · have := hdb.parent path c ((hdb.sub path c).1 h)
                  rw [hnone] at this; simp at this
                · exact (scanned_inv h).2.1)
          rw [h] at spec
          exact ⟨g1.trans spec.1, fun h1 h2 hl => collect spec.1 (spec.2 h1 h2) rfl (fun hf => h2 (spec.1.fired hf)) hl⟩

end Notmuch.New
