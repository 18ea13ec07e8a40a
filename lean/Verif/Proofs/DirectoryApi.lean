import Verif.Proofs.DirectoryHistory

/-! # What the API says about files, after every history -/

namespace Notmuch.Directory

section
variable {root : Str} {sha1 : Str → Str} {S : Str → Prop} {db : Db} {msgs : List Nat} {F : Nat → Str → Str → Prop}

theorem mem_matching {f : Field} {w : Str} {m : Nat} : m ∈ matching db f w ↔ ∃ x ∈ db.docs, x.id = m ∧ (f, w) ∈ x.terms := by
  unfold matching
  simp only [List.mem_map, List.mem_filter, decide_eq_true_eq]
  constructor
  · rintro ⟨x, ⟨h1, h2⟩, h3⟩; exact ⟨x, h1, h3, h2⟩
  · rintro ⟨x, h1, h3, h2⟩; exact ⟨x, ⟨h1, h2⟩, h3⟩

theorem Inv.matching_path (I : Inv root sha1 S db msgs F) (w : Str) (m : Nat) : m ∈ matching db .path w ↔ ∃ d b, F m d b ∧ PathTerm d w := by
  rw [mem_matching]
  constructor
  · rintro ⟨x, hx, rfl, h⟩
    have hxm : x.id ∈ msgs := by
      refine Decidable.byContradiction fun hxm => ?_
      rcases (I.dirDoc hx hxm).2.2 with ⟨_, h'⟩ | ⟨_, _, _, _, _, _, _, h'⟩ <;> rw [h'] at h <;> simp at h
    exact ((I.msgDoc hx hxm).path w).1 h
  · rintro ⟨d, b, h1, h2⟩
    obtain ⟨x, hx, rfl, _, M⟩ := I.termsOf_msg (I.filesMsg _ _ _ h1)
    exact ⟨x, hx, rfl, (M.path w).2 ⟨d, b, h1, h2⟩⟩

theorem Inv.matching_folder (I : Inv root sha1 S db msgs F) (w : Str) (m : Nat) : m ∈ matching db .folder w ↔ ∃ d b, F m d b ∧ FolderTerm d w := by
  rw [mem_matching]
  constructor
  · rintro ⟨x, hx, rfl, h⟩
    have hxm : x.id ∈ msgs := by
      refine Decidable.byContradiction fun hxm => ?_
      rcases (I.dirDoc hx hxm).2.2 with ⟨_, h'⟩ | ⟨_, _, _, _, _, _, _, h'⟩ <;> rw [h'] at h <;> simp at h
    exact ((I.msgDoc hx hxm).folder w).1 h
  · rintro ⟨d, b, h1, h2⟩
    obtain ⟨x, hx, rfl, _, M⟩ := I.termsOf_msg (I.filesMsg _ _ _ h1)
    exact ⟨x, hx, rfl, (M.folder w).2 ⟨d, b, h1, h2⟩⟩

theorem entryFilename_ok (I : Inv root sha1 S db msgs F) {y : Doc} {d b : Str} (hy : IsDir db y d) : entryFilename db (direntry y.id b) = .ok (absName root d b) := by
  unfold entryFilename
  rw [parseDirentry_direntry]
  simp only [I.directoryPath hy, I.root]
  unfold absName join
  split
  · rename_i h
    simp
  · rename_i h
    rw [if_pos (Decidable.not_not.1 h)]

theorem entryFilenames_ok (I : Inv root sha1 S db msgs F) : ∀ {es : List Str}, (∀ e ∈ es, ∃ d b y, IsDir db y d ∧ Name b ∧ e = direntry y.id b) → es.Nodup →
    ∃ fs, entryFilenames db es = .ok fs ∧ fs.length = es.length ∧ fs.Nodup ∧
      ∀ f, f ∈ fs ↔ ∃ d b y, IsDir db y d ∧ Name b ∧ direntry y.id b ∈ es ∧ f = absName root d b := by
  intro es
  induction es with
  | nil => intro _ _; exact ⟨[], rfl, rfl, List.nodup_nil, by simp⟩
  | cons e es ih =>
    intro h hn
    rw [List.nodup_cons] at hn
    obtain ⟨d, b, y, hy, hb, he⟩ := h e (by simp)
    obtain ⟨fs, h1, h2, h3, h4⟩ := ih (fun e' he' => h e' (by simp [he'])) hn.2
    rw [entryFilenames, he, entryFilename_ok I hy, h1]
    refine ⟨absName root d b :: fs, rfl, by simp [h2], ?_, ?_⟩
    · rw [List.nodup_cons]
      refine ⟨fun hm => ?_, h3⟩
      obtain ⟨d', b', y', hy', hb', hm', e'⟩ := (h4 _).1 hm
      have : join d b = join d' b' := by
        unfold absName at e'
        exact List.append_cancel_left e'
      obtain ⟨e1, e2⟩ := join_inj hb hb' this
      subst e1 e2
      rw [I.isDir_unique hy' hy, ← he] at hm'
      exact hn.1 hm'
    · intro f
      rw [List.mem_cons, h4]
      constructor
      · rintro (rfl | ⟨d', b', y', h1, h2, h3, h4⟩)
        · exact ⟨d, b, y, hy, hb, by simp, rfl⟩
        · exact ⟨d', b', y', h1, h2, by simp [h3], h4⟩
      · rintro ⟨d', b', y', h1, h2, h3, h4⟩
        rcases List.mem_cons.1 h3 with h3 | h3
        · obtain ⟨e1, e2⟩ := direntry_inj h3
          subst e2
          rw [I.isDir_id h1 hy e1] at h4
          exact .inl h4
        · exact .inr ⟨d', b', y', h1, h2, h3, h4⟩

theorem Inv.getFilenames (I : Inv root sha1 S db msgs F) {m : Nat} (h : ∃ d b, F m d b) :
    ∃ fs, getFilenames db m = .ok fs ∧ fs.Nodup ∧ ∀ f, f ∈ fs ↔ ∃ d b, F m d b ∧ f = absName root d b := by
  obtain ⟨d0, b0, h0⟩ := h
  obtain ⟨x, hx, rfl, _, M⟩ := I.termsOf_msg (I.filesMsg _ _ _ h0)
  have hv : ∀ e, e ∈ values x.terms .fileDirentry ↔ ∃ d b y, F x.id d b ∧ IsDir db y d ∧ e = direntry y.id b := fun e => by rw [mem_values, M.files]
  obtain ⟨fs, h1, _, h3, h4⟩ := @entryFilenames_ok _ _ _ _ _ _ I (values x.terms .fileDirentry) (by
    intro e he
    obtain ⟨d, b, y, h1, h2, h3⟩ := (hv e).1 he
    exact ⟨d, b, y, h2, (M.ok d b h1).name, h3⟩) M.nodup
  refine ⟨fs, ?_, h3, fun f => ?_⟩
  · unfold Directory.getFilenames
    rw [find_id I.ids hx]
    simp only
    obtain ⟨z, hz, _⟩ := (M.ok d0 b0 h0).exist
    rw [if_neg (List.ne_nil_of_mem ((hv _).2 ⟨d0, b0, z, h0, hz, rfl⟩)), h1]
  · rw [h4]
    constructor
    · rintro ⟨d, b, y, h1, h2, h3, h4⟩
      obtain ⟨d', b', z, h5, h6, h7⟩ := (hv _).1 h3
      obtain ⟨e1, e2⟩ := direntry_inj h7
      subst e2
      rw [I.isDir_id h1 h6 e1] at h4
      exact ⟨d', b, h5, h4⟩
    · rintro ⟨d, b, h1, h2⟩
      obtain ⟨z, hz, _⟩ := (M.ok d b h1).exist
      exact ⟨d, b, z, hz, (M.ok d b h1).name, (hv _).2 ⟨d, b, z, h1, hz, rfl⟩, h2⟩

theorem Inv.fileTerm (I : Inv root sha1 S db msgs F) {y x : Doc} {d b : Str} (hy : IsDir db y d) (hx : x ∈ db.docs) :
    (Field.fileDirentry, direntry y.id b) ∈ x.terms ↔ F x.id d b := by
  by_cases hxm : x.id ∈ msgs
  · rw [(I.msgDoc hx hxm).files]
    constructor
    · rintro ⟨d', b', z, h1, h2, h3⟩
      obtain ⟨e1, e2⟩ := direntry_inj h3
      rw [I.isDir_id hy h2 e1, e2]; exact h1
    · intro h; exact ⟨d, b, y, h, hy, rfl⟩
  · constructor
    · intro h
      rcases (I.dirDoc hx hxm).2.2 with ⟨_, h'⟩ | ⟨_, _, _, _, _, _, _, h'⟩ <;> rw [h'] at h <;> simp at h
    · intro h; exact absurd (I.filesMsg _ _ _ h) hxm

theorem Inv.findMessage (I : Inv root sha1 S db msgs F) (N : NoCollision sha1 S) (hr : Root root) {d b f : Str} (hd : Dir d) (hs : S d) (hb : Name b)
    (hf : FileName root d b f) :
    (∃ m, findMessageByFilename db f = .ok (some m) ∧ F m d b) ∨ (findMessageByFilename db f = .ok none ∧ ∀ m, ¬ F m d b) := by
  unfold findMessageByFilename
  rcases filenameToDirentry_lookup I N hr hd hs hb hf with ⟨y, e1, hy⟩ | ⟨e1, hno⟩
  · simp only [e1]
    cases h : findTerm db (.fileDirentry, direntry y.id b) with
    | some x =>
      left
      refine ⟨x.id, rfl, ?_⟩
      have h1 := List.find?_some h
      have h2 := List.mem_of_find?_eq_some h
      exact (I.fileTerm hy h2).1 (by simpa using h1)
    | none =>
      right
      refine ⟨rfl, fun m hm => ?_⟩
      obtain ⟨x, hx, rfl, _, M⟩ := I.termsOf_msg (I.filesMsg _ _ _ hm)
      have := List.find?_eq_none.1 h x hx
      exact absurd ((I.fileTerm hy hx).2 hm) (by simpa using this)
  · right
    simp only [e1]
    refine ⟨trivial, fun m hm => ?_⟩
    obtain ⟨x, hx, rfl, _, M⟩ := I.termsOf_msg (I.filesMsg _ _ _ hm)
    obtain ⟨z, hz, _⟩ := (M.ok d b hm).exist
    exact hno z hz

theorem Inv.known_iff (I : Inv root sha1 S db msgs F) (N : NoCollision sha1 S) {d : Str} (hd : Dir d) (hs : S d) : Known db d ↔ ∃ y, IsDir db y d := by
  unfold Known
  rcases findOrCreate_lookup I N hd hs with ⟨y, h1, h2⟩ | ⟨h1, h2⟩ <;> rw [h1]
  · exact ⟨fun _ => ⟨y, h2⟩, fun _ => ⟨y.id, rfl⟩⟩
  · exact ⟨fun ⟨_, h⟩ => by simp at h, fun ⟨y, hy⟩ => absurd hy (h2 y)⟩

theorem Inv.isDir_of_id (I : Inv root sha1 S db msgs F) (N : NoCollision sha1 S) {d : Str} (hd : Dir d) (hs : S d) {id : Nat}
    (h : findDirectoryId db (some d) false = (db, .ok (some id))) : ∃ y, y.id = id ∧ IsDir db y d := by
  rcases findOrCreate_lookup I N hd hs with ⟨y, h1, h2⟩ | ⟨h1, h2⟩ <;> rw [h] at h1 <;> simp at h1
  exact ⟨y, h1.symm, h2⟩

theorem Inv.isDir_parent (I : Inv root sha1 S db msgs F) {d b : Str} (hb : Name b) {y : Doc} (hy : IsDir db y (join d b)) : ∃ z, IsDir db z d := by
  rcases (I.isDir_dirDoc hy).2.2 with ⟨h1, _⟩ | ⟨d', b', z, h1, _, h3, h4, _⟩
  · rw [hy.2.2] at h1; exact absurd h1 (join_ne_nil hb)
  · rw [hy.2.2] at h1
    rw [(join_inj hb h3 h1).1]
    exact ⟨z, h4⟩

theorem Inv.countFiles_one (I : Inv root sha1 S db msgs F) {m : Nat} {d b : Str} (h : F m d b) :
    ¬ countFiles db m > 1 ↔ ∀ d' b', F m d' b' → d' = d ∧ b' = b := by
  obtain ⟨fs, h1, h2, h3⟩ := I.getFilenames ⟨d, b, h⟩
  unfold countFiles
  rw [h1]
  simp only
  obtain ⟨x, hx, rfl, _, M⟩ := I.termsOf_msg (I.filesMsg _ _ _ h)
  have hinj : ∀ d' b', F x.id d' b' → absName root d' b' = absName root d b → d' = d ∧ b' = b := by
    intro d' b' h' e
    unfold absName at e
    exact join_inj (M.ok d' b' h').name (M.ok d b h).name (List.append_cancel_left e)
  constructor
  · intro hlen d' b' h'
    apply hinj d' b' h'
    have m1 := (h3 _).2 ⟨d', b', h', rfl⟩
    have m2 := (h3 _).2 ⟨d, b, h, rfl⟩
    match fs, hlen, m1, m2 with
    | [g], _, m1, m2 =>
      rw [List.mem_singleton] at m1 m2
      rw [m1, m2]
    | g :: g' :: fs', hlen, _, _ => simp at hlen
    | [], _, m1, _ => simp at m1
  · intro hall hlen
    match fs, hlen, h2, h3 with
    | g :: g' :: fs', _, h2, h3 =>
      obtain ⟨d1, b1, f1, e1⟩ := (h3 g).1 (by simp)
      obtain ⟨d2, b2, f2, e2⟩ := (h3 g').1 (by simp)
      obtain ⟨rfl, rfl⟩ := hall d1 b1 f1
      obtain ⟨rfl, rfl⟩ := hall d2 b2 f2
      rw [List.nodup_cons] at h2
      exact h2.1 (by simp [e1, e2])
    | [g], hlen, _, _ => simp at hlen
    | [], hlen, _, _ => simp at hlen

end

end Notmuch.Directory
