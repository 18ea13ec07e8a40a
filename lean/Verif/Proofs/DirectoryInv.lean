import Verif.Proofs.DirectoryTerms

/-! # The invariant of the documents of directories and messages -/

namespace Notmuch.Directory

/-! ## Directory entries -/

theorem parseDirentry_direntry (id : Nat) (b : Str) : parseDirentry (direntry id b) = some (id, b) := by
  obtain ⟨h1, h2⟩ := takeWhile_dec id 58 b (by decide)
  unfold parseDirentry direntry
  rw [List.append_assoc, List.singleton_append, h1, h2, decVal_dec]
  rfl

theorem direntry_inj {i j : Nat} {b c : Str} (h : direntry i b = direntry j c) : i = j ∧ b = c := by
  have := parseDirentry_direntry i b
  rw [h, parseDirentry_direntry, Option.some.injEq, Prod.mk.injEq] at this
  exact ⟨this.1.symm, this.2.symm⟩

theorem direntry_prefix {i j : Nat} {b : Str} (h : (dec i ++ [58]).isPrefixOf (direntry j b) = true) : i = j ∧ (direntry j b).drop (dec i ++ [58]).length = b := by
  rw [List.isPrefixOf_iff_prefix] at h
  obtain ⟨r, hr⟩ := h
  have : direntry i r = direntry j b := hr
  obtain ⟨h1, h2⟩ := direntry_inj this
  subst h1
  refine ⟨rfl, ?_⟩
  unfold direntry
  exact List.drop_left

theorem direntry_prefix_self (i : Nat) (b : Str) : (dec i ++ [58]).isPrefixOf (direntry i b) = true := by
  rw [List.isPrefixOf_iff_prefix]
  exact ⟨b, rfl⟩

/-! ## The invariant -/

/-- The document of a directory. -/
def IsDir (db : Db) (x : Doc) (d : Str) : Prop := x ∈ db.docs ∧ (Field.directory, dbPath db d) ∈ x.terms ∧ x.data = d

/-- A document of a directory, as it must be. -/
def DirDoc (S : Str → Prop) (db : Db) (x : Doc) : Prop :=
  Dir x.data ∧ S x.data ∧ ((x.data = [] ∧ x.terms = [(.directory, dbPath db x.data)]) ∨
    ∃ d b y, x.data = join d b ∧ Dir d ∧ Name b ∧ IsDir db y d ∧ x.terms = [(.directory, dbPath db x.data), (.dirDirentry, direntry y.id b)])

/-- The files of a message are as they must be. -/
structure FileOk (db : Db) (d b : Str) : Prop where
  dir : Dir d
  name : Name b
  folderLen : 8 + (folderOf d).length ≤ 245
  pathLen : 4 + d.length ≤ 245
  exist : ∃ y, IsDir db y d ∧ 10 + (direntry y.id b).length ≤ 245

/-- A document of a message, as it must be. -/
structure MsgDoc (db : Db) (F : Nat → Str → Str → Prop) (x : Doc) : Prop where
  nodup : (values x.terms .fileDirentry).Nodup
  noDir : ∀ v, (Field.directory, v) ∉ x.terms
  noDirentry : ∀ v, (Field.dirDirentry, v) ∉ x.terms
  files : ∀ v, (Field.fileDirentry, v) ∈ x.terms ↔ ∃ d b y, F x.id d b ∧ IsDir db y d ∧ v = direntry y.id b
  ok : ∀ d b, F x.id d b → FileOk db d b
  path : ∀ w, (Field.path, w) ∈ x.terms ↔ ∃ d b, F x.id d b ∧ PathTerm d w
  folder : ∀ w, (Field.folder, w) ∈ x.terms ↔ ∃ d b, F x.id d b ∧ FolderTerm d w

structure Inv (root : Str) (sha1 : Str → Str) (S : Str → Prop) (db : Db) (msgs : List Nat) (F : Nat → Str → Str → Prop) : Prop where
  root : db.root = root
  sha1 : db.sha1 = sha1
  ids : (db.docs.map (·.id)).Nodup
  le : ∀ x ∈ db.docs, x.id ≤ db.lastId
  kind : ∀ x ∈ db.docs, if x.id ∈ msgs then MsgDoc db F x else DirDoc S db x
  uniq : ∀ x ∈ db.docs, ∀ y ∈ db.docs, x.id ∉ msgs → y.id ∉ msgs → x.data = y.data → x = y
  msgsEx : ∀ m ∈ msgs, ∃ x ∈ db.docs, x.id = m
  filesMsg : ∀ m d b, F m d b → m ∈ msgs

theorem eq_of_id {docs : List Doc} (h : (docs.map (·.id)).Nodup) {x y : Doc} (hx : x ∈ docs) (hy : y ∈ docs) (e : x.id = y.id) : x = y := by
  induction docs with
  | nil => simp at hx
  | cons z docs ih =>
    rw [List.map_cons, List.nodup_cons] at h
    rcases List.mem_cons.1 hx with rfl | hx' <;> rcases List.mem_cons.1 hy with rfl | hy'
    · rfl
    · exact absurd (List.mem_map.2 ⟨y, hy', e.symm⟩) h.1
    · exact absurd (List.mem_map.2 ⟨x, hx', e⟩) h.1
    · exact ih h.2 hx' hy'

theorem find_id {docs : List Doc} (h : (docs.map (·.id)).Nodup) {x : Doc} (hx : x ∈ docs) : docs.find? (fun d => d.id = x.id) = some x := by
  cases hf : docs.find? (fun d => d.id = x.id) with
  | none =>
    have := List.find?_eq_none.1 hf x hx
    simp at this
  | some y =>
    have h1 := List.find?_some hf
    have h2 := List.mem_of_find?_eq_some hf
    rw [eq_of_id h h2 hx (by simpa using h1)]

section
variable {root : Str} {sha1 : Str → Str} {S : Str → Prop} {db : Db} {msgs : List Nat} {F : Nat → Str → Str → Prop}

theorem Inv.msgDoc (I : Inv root sha1 S db msgs F) {x : Doc} (hx : x ∈ db.docs) (hm : x.id ∈ msgs) : MsgDoc db F x := by
  have := I.kind x hx
  rwa [if_pos hm] at this

theorem Inv.dirDoc (I : Inv root sha1 S db msgs F) {x : Doc} (hx : x ∈ db.docs) (hm : x.id ∉ msgs) : DirDoc S db x := by
  have := I.kind x hx
  rwa [if_neg hm] at this

theorem Inv.isDir_not_msg (I : Inv root sha1 S db msgs F) {x : Doc} {d : Str} (h : IsDir db x d) : x.id ∉ msgs :=
  fun hm => (I.msgDoc h.1 hm).noDir _ h.2.1

theorem Inv.isDir_dirDoc (I : Inv root sha1 S db msgs F) {x : Doc} {d : Str} (h : IsDir db x d) : DirDoc S db x := I.dirDoc h.1 (I.isDir_not_msg h)

theorem DirDoc.isDir {x : Doc} (hx : x ∈ db.docs) (h : DirDoc S db x) : IsDir db x x.data := by
  refine ⟨hx, ?_, rfl⟩
  rcases h.2.2 with ⟨_, h⟩ | ⟨_, _, _, _, _, _, _, h⟩ <;> rw [h] <;> simp

theorem Inv.isDir_unique (I : Inv root sha1 S db msgs F) {x y : Doc} {d : Str} (hx : IsDir db x d) (hy : IsDir db y d) : x = y :=
  I.uniq x hx.1 y hy.1 (I.isDir_not_msg hx) (I.isDir_not_msg hy) (hx.2.2.trans hy.2.2.symm)

theorem Inv.isDir_id (I : Inv root sha1 S db msgs F) {x y : Doc} {d e : Str} (hx : IsDir db x d) (hy : IsDir db y e) (h : x.id = y.id) : d = e := by
  rw [← hx.2.2, ← hy.2.2, eq_of_id I.ids hx.1 hy.1 h]

/-- The document with the directory term is the document of the directory. -/
theorem Inv.isDir_of_term (I : Inv root sha1 S db msgs F) (N : NoCollision sha1 S) {x : Doc} {d : Str} (hx : x ∈ db.docs) (hd : S d)
    (h : (Field.directory, dbPath db d) ∈ x.terms) : IsDir db x d := by
  have hm : x.id ∉ msgs := fun hm => (I.msgDoc hx hm).noDir _ h
  have D := I.dirDoc hx hm
  have he : dbPath db d = dbPath db x.data := by
    rcases D.2.2 with ⟨_, h'⟩ | ⟨_, _, _, _, _, _, _, h'⟩ <;> rw [h'] at h <;> simpa using h
  have : d = x.data := by
    unfold dbPath at he
    rw [I.sha1] at he
    exact N.inj _ _ hd D.2.1 he
  rw [this]
  exact D.isDir hx

theorem Inv.findTerm_some (I : Inv root sha1 S db msgs F) (N : NoCollision sha1 S) {d : Str} (hd : S d) {x : Doc}
    (h : findTerm db (.directory, dbPath db d) = some x) : IsDir db x d := by
  have h1 := List.find?_some h
  have h2 := List.mem_of_find?_eq_some h
  exact I.isDir_of_term N h2 hd (by simpa using h1)

theorem findTerm_none {d : Str} (h : findTerm db (.directory, dbPath db d) = none) (x : Doc) : ¬ IsDir db x d := by
  intro hx
  have := List.find?_eq_none.1 h x hx.1
  exact absurd hx.2.1 (by simpa using this)

theorem Inv.findTerm_isDir (I : Inv root sha1 S db msgs F) (N : NoCollision sha1 S) {d : Str} (hd : S d) {x : Doc}
    (h : IsDir db x d) : findTerm db (.directory, dbPath db d) = some x := by
  cases hf : findTerm db (.directory, dbPath db d) with
  | none => exact absurd h (findTerm_none hf x)
  | some y => rw [I.isDir_unique h (I.findTerm_some N hd hf)]

/-- What changes when directories are made. -/
structure Grows (db db' : Db) : Prop where
  root : db'.root = db.root
  sha1 : db'.sha1 = db.sha1
  docs : ∀ x ∈ db.docs, x ∈ db'.docs
  new : ∀ x ∈ db'.docs, x ∈ db.docs ∨ db.lastId < x.id
  last : db.lastId ≤ db'.lastId

theorem Grows.refl (db : Db) : Grows db db := ⟨rfl, rfl, fun _ h => h, fun _ h => .inl h, Nat.le_refl _⟩

theorem Grows.isDir {db' : Db} (G : Grows db db') {x : Doc} {d : Str} (h : IsDir db x d) : IsDir db' x d := by
  refine ⟨G.docs x h.1, ?_, h.2.2⟩
  unfold dbPath
  rw [G.sha1]
  exact h.2.1

/-- The documents of messages stay as they must be. -/
theorem MsgDoc.mono {db' : Db} {x : Doc} (M : MsgDoc db F x) (hup : ∀ y d, IsDir db y d → IsDir db' y d)
    (hun : ∀ x y d, IsDir db' x d → IsDir db' y d → x = y) : MsgDoc db' F x := by
  refine ⟨M.nodup, M.noDir, M.noDirentry, fun v => ?_, fun d b h => ?_, M.path, M.folder⟩
  · rw [M.files]
    constructor
    · rintro ⟨d, b, y, h1, h2, h3⟩
      exact ⟨d, b, y, h1, hup y d h2, h3⟩
    · rintro ⟨d, b, y, h1, h2, h3⟩
      obtain ⟨y0, hy0, _⟩ := (M.ok d b h1).exist
      rw [hun y y0 d h2 (hup y0 d hy0)] at h3
      exact ⟨d, b, y0, h1, hy0, h3⟩
  · obtain ⟨h1, h2, h3, h4, y, h5, h6⟩ := M.ok d b h
    exact ⟨h1, h2, h3, h4, y, hup y d h5, h6⟩

theorem Inv.bump (I : Inv root sha1 S db msgs F) : Inv root sha1 S { db with lastId := db.lastId + 1 } msgs F := by
  refine ⟨I.root, I.sha1, I.ids, fun x hx => Nat.le_succ_of_le (I.le x hx), fun x hx => ?_, I.uniq, I.msgsEx, I.filesMsg⟩
  by_cases hm : x.id ∈ msgs
  · rw [if_pos hm]
    have M := I.msgDoc hx hm
    exact ⟨M.nodup, M.noDir, M.noDirentry, M.files, fun d b h => ⟨(M.ok d b h).dir, (M.ok d b h).name, (M.ok d b h).folderLen, (M.ok d b h).pathLen, (M.ok d b h).exist⟩, M.path, M.folder⟩
  · rw [if_neg hm]; exact I.dirDoc hx hm

/-- A new document of a directory. -/
theorem Inv.addDir (I : Inv root sha1 S db msgs F) {x : Doc} (hid : x.id = db.lastId + 1) (hnew : ∀ y, ¬ IsDir db y x.data)
    (D : DirDoc S db x) :
    Inv root sha1 S { db with docs := db.docs ++ [x], lastId := db.lastId + 1 } msgs F ∧
      IsDir { db with docs := db.docs ++ [x], lastId := db.lastId + 1 } x x.data := by
  have hup : ∀ y d, IsDir db y d → IsDir { db with docs := db.docs ++ [x], lastId := db.lastId + 1 } y d :=
    fun y d h => ⟨List.mem_append_left _ h.1, h.2.1, h.2.2⟩
  have hxm : x.id ∉ msgs := by
    intro hm
    obtain ⟨y, hy, e⟩ := I.msgsEx _ hm
    have := I.le y hy
    omega
  have hun : ∀ a ∈ db.docs ++ [x], ∀ b ∈ db.docs ++ [x], a.id ∉ msgs → b.id ∉ msgs → a.data = b.data → a = b := by
    intro a ha b hb ham hbm e
    rw [List.mem_append, List.mem_singleton] at ha hb
    rcases ha with ha | rfl <;> rcases hb with hb | rfl
    · exact I.uniq a ha b hb ham hbm e
    · exact absurd (e ▸ (I.dirDoc ha ham).isDir ha) (hnew a)
    · exact absurd (e ▸ (I.dirDoc hb hbm).isDir hb) (hnew b)
    · rfl
  have hD : DirDoc S { db with docs := db.docs ++ [x], lastId := db.lastId + 1 } x := by
    refine ⟨D.1, D.2.1, ?_⟩
    rcases D.2.2 with h | ⟨d, b, y, h1, h2, h3, h4, h5⟩
    · exact .inl h
    · exact .inr ⟨d, b, y, h1, h2, h3, hup y d h4, h5⟩
  refine ⟨⟨I.root, I.sha1, ?_, ?_, ?_, hun, ?_, I.filesMsg⟩, hD.isDir (List.mem_append_right _ (by simp))⟩
  · rw [List.map_append, List.nodup_append]
    refine ⟨I.ids, by simp, ?_⟩
    rintro a ha b hb rfl
    obtain ⟨y, hy, e⟩ := List.mem_map.1 ha
    have := I.le y hy
    simp at hb
    omega
  · intro y hy
    rw [List.mem_append, List.mem_singleton] at hy
    rcases hy with hy | rfl
    · exact Nat.le_succ_of_le (I.le y hy)
    · show _ ≤ db.lastId + 1
      omega
  · intro y hy
    rw [List.mem_append, List.mem_singleton] at hy
    rcases hy with hy | rfl
    · by_cases hm : y.id ∈ msgs
      · rw [if_pos hm]
        refine (I.msgDoc hy hm).mono hup ?_
        intro a b d ha hb
        apply hun a ha.1 b hb.1
        · intro h
          have ha1 := ha.1
          rw [List.mem_append, List.mem_singleton] at ha1
          rcases ha1 with ha1 | rfl
          · exact (I.msgDoc ha1 h).noDir _ ha.2.1
          · exact hxm h
        · intro h
          have hb1 := hb.1
          rw [List.mem_append, List.mem_singleton] at hb1
          rcases hb1 with hb1 | rfl
          · exact (I.msgDoc hb1 h).noDir _ hb.2.1
          · exact hxm h
        · exact ha.2.2.trans hb.2.2.symm
      · rw [if_neg hm]
        have D' := I.dirDoc hy hm
        refine ⟨D'.1, D'.2.1, ?_⟩
        rcases D'.2.2 with h | ⟨d, b, z, h1, h2, h3, h4, h5⟩
        · exact .inl h
        · exact .inr ⟨d, b, z, h1, h2, h3, hup z d h4, h5⟩
    · rw [if_neg hxm]; exact hD
  · intro m hm
    obtain ⟨y, hy, e⟩ := I.msgsEx m hm
    exact ⟨y, List.mem_append_left _ hy, e⟩

theorem findOrCreate_succ (fuel : Nat) (db : Db) (d : Str) (create : Bool) (hd : d.head? ≠ some 47) : findOrCreate (fuel + 1) db d create =
    match findTerm db (.directory, dbPath db d) with
    | some x => (db, .ok (some x.id))
    | none =>
      if create then
        match splitPath (some d) with
        | (none, base) => createDirectory d base (db, .ok (some 0))
        | (some parent, base) => createDirectory d base (findOrCreate fuel db parent true)
      else (db, .ok none) := by
  rw [findOrCreate, relativePath_rel hd]
  cases findTerm db (.directory, dbPath db d) <;> rfl

/-- Making a directory, with those above it. -/
theorem findOrCreate_inv (N : NoCollision sha1 S) {d : Str} (hd : Dir d) : ∀ {fuel : Nat}, d.length < fuel → S d → ∀ {db : Db}, Inv root sha1 S db msgs F →
    ∃ db' r, findOrCreate fuel db d true = (db', r) ∧ Inv root sha1 S db' msgs F ∧ Grows db db' ∧
      (∀ x ∈ db'.docs, x ∈ db.docs ∨ x.data.length ≤ d.length) ∧
      ((∃ x, r = .ok (some x.id) ∧ IsDir db' x d) ∨ r = .error .xapian) := by
  induction hd with
  | root =>
    intro fuel hf hs db I
    obtain ⟨fuel, rfl⟩ : ∃ k, fuel = k + 1 := ⟨fuel - 1, by omega⟩
    rw [findOrCreate_succ _ _ _ _ (by simp)]
    cases h : findTerm db (.directory, dbPath db []) with
    | some x => exact ⟨db, _, rfl, I, Grows.refl db, fun x h => .inl h, .inl ⟨x, rfl, I.findTerm_some N hs h⟩⟩
    | none =>
      simp only [if_true, splitPath_nil, createDirectory, directoryDoc]
      obtain ⟨I', hx⟩ := I.addDir (x := ⟨db.lastId + 1, [(.directory, dbPath db [])], []⟩) rfl (findTerm_none h) ⟨Dir.root, hs, .inl ⟨rfl, rfl⟩⟩
      refine ⟨_, _, rfl, I', ⟨rfl, rfl, fun x hx => List.mem_append_left _ hx, ?_, Nat.le_succ _⟩, ?_, .inl ⟨_, rfl, hx⟩⟩
      · intro x hx
        rw [List.mem_append, List.mem_singleton] at hx
        rcases hx with hx | rfl
        · exact .inl hx
        · exact .inr (Nat.lt_succ_self _)
      · intro x hx
        rw [List.mem_append, List.mem_singleton] at hx
        rcases hx with hx | rfl
        · exact .inl hx
        · exact .inr (Nat.le_refl _)
  | @child d b hd hb ih =>
    intro fuel hf hs db I
    obtain ⟨fuel, rfl⟩ : ∃ k, fuel = k + 1 := ⟨fuel - 1, by omega⟩
    rw [findOrCreate_succ _ _ _ _ (join_head hd hb)]
    cases h : findTerm db (.directory, dbPath db (join d b)) with
    | some x => exact ⟨db, _, rfl, I, Grows.refl db, fun x h => .inl h, .inl ⟨x, rfl, I.findTerm_some N hs h⟩⟩
    | none =>
      simp only [if_true, splitPath_join hd hb]
      have hlen : d.length < (join d b).length := by
        have := List.length_pos_iff.2 hb.1
        unfold join
        split
        · rename_i h0; rw [h0]; simpa using this
        · simp only [List.length_append, List.length_cons]; omega
      obtain ⟨db1, r, e, I1, G1, L1, hr⟩ := @ih fuel (by omega) (N.up d b hb hs) db I
      rw [e]
      rcases hr with ⟨y, rfl, hy⟩ | rfl
      · simp only [createDirectory, directoryDoc]
        have hnew : ∀ z, ¬ IsDir db1 z (join d b) := by
          intro z hz
          rcases L1 z hz.1 with hz1 | hz1
          · exact findTerm_none h z ⟨hz1, by have := hz.2.1; unfold dbPath at this ⊢; rw [← G1.sha1]; exact this, hz.2.2⟩
          · rw [hz.2.2] at hz1; omega
        by_cases hlong : 10 + (direntry y.id b).length > 245
        · rw [if_pos hlong]
          refine ⟨_, _, rfl, I1.bump, ⟨G1.root, G1.sha1, G1.docs, G1.new, Nat.le_succ_of_le G1.last⟩, ?_, .inr rfl⟩
          intro x hx
          rcases L1 x hx with h | h
          · exact .inl h
          · exact .inr (by omega)
        · rw [if_neg hlong]
          obtain ⟨I', hx⟩ := I1.addDir (x := ⟨db1.lastId + 1, [(.directory, dbPath db1 (join d b)), (.dirDirentry, direntry y.id b)], join d b⟩) rfl hnew
            ⟨Dir.child hd hb, hs, .inr ⟨d, b, y, rfl, hd, hb, hy, rfl⟩⟩
          refine ⟨_, _, rfl, I', ⟨G1.root, G1.sha1, fun x hx => List.mem_append_left _ (G1.docs x hx), ?_, Nat.le_succ_of_le G1.last⟩, ?_, .inl ⟨_, rfl, hx⟩⟩
          · intro x hx
            rw [List.mem_append, List.mem_singleton] at hx
            rcases hx with hx | rfl
            · exact G1.new x hx
            · exact .inr (Nat.lt_succ_of_le G1.last)
          · intro x hx
            rw [List.mem_append, List.mem_singleton] at hx
            rcases hx with hx | rfl
            · rcases L1 x hx with h | h
              · exact .inl h
              · exact .inr (by omega)
            · exact .inr (Nat.le_refl _)
      · refine ⟨db1, _, rfl, I1, G1, ?_, .inr rfl⟩
        intro x hx
        rcases L1 x hx with h | h
        · exact .inl h
        · exact .inr (by omega)

/-- Looking for a directory. -/
theorem findOrCreate_lookup (I : Inv root sha1 S db msgs F) (N : NoCollision sha1 S) {d : Str} (hd : Dir d) (hs : S d) :
    ((∃ x, findDirectoryId db (some d) false = (db, .ok (some x.id)) ∧ IsDir db x d) ∨
      (findDirectoryId db (some d) false = (db, .ok none) ∧ ∀ x, ¬ IsDir db x d)) := by
  unfold findDirectoryId
  simp only
  rw [findOrCreate_succ _ _ _ _ hd.head]
  cases h : findTerm db (.directory, dbPath db d) with
  | some x => exact .inl ⟨x, rfl, I.findTerm_some N hs h⟩
  | none => exact .inr ⟨rfl, findTerm_none h⟩

theorem filenameToDirentry_create (I : Inv root sha1 S db msgs F) (N : NoCollision sha1 S) (hr : Root root) {d b f : Str} (hd : Dir d) (hs : S d) (hb : Name b)
    (hf : FileName root d b f) :
    ∃ db' r, filenameToDirentry db f true = (db', r) ∧ Inv root sha1 S db' msgs F ∧ Grows db db' ∧
      ((∃ x, r = .ok (some (direntry x.id b)) ∧ IsDir db' x d) ∨ r = .error .xapian) := by
  unfold filenameToDirentry
  rw [I.root, relativePath_fileName hr hd hb hf, splitPath_join hd hb]
  simp only [findDirectoryId]
  obtain ⟨db', r, e, I', G, _, h⟩ := findOrCreate_inv N hd (Nat.lt_succ_self _) hs I
  rw [e]
  rcases h with ⟨x, rfl, hx⟩ | rfl
  · exact ⟨db', _, rfl, I', G, .inl ⟨x, rfl, hx⟩⟩
  · exact ⟨db', _, rfl, I', G, .inr rfl⟩

theorem filenameToDirentry_lookup (I : Inv root sha1 S db msgs F) (N : NoCollision sha1 S) (hr : Root root) {d b f : Str} (hd : Dir d) (hs : S d) (hb : Name b)
    (hf : FileName root d b f) :
    ((∃ x, filenameToDirentry db f false = (db, .ok (some (direntry x.id b))) ∧ IsDir db x d) ∨
      (filenameToDirentry db f false = (db, .ok none) ∧ ∀ x, ¬ IsDir db x d)) := by
  unfold filenameToDirentry
  rw [I.root, relativePath_fileName hr hd hb hf, splitPath_join hd hb]
  simp only
  rcases findOrCreate_lookup I N hd hs with ⟨x, h1, h2⟩ | ⟨h1, h2⟩ <;> rw [h1]
  · exact .inl ⟨x, rfl, h2⟩
  · exact .inr ⟨rfl, h2⟩

end

end Notmuch.Directory
