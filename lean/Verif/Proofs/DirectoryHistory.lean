import Verif.Proofs.DirectoryInv

/-! # The invariant holds after every history -/

namespace Notmuch.Directory

theorem mem_values {terms : List (Field × Str)} {f : Field} {v : Str} : v ∈ values terms f ↔ (f, v) ∈ terms := by
  unfold values
  rw [List.mem_filterMap]
  constructor
  · rintro ⟨⟨f', v'⟩, h1, h2⟩
    split at h2
    · rename_i h
      simp only [Option.some.injEq] at h2
      simp only at h
      rw [← h, ← h2]; exact h1
    · simp at h2
  · intro h
    exact ⟨(f, v), h, by simp⟩

theorem values_append (a b : List (Field × Str)) (f : Field) : values (a ++ b) f = values a f ++ values b f := by
  unfold values; rw [List.filterMap_append]

theorem values_addTerm {terms t : List (Field × Str)} {f g : Field} {v : Str} (h : addTerm terms f v = some t) (hn : (values terms g).Nodup) :
    (values t g).Nodup := by
  unfold addTerm at h
  split at h
  · simp at h
  · rw [Option.some.injEq] at h
    split at h
    · rw [← h]; exact hn
    · rename_i hm
      subst h
      rw [values_append]
      by_cases hfg : f = g
      · subst hfg
        have : values [(f, v)] f = [v] := by simp [values]
        rw [this, List.nodup_append]
        refine ⟨hn, by simp, ?_⟩
        rintro a ha b hb rfl
        rw [List.mem_singleton] at hb
        subst hb
        exact hm (mem_values.1 ha)
      · have : values [(f, v)] g = [] := by simp [values, hfg]
        rw [this, List.append_nil]; exact hn

theorem values_recursiveTerms {g : Field} : ∀ {k : Nat} {buf : Str} {terms t : List (Field × Str)}, recursiveTerms buf k terms = .ok t → (values terms g).Nodup → (values t g).Nodup := by
  intro k
  induction k with
  | zero => intro buf terms t h hn; rw [recursiveTerms, Except.ok.injEq] at h; rw [← h]; exact hn
  | succ k ih =>
    intro buf terms t h hn
    rw [recursiveTerms] at h
    split at h
    · split at h
      · simp at h
      · split at h
        · simp at h
        · rename_i h'
          exact ih h (values_addTerm h' hn)
    · exact ih h hn

theorem values_addPathTerms {g : Field} {d : Str} {terms t : List (Field × Str)} (h : addPathTerms terms d = .ok t) (hn : (values terms g).Nodup) : (values t g).Nodup := by
  unfold addPathTerms at h
  split at h
  · simp at h
  · rename_i t1 h1
    have n1 := values_addTerm h1 hn
    split at h
    · simp at h
    · rename_i t2 h2
      have n2 : (values t2 g).Nodup := by
        split at h2
        · exact values_recursiveTerms h2 n1
        · rw [Except.ok.injEq] at h2; rw [← h2]; exact n1
      split at h
      · simp at h
      · rename_i t3 h3
        rw [Except.ok.injEq] at h
        rw [← h]
        exact values_addTerm h3 n2

theorem values_addFolderTerms {g : Field} {d : Str} {terms t : List (Field × Str)} (h : addFolderTerms terms d = .ok t) (hn : (values terms g).Nodup) : (values t g).Nodup := by
  unfold addFolderTerms at h
  split at h
  · simp at h
  · rename_i h1
    rw [Except.ok.injEq] at h
    rw [← h]; exact values_addTerm h1 hn

theorem values_addDirectoryTerms {db : Db} {g : Field} : ∀ {es : List Str} {terms t : List (Field × Str)}, addDirectoryTerms db es terms = .ok t →
    (values terms g).Nodup → (values t g).Nodup := by
  intro es
  induction es with
  | nil => intro terms t h hn; rw [addDirectoryTerms, Except.ok.injEq] at h; rw [← h]; exact hn
  | cons e es ih =>
    intro terms t h hn
    rw [addDirectoryTerms] at h
    split at h
    · simp at h
    · split at h
      · simp at h
      · split at h
        · simp at h
        · rename_i h1
          split at h
          · simp at h
          · rename_i h2
            exact ih h (values_addPathTerms h2 (values_addFolderTerms h1 hn))

theorem mem_setTerms {db : Db} {m : Nat} {t : List (Field × Str)} {z : Doc} :
    z ∈ (setTerms db m t).docs ↔ ∃ w ∈ db.docs, z = if w.id = m then { w with terms := t } else w := by
  unfold setTerms
  simp only [List.mem_map]
  constructor
  · rintro ⟨w, h1, h2⟩; exact ⟨w, h1, h2.symm⟩
  · rintro ⟨w, h1, h2⟩; exact ⟨w, h1, h2.symm⟩

theorem setTerms_id {m : Nat} {t : List (Field × Str)} {w : Doc} : (if w.id = m then { w with terms := t } else w).id = w.id := by
  split <;> rfl

section
variable {root : Str} {sha1 : Str → Str} {S : Str → Prop} {db : Db} {msgs : List Nat} {F : Nat → Str → Str → Prop}

/-- The terms of a message after a change. -/
structure NewTerms (db : Db) (G : Str → Str → Prop) (t : List (Field × Str)) : Prop where
  nodup : (values t .fileDirentry).Nodup
  noDir : ∀ v, (Field.directory, v) ∉ t
  noDirentry : ∀ v, (Field.dirDirentry, v) ∉ t
  files : ∀ v, (Field.fileDirentry, v) ∈ t ↔ ∃ d b y, G d b ∧ IsDir db y d ∧ v = direntry y.id b
  ok : ∀ d b, G d b → FileOk db d b
  path : ∀ w, (Field.path, w) ∈ t ↔ ∃ d b, G d b ∧ PathTerm d w
  folder : ∀ w, (Field.folder, w) ∈ t ↔ ∃ d b, G d b ∧ FolderTerm d w

theorem Inv.isDir_setTerms (I : Inv root sha1 S db msgs F) {m : Nat} (hm : m ∈ msgs) {t : List (Field × Str)} (ht : ∀ v, (Field.directory, v) ∉ t)
    {y : Doc} {d : Str} : IsDir (setTerms db m t) y d ↔ IsDir db y d := by
  constructor
  · rintro ⟨h1, h2, h3⟩
    obtain ⟨w, hw, e⟩ := mem_setTerms.1 h1
    split at e
    · rw [e] at h2; exact absurd h2 (ht _)
    · rw [e] at h2 h3 ⊢; exact ⟨hw, h2, h3⟩
  · intro h
    have hne : y.id ≠ m := fun e => I.isDir_not_msg h (e ▸ hm)
    exact ⟨mem_setTerms.2 ⟨y, h.1, by rw [if_neg hne]⟩, h.2.1, h.2.2⟩

theorem Inv.setMsg (I : Inv root sha1 S db msgs F) {m : Nat} (hm : m ∈ msgs) {t : List (Field × Str)} {F' : Nat → Str → Str → Prop}
    (hF : ∀ m' d b, m' ≠ m → (F' m' d b ↔ F m' d b)) (T : NewTerms db (F' m) t) : Inv root sha1 S (setTerms db m t) msgs F' := by
  have hI : ∀ y d, IsDir (setTerms db m t) y d ↔ IsDir db y d := fun y d => I.isDir_setTerms hm T.noDir
  have hids : (setTerms db m t).docs.map (·.id) = db.docs.map (·.id) := by
    unfold setTerms
    simp only [List.map_map]
    apply List.map_congr_left
    intro w _
    exact setTerms_id
  have hok : ∀ d b, FileOk db d b → FileOk (setTerms db m t) d b := by
    rintro d b ⟨h1, h2, h3, h4, y, h5, h6⟩
    exact ⟨h1, h2, h3, h4, y, (hI y d).2 h5, h6⟩
  refine ⟨I.root, I.sha1, by rw [hids]; exact I.ids, ?_, ?_, ?_, ?_, ?_⟩
  · intro x hx
    obtain ⟨w, hw, e⟩ := mem_setTerms.1 hx
    rw [e, setTerms_id]
    exact I.le w hw
  · intro x hx
    obtain ⟨w, hw, e⟩ := mem_setTerms.1 hx
    by_cases hwm : w.id = m
    · rw [if_pos hwm] at e
      subst e
      simp only [hwm]
      rw [if_pos hm]
      refine ⟨T.nodup, T.noDir, T.noDirentry, fun v => ?_, fun d b h => ?_, fun w' => ?_, fun w' => ?_⟩
      · simp only
        rw [T.files]
        simp only [hI]
      · simp only at h
        exact hok d b (T.ok d b h)
      · exact T.path w'
      · exact T.folder w'
    · rw [if_neg hwm] at e
      subst e
      split
      · rename_i hxm
        have M := I.msgDoc hw hxm
        refine ⟨M.nodup, M.noDir, M.noDirentry, fun v => ?_, fun d b h => ?_, fun w' => ?_, fun w' => ?_⟩
        · rw [M.files]; simp only [hI, hF _ _ _ hwm]
        · exact hok d b (M.ok d b ((hF _ _ _ hwm).1 h))
        · rw [M.path]; simp only [hF _ _ _ hwm]
        · rw [M.folder]; simp only [hF _ _ _ hwm]
      · rename_i hxm
        have D := I.dirDoc hw hxm
        refine ⟨D.1, D.2.1, ?_⟩
        rcases D.2.2 with h | ⟨d, b, z, h1, h2, h3, h4, h5⟩
        · exact .inl h
        · exact .inr ⟨d, b, z, h1, h2, h3, (hI z d).2 h4, h5⟩
  · intro x hx y hy hxm hym e
    obtain ⟨w, hw, e1⟩ := mem_setTerms.1 hx
    obtain ⟨v, hv, e2⟩ := mem_setTerms.1 hy
    have h1 : w.id ≠ m := by intro h; apply hxm; rw [e1, setTerms_id, h]; exact hm
    have h2 : v.id ≠ m := by intro h; apply hym; rw [e2, setTerms_id, h]; exact hm
    rw [if_neg h1] at e1
    rw [if_neg h2] at e2
    subst e1 e2
    exact I.uniq _ hw _ hv hxm hym e
  · intro m' hm'
    obtain ⟨x, hx, e⟩ := I.msgsEx m' hm'
    exact ⟨_, mem_setTerms.2 ⟨x, hx, rfl⟩, by rw [setTerms_id]; exact e⟩
  · intro m' d b h
    by_cases hmm : m' = m
    · rw [hmm]; exact hm
    · exact I.filesMsg m' d b ((hF _ _ _ hmm).1 h)

theorem Inv.termsOf_msg (I : Inv root sha1 S db msgs F) {m : Nat} (hm : m ∈ msgs) : ∃ x ∈ db.docs, x.id = m ∧ termsOf db m = some x.terms ∧ MsgDoc db F x := by
  obtain ⟨x, hx, e⟩ := I.msgsEx m hm
  refine ⟨x, hx, e, ?_, I.msgDoc hx (e ▸ hm)⟩
  unfold termsOf
  rw [← e, find_id I.ids hx]; rfl

/-! ## Adding a file -/

theorem addFileTerms_spec {terms : List (Field × Str)} {entry d : Str} (hd : Dir d) (hn : (values terms .fileDirentry).Nodup) :
    match addFileTerms terms entry d with
    | .error e => (e = .abort ∧ (245 < 8 + (folderOf d).length ∨ 245 < 4 + d.length)) ∨ (e = .pathError ∧ 245 < 10 + entry.length)
    | .ok t => (∀ x, x ∈ t ↔ x ∈ terms ∨ x = (.fileDirentry, entry) ∨ (∃ w, FolderTerm d w ∧ x = (.folder, w)) ∨ ∃ w, PathTerm d w ∧ x = (.path, w)) ∧
        (values t .fileDirentry).Nodup ∧ 10 + entry.length ≤ 245 ∧ 8 + (folderOf d).length ≤ 245 ∧ 4 + d.length ≤ 245 := by
  unfold addFileTerms
  cases h1 : addTerm terms .fileDirentry entry with
  | none => exact .inr ⟨rfl, addTerm_none h1⟩
  | some t1 =>
    simp only
    cases h2 : addFolderTerms t1 d with
    | error e =>
      obtain ⟨a, b⟩ := addFolderTerms_error h2
      exact .inl ⟨a, .inl b⟩
    | ok t2 =>
      simp only
      have h3 := addPathTerms_spec hd t2
      cases h4 : addPathTerms t2 d with
      | error e =>
        rw [h4] at h3
        exact .inl ⟨h3.1, .inr h3.2⟩
      | ok t3 =>
        rw [h4] at h3
        obtain ⟨l1, m1, _⟩ := addTerm_spec h1
        obtain ⟨m2, _⟩ := addFolderTerms_spec hd h2
        obtain ⟨m3, _, hl4⟩ := h3
        refine ⟨fun x => ?_, values_addPathTerms h4 (values_addFolderTerms h2 (values_addTerm h1 hn)), l1, ?_, ?_⟩
        · rw [m3, m2, m1]
          constructor
          · rintro (((h | h) | h) | h)
            · exact .inl h
            · exact .inr (.inl h)
            · exact .inr (.inr (.inl h))
            · exact .inr (.inr (.inr h))
          · rintro (h | h | h | h)
            · exact .inl (.inl (.inl h))
            · exact .inl (.inl (.inr h))
            · exact .inl (.inr h)
            · exact .inr h
        · unfold addFolderTerms at h2
          split at h2
          · simp at h2
          · rename_i h'; exact (addTerm_spec h').1
        · exact hl4

/-- Adding a file: it succeeds, or fails because of a length. -/
theorem addFilename_inv (I : Inv root sha1 S db msgs F) (N : NoCollision sha1 S) (hr : Root root) {m : Nat} (hm : m ∈ msgs) {d b f : Str} (hd : Dir d) (hs : S d)
    (hb : Name b) (hf : FileName root d b f) :
    match addFilename db m f with
    | (db', .ok ()) => Inv root sha1 S db' msgs (fun m' d' b' => F m' d' b' ∨ (m' = m ∧ d' = d ∧ b' = b))
    | (db', .error e) => Inv root sha1 S db' msgs F ∧ (e = .abort → 245 < 8 + (folderOf d).length ∨ 245 < 4 + d.length) := by
  unfold addFilename
  obtain ⟨db1, r, e1, I1, G1, h1⟩ := filenameToDirentry_create I N hr hd hs hb hf
  rw [e1]
  rcases h1.symm with rfl | ⟨y, rfl, hy⟩
  · exact ⟨I1, by simp⟩
  simp only
  obtain ⟨x, hx, ex, ht, M⟩ := I1.termsOf_msg hm
  rw [ht, I.root, relativePath_fileName hr hd hb hf, splitPath_join hd hb]
  simp only
  have hspec := @addFileTerms_spec x.terms (direntry y.id b) d hd M.nodup
  revert hspec
  cases addFileTerms x.terms (direntry y.id b) d with
  | error e =>
    rintro (⟨h1, h2⟩ | ⟨h1, h2⟩)
    · exact ⟨I1, fun _ => h2⟩
    · exact ⟨I1, fun h => by rw [h1] at h; exact absurd h (by decide)⟩
  | ok t =>
    rintro ⟨m1, n1, l1, l2, l3⟩
    simp only
    apply I1.setMsg hm
    · intro m' d' b' hne
      exact ⟨fun h => h.elim id (fun h => absurd h.1 hne), .inl⟩
    · have hx' : ∀ d' b', F m d' b' ↔ F x.id d' b' := by rw [ex]; exact fun _ _ => Iff.rfl
      refine ⟨n1, fun v hv => ?_, fun v hv => ?_, fun v => ?_, fun d' b' h => ?_, fun w => ?_, fun w => ?_⟩
      · rcases (m1 _).1 hv with h | h | ⟨_, _, h⟩ | ⟨_, _, h⟩
        · exact M.noDir v h
        all_goals simp at h
      · rcases (m1 _).1 hv with h | h | ⟨_, _, h⟩ | ⟨_, _, h⟩
        · exact M.noDirentry v h
        all_goals simp at h
      · rw [m1, M.files]
        simp only [hx']
        constructor
        · rintro (⟨d', b', z, h1, h2, h3⟩ | h | ⟨_, _, h⟩ | ⟨_, _, h⟩)
          · exact ⟨d', b', z, .inl h1, h2, h3⟩
          · exact ⟨d, b, y, .inr ⟨trivial, rfl, rfl⟩, hy, by simpa using h⟩
          all_goals simp at h
        · rintro ⟨d', b', z, h1 | ⟨_, rfl, rfl⟩, h2, h3⟩
          · exact .inl ⟨d', b', z, h1, h2, h3⟩
          · rw [I1.isDir_unique h2 hy] at h3
            exact .inr (.inl (by rw [h3]))
      · rcases h with h | ⟨_, rfl, rfl⟩
        · exact M.ok d' b' ((hx' _ _).1 h)
        · exact ⟨hd, hb, l2, l3, y, hy, l1⟩
      · rw [m1, M.path]
        simp only [hx']
        constructor
        · rintro (⟨d', b', h1, h2⟩ | h | ⟨_, _, h⟩ | ⟨w', hw, h⟩)
          · exact ⟨d', b', .inl h1, h2⟩
          · simp at h
          · simp at h
          · simp only [Prod.mk.injEq, true_and] at h
            exact ⟨d, b, .inr ⟨trivial, rfl, rfl⟩, h ▸ hw⟩
        · rintro ⟨d', b', h1 | ⟨_, rfl, rfl⟩, h2⟩
          · exact .inl ⟨d', b', h1, h2⟩
          · exact .inr (.inr (.inr ⟨w, h2, rfl⟩))
      · rw [m1, M.folder]
        simp only [hx']
        constructor
        · rintro (⟨d', b', h1, h2⟩ | h | ⟨w', hw, h⟩ | ⟨_, _, h⟩)
          · exact ⟨d', b', .inl h1, h2⟩
          · simp at h
          · simp only [Prod.mk.injEq, true_and] at h
            exact ⟨d, b, .inr ⟨trivial, rfl, rfl⟩, h ▸ hw⟩
          · simp at h
        · rintro ⟨d', b', h1 | ⟨_, rfl, rfl⟩, h2⟩
          · exact .inl ⟨d', b', h1, h2⟩
          · exact .inr (.inr (.inl ⟨w, h2, rfl⟩))

/-! ## Removing a file -/

theorem Inv.directoryPath (I : Inv root sha1 S db msgs F) {y : Doc} {d : Str} (h : IsDir db y d) : directoryPath db y.id = some d := by
  unfold Directory.directoryPath
  rw [find_id I.ids h.1, ← h.2.2]; rfl

theorem addDirectoryTerms_spec (I : Inv root sha1 S db msgs F) : ∀ {es : List Str} {terms : List (Field × Str)},
    (∀ e ∈ es, ∃ d b y, FileOk db d b ∧ IsDir db y d ∧ e = direntry y.id b) →
    ∃ t, addDirectoryTerms db es terms = .ok t ∧ ∀ x, x ∈ t ↔ x ∈ terms ∨
      ∃ d b y, direntry y.id b ∈ es ∧ IsDir db y d ∧ ((∃ w, FolderTerm d w ∧ x = (.folder, w)) ∨ ∃ w, PathTerm d w ∧ x = (.path, w)) := by
  intro es
  induction es with
  | nil => intro terms _; exact ⟨terms, rfl, fun x => by simp⟩
  | cons e es ih =>
    intro terms h
    obtain ⟨d, b, y, ok, hy, he⟩ := h e (by simp)
    rw [addDirectoryTerms, he, parseDirentry_direntry]
    simp only [I.directoryPath hy]
    have hfo : ∃ t1, addFolderTerms terms d = .ok t1 := by
      cases h1 : addFolderTerms terms d with
      | ok t1 => exact ⟨t1, rfl⟩
      | error e1 =>
        have := (addFolderTerms_error h1).2
        have := ok.folderLen
        omega
    obtain ⟨t1, h1⟩ := hfo
    rw [h1]
    have hpa : ∃ t2, addPathTerms t1 d = .ok t2 := by
      have hsp := addPathTerms_spec ok.dir t1
      cases h2 : addPathTerms t1 d with
      | ok t2 => exact ⟨t2, rfl⟩
      | error e2 =>
        rw [h2] at hsp
        have := hsp.2
        have := ok.pathLen
        omega
    obtain ⟨t2, h2⟩ := hpa
    simp only [h2]
    obtain ⟨t, h3, m3⟩ := @ih t2 (fun e' he' => h e' (by simp [he']))
    refine ⟨t, h3, fun x => ?_⟩
    have m1 := (addFolderTerms_spec ok.dir h1).1
    have m2 := addPathTerms_spec ok.dir t1
    rw [h2] at m2
    rw [m3, m2.1, m1]
    constructor
    · rintro (((hx | hx) | hx) | ⟨d', b', y', h4, h5, h6⟩)
      · exact .inl hx
      · exact .inr ⟨d, b, y, by simp, hy, .inl hx⟩
      · exact .inr ⟨d, b, y, by simp, hy, .inr hx⟩
      · exact .inr ⟨d', b', y', by simp [h4], h5, h6⟩
    · rintro (hx | ⟨d', b', y', h4, h5, h6⟩)
      · exact .inl (.inl (.inl hx))
      · rcases List.mem_cons.1 h4 with h4 | h4
        · have hid := (direntry_inj h4).1
          have := I.isDir_id h5 hy hid
          subst this
          rcases h6 with h6 | h6
          · exact .inl (.inl (.inr h6))
          · exact .inl (.inr h6)
        · exact .inr ⟨d', b', y', h4, h5, h6⟩

theorem mem_removeFileTerms {terms : List (Field × Str)} {entry : Str} {x : Field × Str} :
    x ∈ removeFileTerms terms entry ↔ x ∈ terms ∧ x ≠ (.fileDirentry, entry) ∧ x.1 ≠ .folder ∧ x.1 ≠ .path := by
  unfold removeFileTerms
  simp only [List.mem_filter, decide_eq_true_eq]
  constructor
  · rintro ⟨⟨⟨h1, h2⟩, h3⟩, h4⟩; exact ⟨h1, h2, h3, h4⟩
  · rintro ⟨h1, h2, h3, h4⟩; exact ⟨⟨⟨h1, h2⟩, h3⟩, h4⟩

theorem values_removeFileTerms {terms : List (Field × Str)} {entry : Str} (h : (values terms .fileDirentry).Nodup) :
    (values (removeFileTerms terms entry) .fileDirentry).Nodup := by
  unfold removeFileTerms values at *
  exact List.Nodup.sublist (((List.filter_sublist.trans List.filter_sublist).trans List.filter_sublist).filterMap _) h

/-- Removing a file: what the result is. -/
theorem removeFilename_inv (I : Inv root sha1 S db msgs F) (N : NoCollision sha1 S) (hr : Root root) {m : Nat} (hm : m ∈ msgs) {d b f : Str} (hd : Dir d) (hs : S d)
    (hb : Name b) (hf : FileName root d b f) :
    (∃ db' r, removeFilename db m f = (db', .ok r) ∧
      Inv root sha1 S db' msgs (fun m' d' b' => F m' d' b' ∧ ¬ (m' = m ∧ d' = d ∧ b' = b)) ∧
      ((∃ y, IsDir db y d) → (r = .others ↔ ∃ d' b', F m d' b' ∧ ¬ (d' = d ∧ b' = b)))) ∨
    (∃ db', removeFilename db m f = (db', .error .abort) ∧ ¬ F m d b) := by
  unfold removeFilename
  rcases filenameToDirentry_lookup I N hr hd hs hb hf with ⟨y, e1, hy⟩ | ⟨e1, hno⟩
  · simp only [e1]
    obtain ⟨x, hx, ex, ht, M⟩ := I.termsOf_msg hm
    rw [ht]
    simp only
    have hx' : ∀ d' b', F m d' b' ↔ F x.id d' b' := by rw [ex]; exact fun _ _ => Iff.rfl
    by_cases hlen : 10 + (direntry y.id b).length > 245
    · right
      rw [if_pos hlen]
      refine ⟨_, rfl, fun hF => ?_⟩
      obtain ⟨z, hz, hl⟩ := (M.ok d b ((hx' _ _).1 hF)).exist
      rw [I.isDir_unique hz hy] at hl
      omega
    · left
      rw [if_neg hlen]
      -- the entries that remain
      have hv : ∀ e, e ∈ values (removeFileTerms x.terms (direntry y.id b)) .fileDirentry ↔
          ∃ d' b' z, F m d' b' ∧ ¬ (d' = d ∧ b' = b) ∧ IsDir db z d' ∧ e = direntry z.id b' := by
        intro e
        rw [mem_values, mem_removeFileTerms, M.files]
        simp only [hx']
        constructor
        · rintro ⟨⟨d', b', z, h1, h2, h3⟩, h4, _, _⟩
          refine ⟨d', b', z, h1, ?_, h2, h3⟩
          rintro ⟨rfl, rfl⟩
          apply h4
          rw [h3, I.isDir_unique h2 hy]
        · rintro ⟨d', b', z, h1, hne, h2, h3⟩
          refine ⟨⟨d', b', z, h1, h2, h3⟩, ?_, by simp, by simp⟩
          intro h4
          rw [h3] at h4
          simp only [Prod.mk.injEq, true_and] at h4
          obtain ⟨h5, h6⟩ := direntry_inj h4
          exact hne ⟨I.isDir_id h2 hy h5, h6⟩
      obtain ⟨t, h1, m1⟩ := @addDirectoryTerms_spec _ _ _ _ _ _ I (values (removeFileTerms x.terms (direntry y.id b)) .fileDirentry) (removeFileTerms x.terms (direntry y.id b)) (by
        intro e he
        obtain ⟨d', b', z, h1, _, h2, h3⟩ := (hv e).1 he
        exact ⟨d', b', z, M.ok d' b' ((hx' _ _).1 h1), h2, h3⟩)
      rw [h1]
      simp only
      refine ⟨_, _, rfl, ?_, fun _ => ?_⟩
      · apply I.setMsg hm
        · intro m' d' b' hne
          exact ⟨fun h => h.1, fun h => ⟨h, fun h' => hne h'.1⟩⟩
        · refine ⟨values_addDirectoryTerms h1 (values_removeFileTerms M.nodup), fun v hv' => ?_, fun v hv' => ?_, fun v => ?_, fun d' b' h => ?_, fun w => ?_, fun w => ?_⟩
          · rcases (m1 _).1 hv' with h | ⟨_, _, _, _, _, ⟨_, _, h⟩ | ⟨_, _, h⟩⟩
            · exact M.noDir v (mem_removeFileTerms.1 h).1
            all_goals simp at h
          · rcases (m1 _).1 hv' with h | ⟨_, _, _, _, _, ⟨_, _, h⟩ | ⟨_, _, h⟩⟩
            · exact M.noDirentry v (mem_removeFileTerms.1 h).1
            all_goals simp at h
          · rw [m1, ← mem_values, hv]
            constructor
            · rintro (⟨d', b', z, h1, h2, h3, h4⟩ | ⟨_, _, _, _, _, ⟨_, _, h⟩ | ⟨_, _, h⟩⟩)
              · exact ⟨d', b', z, ⟨h1, fun h => h2 h.2⟩, h3, h4⟩
              all_goals simp at h
            · rintro ⟨d', b', z, ⟨h1, h2⟩, h3, h4⟩
              exact .inl ⟨d', b', z, h1, fun h => h2 ⟨rfl, h⟩, h3, h4⟩
          · exact M.ok d' b' ((hx' _ _).1 h.1)
          · rw [m1, mem_removeFileTerms]
            constructor
            · rintro (⟨_, _, _, h⟩ | ⟨d', b', z, h1, h2, ⟨_, _, h⟩ | ⟨w', h3, h⟩⟩)
              · simp at h
              · simp at h
              · obtain ⟨d'', b'', z', h4, h5, h6, h7⟩ := (hv _).1 h1
                simp only [Prod.mk.injEq, true_and] at h
                have := I.isDir_id h2 h6 (direntry_inj h7).1
                exact ⟨d'', b'', ⟨h4, fun h => h5 h.2⟩, by rw [← this, h]; exact h3⟩
            · rintro ⟨d', b', ⟨h1, h2⟩, h3⟩
              obtain ⟨z, hz, _⟩ := (M.ok d' b' ((hx' _ _).1 h1)).exist
              exact .inr ⟨d', b', z, (hv _).2 ⟨d', b', z, h1, fun h => h2 ⟨rfl, h⟩, hz, rfl⟩, hz, .inr ⟨w, h3, rfl⟩⟩
          · rw [m1, mem_removeFileTerms]
            constructor
            · rintro (⟨_, _, h, _⟩ | ⟨d', b', z, h1, h2, ⟨w', h3, h⟩ | ⟨_, _, h⟩⟩)
              · simp at h
              · obtain ⟨d'', b'', z', h4, h5, h6, h7⟩ := (hv _).1 h1
                simp only [Prod.mk.injEq, true_and] at h
                have := I.isDir_id h2 h6 (direntry_inj h7).1
                exact ⟨d'', b'', ⟨h4, fun h => h5 h.2⟩, by rw [← this, h]; exact h3⟩
              · simp at h
            · rintro ⟨d', b', ⟨h1, h2⟩, h3⟩
              obtain ⟨z, hz, _⟩ := (M.ok d' b' ((hx' _ _).1 h1)).exist
              exact .inr ⟨d', b', z, (hv _).2 ⟨d', b', z, h1, fun h => h2 ⟨rfl, h⟩, hz, rfl⟩, hz, .inl ⟨w, h3, rfl⟩⟩
      · constructor
        · intro h
          split at h
          · simp at h
          · rename_i hne
            obtain ⟨e, he⟩ := List.exists_mem_of_ne_nil _ hne
            obtain ⟨d', b', z, h1, h2, _, _⟩ := (hv e).1 he
            exact ⟨d', b', h1, h2⟩
        · rintro ⟨d', b', h1, h2⟩
          obtain ⟨z, hz, _⟩ := (M.ok d' b' ((hx' _ _).1 h1)).exist
          have := (hv _).2 ⟨d', b', z, h1, h2, hz, rfl⟩
          rw [if_neg (List.ne_nil_of_mem this)]
  · -- the directory is not known
    left
    simp only [e1]
    refine ⟨_, _, rfl, ?_, fun ⟨y, hy⟩ => absurd hy (hno y)⟩
    have hF : ∀ m' d' b', (F m' d' b' ∧ ¬ (m' = m ∧ d' = d ∧ b' = b)) ↔ F m' d' b' := by
      intro m' d' b'
      refine ⟨And.left, fun h => ⟨h, ?_⟩⟩
      rintro ⟨rfl, rfl, rfl⟩
      obtain ⟨x, hx, ex, _, M⟩ := I.termsOf_msg hm
      obtain ⟨z, hz, _⟩ := (M.ok d' b' (ex ▸ h)).exist
      exact hno z hz
    have : (fun m' d' b' => F m' d' b' ∧ ¬ (m' = m ∧ d' = d ∧ b' = b)) = F := by
      funext m' d' b'
      exact propext (hF m' d' b')
    rw [this]; exact I

/-! ## New and deleted documents -/

theorem Inv.newMessage (I : Inv root sha1 S db msgs F) (others : List Str) :
    Inv root sha1 S (newMessage db others).1 ((newMessage db others).2 :: msgs) F := by
  have hfresh : db.lastId + 1 ∉ msgs := by
    intro hm
    obtain ⟨y, hy, e⟩ := I.msgsEx _ hm
    have := I.le y hy
    omega
  have hnoF : ∀ d b, ¬ F (db.lastId + 1) d b := fun d b h => hfresh (I.filesMsg _ _ _ h)
  have hI : ∀ y d, IsDir (Directory.newMessage db others).1 y d ↔ IsDir db y d := by
    intro y d
    constructor
    · rintro ⟨h1, h2, h3⟩
      have h1' : y ∈ db.docs ∨ y = ⟨db.lastId + 1, others.map (fun v => (Field.other, v)), []⟩ := by simpa [Directory.newMessage] using h1
      rcases h1' with h1' | rfl
      · exact ⟨h1', h2, h3⟩
      · simp at h2
    · rintro ⟨h1, h2, h3⟩
      exact ⟨by simp [Directory.newMessage, h1], h2, h3⟩
  have hne : ∀ x ∈ db.docs, x.id ≠ db.lastId + 1 := fun x hx => by have := I.le x hx; omega
  have hmem : ∀ x, x ∈ (Directory.newMessage db others).1.docs ↔ x ∈ db.docs ∨ x = ⟨db.lastId + 1, others.map (fun v => (Field.other, v)), []⟩ := by
    intro x; simp [Directory.newMessage]
  refine ⟨I.root, I.sha1, ?_, ?_, ?_, ?_, ?_, ?_⟩
  · simp only [Directory.newMessage, List.map_append]
    rw [List.nodup_append]
    refine ⟨I.ids, by simp, ?_⟩
    rintro a ha b hb rfl
    obtain ⟨y, hy, e⟩ := List.mem_map.1 ha
    simp at hb
    exact hne y hy (e.trans hb)
  · intro x hx
    rcases (hmem x).1 hx with hx | rfl
    · exact Nat.le_succ_of_le (I.le x hx)
    · exact Nat.le_refl _
  · intro x hx
    rcases (hmem x).1 hx with hx | rfl
    · have h1 : x.id ∈ (Directory.newMessage db others).2 :: msgs ↔ x.id ∈ msgs := by
        simp only [List.mem_cons, Directory.newMessage]
        exact ⟨fun h => h.elim (fun h => absurd h (hne x hx)) id, .inr⟩
      by_cases hm : x.id ∈ msgs
      · rw [if_pos (h1.2 hm)]
        refine (I.msgDoc hx hm).mono (fun y d => (hI y d).2) ?_
        intro a b d ha hb
        exact I.isDir_unique ((hI _ _).1 ha) ((hI _ _).1 hb)
      · rw [if_neg (fun h => hm (h1.1 h))]
        have D := I.dirDoc hx hm
        refine ⟨D.1, D.2.1, ?_⟩
        rcases D.2.2 with h | ⟨d, b, z, h1, h2, h3, h4, h5⟩
        · exact .inl h
        · exact .inr ⟨d, b, z, h1, h2, h3, (hI z d).2 h4, h5⟩
    · rw [if_pos (by simp [Directory.newMessage])]
      have hv : values (others.map (fun v => (Field.other, v))) .fileDirentry = [] := by
        unfold values
        rw [List.filterMap_eq_nil_iff]
        intro a ha
        obtain ⟨v, _, rfl⟩ := List.mem_map.1 ha
        rfl
      have hno : ∀ f v, f ≠ Field.other → (f, v) ∉ others.map (fun v => (Field.other, v)) := by
        intro f v hf h
        obtain ⟨v', _, e⟩ := List.mem_map.1 h
        simp only [Prod.mk.injEq] at e
        exact hf e.1.symm
      refine ⟨by rw [hv]; exact List.nodup_nil, fun v => hno _ v (by decide), fun v => hno _ v (by decide), fun v => ?_, fun d b h => absurd h (hnoF d b), fun w => ?_, fun w => ?_⟩
      · exact ⟨fun h => absurd h (hno _ v (by decide)), fun ⟨d, b, y, h, _⟩ => absurd h (hnoF d b)⟩
      · exact ⟨fun h => absurd h (hno _ w (by decide)), fun ⟨d, b, h, _⟩ => absurd h (hnoF d b)⟩
      · exact ⟨fun h => absurd h (hno _ w (by decide)), fun ⟨d, b, h, _⟩ => absurd h (hnoF d b)⟩
  · intro x hx y hy hxm hym e
    rcases (hmem x).1 hx with hx | rfl
    · rcases (hmem y).1 hy with hy | rfl
      · exact I.uniq x hx y hy (fun h => hxm (List.mem_cons_of_mem _ h)) (fun h => hym (List.mem_cons_of_mem _ h)) e
      · exact absurd (List.mem_cons_self ..) hym
    · exact absurd (List.mem_cons_self ..) hxm
  · intro m hm
    rcases List.mem_cons.1 hm with rfl | hm
    · exact ⟨_, (hmem _).2 (.inr rfl), rfl⟩
    · obtain ⟨x, hx, e⟩ := I.msgsEx m hm
      exact ⟨x, (hmem x).2 (.inl hx), e⟩
  · intro m d b h
    exact List.mem_cons_of_mem _ (I.filesMsg m d b h)

theorem mem_deleteDoc {db : Db} {m : Nat} {x : Doc} : x ∈ (deleteDoc db m).docs ↔ x ∈ db.docs ∧ x.id ≠ m := by
  simp [deleteDoc]

theorem nodup_deleteDoc (I : Inv root sha1 S db msgs F) (m : Nat) : ((deleteDoc db m).docs.map (·.id)).Nodup :=
  I.ids.sublist (List.filter_sublist.map _)

theorem Inv.deleteMessage (I : Inv root sha1 S db msgs F) {m : Nat} (hm : m ∈ msgs) :
    Inv root sha1 S (deleteDoc db m) (msgs.filter (· ≠ m)) (fun m' d' b' => F m' d' b' ∧ m' ≠ m) := by
  have hI : ∀ y d, IsDir (deleteDoc db m) y d ↔ IsDir db y d := by
    intro y d
    constructor
    · rintro ⟨h1, h2, h3⟩; exact ⟨(mem_deleteDoc.1 h1).1, h2, h3⟩
    · intro h
      exact ⟨mem_deleteDoc.2 ⟨h.1, fun e => I.isDir_not_msg h (e ▸ hm)⟩, h.2.1, h.2.2⟩
  have hmf : ∀ i, i ∈ msgs.filter (· ≠ m) ↔ i ∈ msgs ∧ i ≠ m := by intro i; simp
  refine ⟨I.root, I.sha1, nodup_deleteDoc I m, fun x hx => I.le x (mem_deleteDoc.1 hx).1, ?_, ?_, ?_, ?_⟩
  · intro x hx
    obtain ⟨hx, hne⟩ := mem_deleteDoc.1 hx
    by_cases hxm : x.id ∈ msgs
    · rw [if_pos ((hmf _).2 ⟨hxm, hne⟩)]
      have M := I.msgDoc hx hxm
      have hF : ∀ d b, (F x.id d b ∧ x.id ≠ m) ↔ F x.id d b := fun d b => ⟨And.left, fun h => ⟨h, hne⟩⟩
      refine ⟨M.nodup, M.noDir, M.noDirentry, fun v => ?_, fun d b h => ?_, fun w => ?_, fun w => ?_⟩
      · rw [M.files]; simp only [hI, hF]
      · obtain ⟨h1, h2, h3, h4, y, h5, h6⟩ := M.ok d b h.1
        exact ⟨h1, h2, h3, h4, y, (hI y d).2 h5, h6⟩
      · rw [M.path]; simp only [hF]
      · rw [M.folder]; simp only [hF]
    · rw [if_neg (fun h => hxm ((hmf _).1 h).1)]
      have D := I.dirDoc hx hxm
      refine ⟨D.1, D.2.1, ?_⟩
      rcases D.2.2 with h | ⟨d, b, z, h1, h2, h3, h4, h5⟩
      · exact .inl h
      · exact .inr ⟨d, b, z, h1, h2, h3, (hI z d).2 h4, h5⟩
  · intro x hx y hy hxm hym e
    obtain ⟨hx, hxn⟩ := mem_deleteDoc.1 hx
    obtain ⟨hy, hyn⟩ := mem_deleteDoc.1 hy
    exact I.uniq x hx y hy (fun h => hxm ((hmf _).2 ⟨h, hxn⟩)) (fun h => hym ((hmf _).2 ⟨h, hyn⟩)) e
  · intro i hi
    obtain ⟨h1, h2⟩ := (hmf i).1 hi
    obtain ⟨x, hx, e⟩ := I.msgsEx i h1
    exact ⟨x, mem_deleteDoc.2 ⟨hx, fun h => h2 (e.symm.trans h)⟩, e⟩
  · intro i d b h
    exact (hmf i).2 ⟨I.filesMsg i d b h.1, h.2⟩

/-! ## The entries of a directory -/

theorem mem_termsWithPrefix {f : Field} {id : Nat} {b : Str} (hall : ∀ x ∈ db.docs, ∀ v, (f, v) ∈ x.terms → ∃ i c, v = direntry i c) :
    b ∈ termsWithPrefix db f (dec id ++ [58]) ↔ ∃ x ∈ db.docs, (f, direntry id b) ∈ x.terms := by
  unfold termsWithPrefix
  rw [List.mem_filterMap]
  constructor
  · rintro ⟨v, h1, h2⟩
    rw [List.mem_flatMap] at h1
    obtain ⟨x, hx, hv⟩ := h1
    rw [mem_values] at hv
    split at h2
    · rename_i hp
      obtain ⟨i, c, rfl⟩ := hall x hx v hv
      obtain ⟨h3, h4⟩ := direntry_prefix hp
      rw [Option.some.injEq, h4] at h2
      exact ⟨x, hx, by rw [h3, ← h2]; exact hv⟩
    · simp at h2
  · rintro ⟨x, hx, h⟩
    refine ⟨direntry id b, List.mem_flatMap.2 ⟨x, hx, mem_values.2 h⟩, ?_⟩
    rw [if_pos (direntry_prefix_self id b), (direntry_prefix (direntry_prefix_self id b)).2]

theorem Inv.mem_childFiles (I : Inv root sha1 S db msgs F) {y : Doc} {d b : Str} (hy : IsDir db y d) : b ∈ childFiles db y.id ↔ ∃ m, F m d b := by
  unfold childFiles
  rw [mem_termsWithPrefix]
  · constructor
    · rintro ⟨x, hx, h⟩
      have hxm : x.id ∈ msgs := by
        refine Decidable.byContradiction fun hxm => ?_
        rcases (I.dirDoc hx hxm).2.2 with ⟨_, h'⟩ | ⟨_, _, _, _, _, _, _, h'⟩ <;> rw [h'] at h <;> simp at h
      obtain ⟨d', b', z, h1, h2, h3⟩ := ((I.msgDoc hx hxm).files _).1 h
      obtain ⟨h4, h5⟩ := direntry_inj h3
      rw [I.isDir_id hy h2 h4, h5]
      exact ⟨x.id, h1⟩
    · rintro ⟨m, h⟩
      obtain ⟨x, hx, ex, _, M⟩ := I.termsOf_msg (I.filesMsg m d b h)
      exact ⟨x, hx, (M.files _).2 ⟨d, b, y, ex ▸ h, hy, rfl⟩⟩
  · intro x hx v hv
    by_cases hxm : x.id ∈ msgs
    · obtain ⟨d', b', z, _, _, h⟩ := ((I.msgDoc hx hxm).files _).1 hv
      exact ⟨z.id, b', h⟩
    · rcases (I.dirDoc hx hxm).2.2 with ⟨_, h'⟩ | ⟨_, _, _, _, _, _, _, h'⟩ <;> rw [h'] at hv <;> simp at hv

theorem Inv.mem_childDirectories (I : Inv root sha1 S db msgs F) {y : Doc} {d b : Str} (hy : IsDir db y d) (hb : Name b) :
    b ∈ childDirectories db y.id ↔ ∃ z, IsDir db z (join d b) := by
  unfold childDirectories
  rw [mem_termsWithPrefix]
  · constructor
    · rintro ⟨x, hx, h⟩
      have hxm : x.id ∉ msgs := fun hxm => (I.msgDoc hx hxm).noDirentry _ h
      have D := I.dirDoc hx hxm
      rcases D.2.2 with ⟨_, h'⟩ | ⟨d', b', z, h1, h2, h3, h4, h'⟩ <;> rw [h'] at h
      · simp at h
      · simp only [List.mem_cons, Prod.mk.injEq, reduceCtorEq, false_and, true_and, List.not_mem_nil, or_false, false_or] at h
        obtain ⟨h5, h6⟩ := direntry_inj h
        rw [I.isDir_id hy h4 h5, h6, ← h1]
        exact ⟨x, D.isDir hx⟩
    · rintro ⟨z, hz⟩
      have D := I.isDir_dirDoc hz
      rcases D.2.2 with ⟨h1, _⟩ | ⟨d', b', w, h1, h2, h3, h4, h'⟩
      · rw [hz.2.2] at h1; exact absurd h1 (join_ne_nil hb)
      · rw [hz.2.2] at h1
        obtain ⟨e1, e2⟩ := join_inj hb h3 h1
        rw [← e1] at h4
        refine ⟨z, hz.1, ?_⟩
        rw [h', ← e2, I.isDir_unique hy h4]
        simp
  · intro x hx v hv
    by_cases hxm : x.id ∈ msgs
    · exact absurd hv ((I.msgDoc hx hxm).noDirentry _)
    · rcases (I.dirDoc hx hxm).2.2 with ⟨_, h'⟩ | ⟨_, b', z, _, _, _, _, h'⟩ <;> rw [h'] at hv <;> simp at hv
      exact ⟨z.id, b', hv⟩

theorem Inv.deleteDirectory (I : Inv root sha1 S db msgs F) {y : Doc} {d : Str} (hy : IsDir db y d) (h1 : childFiles db y.id = []) (h2 : childDirectories db y.id = []) :
    Inv root sha1 S (deleteDoc db y.id) msgs F := by
  have hdown : ∀ z e, IsDir (deleteDoc db y.id) z e → IsDir db z e := fun z e h => ⟨(mem_deleteDoc.1 h.1).1, h.2.1, h.2.2⟩
  have hup : ∀ z e, IsDir db z e → e ≠ d → IsDir (deleteDoc db y.id) z e := by
    intro z e h hne
    refine ⟨mem_deleteDoc.2 ⟨h.1, fun he => hne (I.isDir_id h hy he)⟩, h.2.1, h.2.2⟩
  have hF : ∀ m e b, F m e b → e ≠ d := by
    rintro m e b h rfl
    have := (I.mem_childFiles hy).2 ⟨m, h⟩
    rw [h1] at this; simp at this
  have hD : ∀ z e b, Name b → IsDir db z (join e b) → e ≠ d := by
    rintro z e b hb h rfl
    have := (I.mem_childDirectories hy hb).2 ⟨z, h⟩
    rw [h2] at this; simp at this
  refine ⟨I.root, I.sha1, nodup_deleteDoc I _, fun x hx => I.le x (mem_deleteDoc.1 hx).1, ?_, ?_, ?_, I.filesMsg⟩
  · intro x hx
    obtain ⟨hx, hne⟩ := mem_deleteDoc.1 hx
    by_cases hxm : x.id ∈ msgs
    · rw [if_pos hxm]
      have M := I.msgDoc hx hxm
      refine ⟨M.nodup, M.noDir, M.noDirentry, fun v => ?_, fun e b h => ?_, M.path, M.folder⟩
      · rw [M.files]
        constructor
        · rintro ⟨e, b, z, h1, h2, h3⟩; exact ⟨e, b, z, h1, hup z e h2 (hF _ _ _ h1), h3⟩
        · rintro ⟨e, b, z, h1, h2, h3⟩; exact ⟨e, b, z, h1, hdown z e h2, h3⟩
      · obtain ⟨h1, h2, h3, h4, z, h5, h6⟩ := M.ok e b h
        exact ⟨h1, h2, h3, h4, z, hup z e h5 (hF _ _ _ h), h6⟩
    · rw [if_neg hxm]
      have D := I.dirDoc hx hxm
      refine ⟨D.1, D.2.1, ?_⟩
      rcases D.2.2 with h | ⟨e, b, z, h1, h2, h3, h4, h5⟩
      · exact .inl h
      · exact .inr ⟨e, b, z, h1, h2, h3, hup z e h4 (hD x e b h3 (h1 ▸ D.isDir hx)), h5⟩
  · intro x hx z hz
    exact I.uniq x (mem_deleteDoc.1 hx).1 z (mem_deleteDoc.1 hz).1
  · intro m hm
    obtain ⟨x, hx, e⟩ := I.msgsEx m hm
    exact ⟨x, mem_deleteDoc.2 ⟨hx, fun h => I.isDir_not_msg hy (h ▸ e ▸ hm)⟩, e⟩

/-- The invariant holds after every history. -/
theorem History.inv (N : NoCollision sha1 S) (hr : Root root) (H : History root sha1 S db msgs F) : Inv root sha1 S db msgs F := by
  induction H with
  | empty => exact ⟨rfl, rfl, by simp [emptyDb], by simp [emptyDb], by simp [emptyDb], by simp [emptyDb], by simp, by simp⟩
  | create others _ I => exact I.newMessage others
  | @add db msgs F db' m d b f _ hm hd hs hb hf e I =>
    have := addFilename_inv I N hr hm hd hs hb hf
    rw [e] at this
    exact this
  | @addFails db msgs F db' m d b f er _ hm hd hs hb hf e _ I =>
    have := addFilename_inv I N hr hm hd hs hb hf
    rw [e] at this
    exact this.1
  | @remove db msgs F db' m d b f r _ hm hd hs hb hf e I =>
    rcases removeFilename_inv I N hr hm hd hs hb hf with ⟨db2, r2, h1, h2, _⟩ | ⟨db2, h1, _⟩
    · rw [e] at h1
      simp only [Prod.mk.injEq, Except.ok.injEq] at h1
      rw [h1.1]; exact h2
    · rw [e] at h1; simp at h1
  | delete m _ hm I => exact I.deleteMessage hm
  | @deleteDirectory db msgs F id d _ hd hs h h1 h2 I =>
    rcases findOrCreate_lookup I N hd hs with ⟨y, h3, hy⟩ | ⟨h3, _⟩ <;> rw [h] at h3 <;> simp at h3
    subst h3
    exact I.deleteDirectory hy h1 h2

end

end Notmuch.Directory
