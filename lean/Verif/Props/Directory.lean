import Verif.Proofs.DirectoryApi

/-! # C27, C28, C35: files, directories, `path:` and `folder:` -/

namespace Notmuch.Props
open Notmuch.Directory

section
variable {root : Str} {sha1 : Str → Str} {S : Str → Prop} {db : Db} {msgs : List Nat} {F : Nat → Str → Str → Prop}

/-! ## C27 -/

/-- After every history, `path:w` finds exactly the messages with a file in a directory the term names. -/
theorem C27_path (N : NoCollision sha1 S) (hr : Root root) (H : History root sha1 S db msgs F) (w : Str) (m : Nat) :
    m ∈ matching db .path w ↔ ∃ d b, F m d b ∧ PathTerm d w := (H.inv N hr).matching_path w m

/-- After every history, `folder:w` finds exactly the messages with a file in that maildir folder. -/
theorem C27_folder (N : NoCollision sha1 S) (hr : Root root) (H : History root sha1 S db msgs F) (w : Str) (m : Nat) :
    m ∈ matching db .folder w ↔ ∃ d b, F m d b ∧ FolderTerm d w := (H.inv N hr).matching_folder w m

/-- A directory has exactly one folder. -/
theorem C27_folder_unique {d : Str} (hd : Dir d) : ∃ w, FolderTerm d w ∧ ∀ w', FolderTerm d w' → w' = w :=
  ⟨folderOf d, (folderTerm_iff hd).2 rfl, fun _ h => (folderTerm_iff hd).1 h⟩

/-! ## C28 -/

/-- Splitting any path that has a slash between two other characters: the directory is what is before the
last group of such slashes, the base name all after it (with slashes at the end). -/
theorem C28_split (pre c : Str) (n t : Nat) (hpre : pre ≠ []) (hl : pre.getLast? ≠ some 47) (hc : c ≠ []) (hc2 : (47 : UInt8) ∉ c) :
    splitPath (some (pre ++ List.replicate (n + 1) 47 ++ c ++ List.replicate t 47)) = (some pre, some (c ++ List.replicate t 47)) :=
  splitPath_general n t hpre hl hc hc2

/-- Splitting any other path: no directory, and the path as base name. -/
theorem C28_split_flat (c : Str) (n t : Nat) (hc : (47 : UInt8) ∉ c) (hne : List.replicate n 47 ++ c ++ List.replicate t 47 ≠ []) :
    splitPath (some (List.replicate n 47 ++ c ++ List.replicate t 47)) = (some [], some (List.replicate n 47 ++ c ++ List.replicate t 47)) :=
  splitPath_flat n t hc hne

/-- Every path is of one of these two forms. -/
theorem C28_forms (p : Str) : (∃ n c t, p = List.replicate n 47 ++ c ++ List.replicate t 47 ∧ (47 : UInt8) ∉ c) ∨
    ∃ pre n c t, p = pre ++ List.replicate (n + 1) 47 ++ c ++ List.replicate t 47 ∧ pre ≠ [] ∧ pre.getLast? ≠ some 47 ∧ c ≠ [] ∧ (47 : UInt8) ∉ c :=
  path_forms p

/-- Of a path without superfluous slashes: directory and base name; joining them gives the path. -/
theorem C28_join {d b : Str} (hd : Dir d) (hb : Name b) : splitPath (some (join d b)) = (some d, some b) := splitPath_join hd hb

/-- The two names of a file, from the root and absolute, are the same path for the database.  Missing: a path
outside of the root stays absolute; `C28_outside` and `C28_relative_outside` say when. -/
theorem C28_relative_partial {root d b f : Str} (hr : Root root) (hd : Dir d) (hb : Name b) (hf : FileName root d b f) : relativePath root f = join d b :=
  relativePath_fileName hr hd hb hf

/-- An absolute path that does not begin with the bytes of the root stays absolute. -/
theorem C28_outside {root path : Str} (h1 : path.head? = some 47) (h2 : path[1]? ≠ some 47) (h3 : ¬ root <+: path) : relativePath root path = path := by
  unfold relativePath
  rw [if_pos h1]
  have : leadingSlashes path = path := by
    apply leadingSlashes_of
    rintro r rfl
    exact h2 rfl
  simp only [this]
  rw [if_neg]
  rw [List.isPrefixOf_iff_prefix]
  exact h3

/-- The documentation says that trailing slashes are ignored: they are kept in the base name. -/
theorem C28_trailing_slashes_kept : splitPath (some (bs "a/b/")) = (some (bs "a"), some (bs "b/")) := by decide

/-- The database path is not compared up to a slash: an absolute name outside of the root is taken for one
inside. -/
theorem C28_relative_outside : relativePath (bs "/mail") (bs "/mailbox/x") = bs "box/x" := by decide

/-! ## C35 -/

/-- `notmuch_message_get_filenames` returns the files of the message, each once. -/
theorem C35_filenames (N : NoCollision sha1 S) (hr : Root root) (H : History root sha1 S db msgs F) {m : Nat} (h : ∃ d b, F m d b) :
    ∃ fs, getFilenames db m = .ok fs ∧ fs.Nodup ∧ ∀ f, f ∈ fs ↔ ∃ d b, F m d b ∧ f = absName root d b := (H.inv N hr).getFilenames h

/-- `notmuch_database_find_message_by_filename`, with either name of the file, finds a message with that file
if there is one. -/
theorem C35_find_message (N : NoCollision sha1 S) (hr : Root root) (H : History root sha1 S db msgs F) {d b f : Str} (hd : Dir d) (hs : S d) (hb : Name b)
    (hf : FileName root d b f) :
    (∃ m, findMessageByFilename db f = .ok (some m) ∧ F m d b) ∨ (findMessageByFilename db f = .ok none ∧ ∀ m, ¬ F m d b) :=
  (H.inv N hr).findMessage N hr hd hs hb hf

/-- `notmuch_directory_get_child_files`: exactly the names of the files in the directory. -/
theorem C35_child_files (N : NoCollision sha1 S) (hr : Root root) (H : History root sha1 S db msgs F) {d : Str} (hd : Dir d) (hs : S d) {id : Nat}
    (h : findDirectoryId db (some d) false = (db, .ok (some id))) (b : Str) : b ∈ childFiles db id ↔ ∃ m, F m d b := by
  obtain ⟨y, rfl, hy⟩ := (H.inv N hr).isDir_of_id N hd hs h
  exact (H.inv N hr).mem_childFiles hy

/-- `notmuch_directory_get_child_directories`: exactly the known directories in the directory. -/
theorem C35_child_directories (N : NoCollision sha1 S) (hr : Root root) (H : History root sha1 S db msgs F) {d : Str} (hd : Dir d) {id : Nat}
    (h : findDirectoryId db (some d) false = (db, .ok (some id))) {b : Str} (hb : Name b) (hs : S (join d b)) :
    b ∈ childDirectories db id ↔ Known db (join d b) := by
  have I := H.inv N hr
  obtain ⟨y, rfl, hy⟩ := I.isDir_of_id N hd (N.up d b hb hs) h
  rw [I.mem_childDirectories hy hb, I.known_iff N (Dir.child hd hb) hs]

/-- The directory of a file is known, and with a directory the one above. -/
theorem C35_known (N : NoCollision sha1 S) (hr : Root root) (H : History root sha1 S db msgs F) :
    (∀ m d b, F m d b → S d → Known db d) ∧ (∀ d b, Dir d → Name b → S (join d b) → Known db (join d b) → Known db d) := by
  have I := H.inv N hr
  constructor
  · intro m d b h hs
    obtain ⟨x, hx, rfl, _, M⟩ := I.termsOf_msg (I.filesMsg _ _ _ h)
    obtain ⟨z, hz, _⟩ := (M.ok d b h).exist
    exact (I.known_iff N (M.ok d b h).dir hs).2 ⟨z, hz⟩
  · intro d b hd hb hs h
    obtain ⟨y, hy⟩ := (I.known_iff N (Dir.child hd hb) hs).1 h
    exact (I.known_iff N hd (N.up d b hb hs)).2 (I.isDir_parent hb hy)

/-- Different directories have different documents. -/
theorem C35_directories_distinct (N : NoCollision sha1 S) (hr : Root root) (H : History root sha1 S db msgs F) {d e : Str} (hd : Dir d) (he : Dir e) (hs : S d) (hse : S e)
    {id : Nat} (h1 : findDirectoryId db (some d) false = (db, .ok (some id))) (h2 : findDirectoryId db (some e) false = (db, .ok (some id))) : d = e := by
  obtain ⟨y, e1, hy⟩ := (H.inv N hr).isDir_of_id N hd hs h1
  obtain ⟨z, e2, hz⟩ := (H.inv N hr).isDir_of_id N he hse h2
  exact (H.inv N hr).isDir_id hy hz (e1.trans e2.symm)

/-- Removing a file of a message succeeds and says whether other files remain. -/
theorem C35_remove (N : NoCollision sha1 S) (hr : Root root) (H : History root sha1 S db msgs F) {m : Nat} {d b f : Str} (hs : S d) (h : F m d b)
    (hf : FileName root d b f) :
    ∃ db' r, removeFilename db m f = (db', .ok r) ∧
      History root sha1 S db' msgs (fun m' d' b' => F m' d' b' ∧ ¬ (m' = m ∧ d' = d ∧ b' = b)) ∧
      (r = .others ↔ ∃ d' b', F m d' b' ∧ ¬ (d' = d ∧ b' = b)) := by
  have I := H.inv N hr
  have hm := I.filesMsg _ _ _ h
  obtain ⟨x, hx, ex, _, M⟩ := I.termsOf_msg hm
  have ok := M.ok d b (ex ▸ h)
  obtain ⟨z, hz, _⟩ := ok.exist
  rcases removeFilename_inv I N hr hm ok.dir hs ok.name hf with ⟨db2, r2, h1, h2, h3⟩ | ⟨db2, h1, h2⟩
  · exact ⟨db2, r2, h1, H.remove hm ok.dir hs ok.name hf h1, h3 ⟨z, hz⟩⟩
  · exact absurd h h2

/-- Adding a file only fails because of a length; the process ends only for a long directory. -/
theorem C35_add (N : NoCollision sha1 S) (hr : Root root) (H : History root sha1 S db msgs F) {m : Nat} (hm : m ∈ msgs) {d b f : Str} (hd : Dir d) (hs : S d)
    (hb : Name b) (hf : FileName root d b f) (hlen : d.length ≤ 237) : (addFilename db m f).2 ≠ .error .abort := by
  have := addFilename_inv (H.inv N hr) N hr hm hd hs hb hf
  revert this
  cases h : addFilename db m f with
  | mk db' r =>
    cases r with
    | ok u => intro _ h'; simp at h'
    | error e =>
      rintro ⟨_, h2⟩ h'
      simp only [Except.error.injEq] at h'
      have hfo : (folderOf d).length ≤ d.length := by
        cases hd with
        | root => exact Nat.le_refl _
        | @child d b hd hb =>
          rw [folderOf_join hd hb]
          split
          · unfold join
            split
            · rename_i h0; rw [h0]; exact Nat.zero_le _
            · simp only [List.length_append]; omega
          · exact Nat.le_refl _
      rcases h2 h' with h3 | h3 <;> omega

/-- `notmuch_database_remove_message`: the file is no longer a file of the message found; the message is
deleted exactly if it was its last; nothing else changes. -/
theorem C35_remove_message (N : NoCollision sha1 S) (hr : Root root) (H : History root sha1 S db msgs F) {d b f : Str} (hd : Dir d) (hs : S d) (hb : Name b)
    (hf : FileName root d b f) :
    (removeMessage db f = (db, .ok none) ∧ ∀ m, ¬ F m d b) ∨
    ∃ m db' r msgs' F', F m d b ∧ removeMessage db f = (db', .ok (some r)) ∧ History root sha1 S db' msgs' F' ∧
      (∀ m' d' b', F' m' d' b' ↔ F m' d' b' ∧ ¬ (m' = m ∧ d' = d ∧ b' = b)) ∧
      (r = .others ↔ ∃ d' b', F m d' b' ∧ ¬ (d' = d ∧ b' = b)) ∧
      (∀ m', m' ∈ msgs' ↔ m' ∈ msgs ∧ (m' = m → r = .others)) := by
  have I := H.inv N hr
  unfold removeMessage
  rcases I.findMessage N hr hd hs hb hf with ⟨m, h1, h2⟩ | ⟨h1, h2⟩
  · right
    rw [h1]
    simp only
    have hm := I.filesMsg _ _ _ h2
    by_cases hc : countFiles db m > 1
    · rw [if_pos hc]
      obtain ⟨db1, r, h3, h4, h5⟩ := C35_remove N hr H hs h2 hf
      have hr' : r = .others := by
        rw [h5]
        refine Classical.byContradiction fun hno => ?_
        refine (I.countFiles_one h2).2 ?_ hc
        intro d' b' h'
        exact Decidable.byContradiction fun hne => hno ⟨d', b', h', hne⟩
      subst hr'
      rw [h3]
      simp only
      exact ⟨m, db1, .others, msgs, _, h2, rfl, h4, fun _ _ _ => Iff.rfl, h5, fun m' => by simp⟩
    · rw [if_neg hc]
      have hone := (I.countFiles_one h2).1 hc
      refine ⟨m, _, .last, _, _, h2, rfl, H.delete m hm, ?_, ?_, ?_⟩
      · intro m' d' b'
        constructor
        · rintro ⟨h3, h4⟩; exact ⟨h3, fun h => h4 h.1⟩
        · rintro ⟨h3, h4⟩
          refine ⟨h3, ?_⟩
          rintro rfl
          exact h4 ⟨rfl, hone d' b' h3⟩
      · constructor
        · intro h; simp at h
        · rintro ⟨d', b', h3, h4⟩; exact absurd (hone d' b' h3) h4
      · intro m'; simp
  · left
    rw [h1]
    exact ⟨rfl, h2⟩

end

/-! ## Examples and counterexamples -/

/-- The directories of at most 235 bytes need no hash. -/
theorem C35_noCollision (sha1 : Str → Str) : NoCollision sha1 (fun d => d.length ≤ 235) := by
  constructor
  · intro p q hp hq h
    rw [if_neg (by omega), if_neg (by omega)] at h
    exact h
  · intro d b hb h
    refine Nat.le_trans ?_ h
    unfold join
    split
    · rename_i h0; rw [h0]; exact Nat.zero_le _
    · simp only [List.length_append]; omega

private def exRoot : Str := bs "/mail"

theorem exRoot_root : Root exRoot := ⟨bs "mail", rfl, by decide, by decide, by decide⟩

private theorem exName (b : Str) (h : b ≠ [] ∧ (47 : UInt8) ∉ b ∧ (0 : UInt8) ∉ b) : Name b := h

private def exDb1 : Db := (newMessage (emptyDb exRoot id) []).1
private def exDb2 : Db := (addFilename exDb1 1 (bs "/mail/a/cur/x")).1
private def exDb3 : Db := (addFilename exDb2 1 (bs "y")).1
private def exDb4 : Db := (removeFilename exDb3 1 (bs "a/cur/x")).1

private theorem exDirA : Dir (bs "a/cur") := Dir.child (Dir.child Dir.root (exName (bs "a") (by decide))) (exName (bs "cur") (by decide))

/-- A history with a message of two files, one of which is removed. -/
theorem C35_history_example : ∃ F, History exRoot id (fun d => d.length ≤ 235) exDb3 [1] F ∧
    History exRoot id (fun d => d.length ≤ 235) exDb4 [1] (fun m d b => F m d b ∧ ¬ (m = 1 ∧ d = bs "a/cur" ∧ b = bs "x")) ∧
    F 1 (bs "a/cur") (bs "x") ∧ F 1 [] (bs "y") := by
  have H1 : History exRoot id (fun d => d.length ≤ 235) exDb1 [1] (fun _ _ _ => False) := History.create [] History.empty
  have H2 := H1.add (db' := exDb2) (m := 1) (d := bs "a/cur") (b := bs "x") (f := bs "/mail/a/cur/x") (by decide) exDirA (by decide) (exName _ (by decide)) (.inr (by decide)) rfl
  have H3 := H2.add (db' := exDb3) (m := 1) (d := []) (b := bs "y") (f := bs "y") (by decide) Dir.root (by decide) (exName _ (by decide)) (.inl (by decide)) rfl
  have H4 := H3.remove (db' := exDb4) (m := 1) (d := bs "a/cur") (b := bs "x") (f := bs "a/cur/x") (r := .others) (by decide) exDirA (by decide) (exName _ (by decide)) (.inl (by decide)) rfl
  exact ⟨_, H3, H4, .inl (.inr ⟨rfl, rfl, rfl⟩), .inr ⟨rfl, rfl, rfl⟩⟩

example : matching exDb3 .path (bs "a/**") = [1] ∧ matching exDb4 .path (bs "a/**") = [] ∧ matching exDb3 .folder (bs "a") = [1] ∧ matching exDb4 .folder [] = [1] := by
  decide +kernel

/-- Removing a name in a directory the database does not know reports that no file remains, although one
does (in `_notmuch_message_remove_filename`). -/
theorem C35_remove_unknown_directory : (removeFilename exDb3 1 (bs "z/x")).2.toOption = some .last ∧ (getFilenames exDb3 1).toOption = some [bs "/mail/a/cur/x", bs "/mail/y"] := by
  decide +kernel

/-- Adding a file in a directory whose path has 238 bytes ends the process. -/
theorem C35_long_directory_aborts : (match (addFilename exDb1 1 (List.replicate 118 97 ++ [47] ++ List.replicate 119 98 ++ bs "/x")).2 with
    | .error .abort => true
    | _ => false) = true := by decide +kernel

end Notmuch.Props
