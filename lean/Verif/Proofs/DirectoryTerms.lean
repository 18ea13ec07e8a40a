import Verif.Proofs.DirectoryPath

/-! # The terms of a message about its files -/

namespace Notmuch.Directory

theorem addTerm_spec {terms t : List (Field × Str)} {f : Field} {v : Str} (h : addTerm terms f v = some t) :
    prefixLength f + v.length ≤ 245 ∧ (∀ x, x ∈ t ↔ x ∈ terms ∨ x = (f, v)) ∧ (terms.Nodup → t.Nodup) := by
  unfold addTerm at h
  split at h
  · simp at h
  · rename_i hl
    refine ⟨by omega, ?_⟩
    rw [Option.some.injEq] at h
    split at h
    · rename_i hm
      subst h
      refine ⟨fun x => ⟨.inl, fun hx => ?_⟩, id⟩
      rcases hx with hx | rfl
      · exact hx
      · exact hm
    · rename_i hm
      subst h
      refine ⟨fun x => by simp, fun hn => ?_⟩
      rw [List.nodup_append]
      refine ⟨hn, by simp, ?_⟩
      intro a ha b hb
      rw [List.mem_singleton] at hb
      rintro rfl
      rw [hb] at ha
      exact hm ha

theorem addTerm_some {terms : List (Field × Str)} {f : Field} {v : Str} (h : prefixLength f + v.length ≤ 245) : ∃ t, addTerm terms f v = some t := by
  unfold addTerm
  rw [if_neg (by omega)]
  exact ⟨_, rfl⟩

theorem addTerm_none {terms : List (Field × Str)} {f : Field} {v : Str} (h : addTerm terms f v = none) : 245 < prefixLength f + v.length := by
  unfold addTerm at h
  split at h
  · assumption
  · simp at h

/-! ## Folder terms -/

theorem isMaildir_iff (b : Str) : isMaildir b = true ↔ b = bs "cur" ∨ b = bs "new" := by
  simp [isMaildir]

theorem maildir_name {b : Str} (h : b = bs "cur" ∨ b = bs "new") : Name b := by
  rcases h with rfl | rfl <;> exact ⟨by decide, by decide, by decide⟩

theorem lastComponent_append (d b : Str) (hb : 47 ∉ b) : ((d ++ 47 :: b).reverse.takeWhile (fun c => c ≠ (47 : UInt8))).reverse = b := by
  rw [List.reverse_append, List.reverse_cons, List.append_assoc]
  rw [List.takeWhile_append_of_pos]
  · simp
  · intro c hc
    have : c ∈ b := by simpa using hc
    simp
    rintro rfl
    exact hb this

theorem folderOf_join {d b : Str} (hd : Dir d) (hb : Name b) : folderOf (join d b) = if isMaildir b then d else join d b := by
  unfold join
  split
  · rename_i h
    subst h
    unfold folderOf
    simp only [if_neg hb.2.1]
  · rename_i h
    unfold folderOf
    have e : d ++ [47] ++ b = d ++ 47 :: b := by simp
    simp only [e]
    rw [lastComponent_append d b hb.2.1, if_pos (by simp)]
    have : (d ++ 47 :: b).length - b.length - 1 = d.length := by simp; omega
    rw [this, List.take_left]

theorem folderOf_nil : folderOf [] = [] := rfl

theorem folderTerm_iff {d w : Str} (hd : Dir d) : FolderTerm d w ↔ w = folderOf d := by
  cases hd with
  | root =>
    rw [folderOf_nil]
    constructor
    · rintro (⟨b, hb, h⟩ | ⟨h, _⟩)
      · exact absurd h.symm (join_ne_nil (maildir_name hb))
      · exact h
    · rintro rfl
      refine .inr ⟨rfl, ?_⟩
      rintro ⟨p, b, hb, h⟩
      exact absurd h.symm (join_ne_nil (maildir_name hb))
  | @child d b hd hb =>
    rw [folderOf_join hd hb]
    by_cases hm : isMaildir b = true
    · rw [if_pos hm]
      constructor
      · rintro (⟨b', hb', h⟩ | ⟨_, h⟩)
        · exact (join_inj hb (maildir_name hb') h).1.symm
        · exact absurd ⟨d, b, (isMaildir_iff b).1 hm, rfl⟩ h
      · rintro rfl
        exact .inl ⟨b, (isMaildir_iff b).1 hm, rfl⟩
    · rw [if_neg hm]
      constructor
      · rintro (⟨b', hb', h⟩ | ⟨h, _⟩)
        · rw [← (join_inj hb (maildir_name hb') h).2] at hb'
          exact absurd ((isMaildir_iff b).2 hb') hm
        · exact h
      · rintro rfl
        refine .inr ⟨rfl, ?_⟩
        rintro ⟨p, b', hb', h⟩
        rw [← (join_inj hb (maildir_name hb') h).2] at hb'
        exact absurd ((isMaildir_iff b).2 hb') hm

theorem addFolderTerms_spec {terms t : List (Field × Str)} {d : Str} (hd : Dir d) (h : addFolderTerms terms d = .ok t) :
    (∀ x, x ∈ t ↔ x ∈ terms ∨ ∃ w, FolderTerm d w ∧ x = (.folder, w)) ∧ (terms.Nodup → t.Nodup) := by
  unfold addFolderTerms at h
  split at h
  · simp at h
  · rename_i t' h'
    rw [Except.ok.injEq] at h
    subst h
    obtain ⟨_, h2, h3⟩ := addTerm_spec h'
    refine ⟨fun x => ?_, h3⟩
    rw [h2]
    simp only [folderTerm_iff hd, exists_eq_left]

theorem addFolderTerms_error {terms : List (Field × Str)} {d : Str} {e : Err} (h : addFolderTerms terms d = .error e) :
    e = .abort ∧ 245 < 8 + (folderOf d).length := by
  unfold addFolderTerms at h
  split at h
  · rename_i h'
    rw [Except.error.injEq] at h
    exact ⟨h.symm, addTerm_none h'⟩
  · simp at h

/-! ## Path terms -/

theorem within_join {a d b : Str} (hb : Name b) (ha : a ≠ []) : Within a (join d b) ↔ a = join d b ∨ Within a d := by
  unfold Within
  constructor
  · rintro (h | ⟨r, h⟩)
    · exact .inl h.symm
    · right
      unfold join at h
      split at h
      · exact absurd (h ▸ by simp) hb.2.1
      · -- the slash after a is the last one, or is in d
        have h' : d ++ 47 :: b = a ++ 47 :: r := by simpa using h
        by_cases hr : (47 : UInt8) ∈ r
        · obtain ⟨x, y, e, hy⟩ := last_slash r hr
          right
          rw [e] at h'
          have h'' : d ++ 47 :: b = (a ++ 47 :: x) ++ 47 :: y := by simpa using h'
          obtain ⟨e1, _⟩ := append_slash_inj hb.2.1 hy h''
          exact ⟨x, by rw [e1]; simp⟩
        · exact .inl (append_slash_inj hb.2.1 hr h').1
  · rintro (h | h | ⟨r, h⟩)
    · exact .inl h.symm
    · right
      have hd : d ≠ [] := h ▸ ha
      exact ⟨b, by unfold join; rw [if_neg hd, h]⟩
    · right
      have hd : d ≠ [] := by rw [h]; simp
      refine ⟨r ++ [47] ++ b, ?_⟩
      unfold join
      rw [if_neg hd, h]; simp

theorem within_nil {a : Str} (ha : a ≠ []) : ¬ Within a [] := by
  rintro (h | ⟨r, h⟩)
  · exact ha h.symm
  · simp at h

theorem recursiveTerms_skip {buf : Str} {j : Nat} {terms : List (Field × Str)} : ∀ {k : Nat}, j ≤ k →
    (∀ i, j < i → i ≤ k → buf[i]? ≠ some 47) → recursiveTerms buf k terms = recursiveTerms buf j terms := by
  intro k
  induction k with
  | zero => intro h _; have : j = 0 := by omega
            subst this; rfl
  | succ k ih =>
    intro hle h
    by_cases hk : j = k + 1
    · subst hk; rfl
    · rw [recursiveTerms, if_neg (h (k + 1) (by omega) (Nat.le_refl _))]
      exact ih (by omega) (fun i h1 h2 => h i h1 (by omega))

theorem takeWhile_nul {s r : Str} (h : (0 : UInt8) ∉ s) : (s ++ 0 :: r).takeWhile (fun c => c ≠ 0) = s := by
  rw [List.takeWhile_append_of_pos]
  · simp
  · intro c hc
    simp
    rintro rfl
    exact h hc

/-- The loop adds a term for the directory that ends at the position, and for those above. -/
theorem recursiveTerms_dir {d : Str} (hd : Dir d) : ∀ {rest : Str} {terms : List (Field × Str)}, d ≠ [] → rest.length ≥ 3 →
    match recursiveTerms (d ++ 47 :: rest) d.length terms with
    | .error e => e = .abort ∧ 245 < 4 + d.length
    | .ok t => (∀ x, x ∈ t ↔ x ∈ terms ∨ ∃ a, a ≠ [] ∧ Within a d ∧ x = (.path, a ++ bs "/**")) ∧ (terms.Nodup → t.Nodup) ∧ 4 + d.length ≤ 245 := by
  induction hd with
  | root => intro _ _ h; exact absurd rfl h
  | @child d b hd hb ih =>
    intro rest terms hne hrest
    have hlen : 0 < (join d b).length := List.length_pos_iff.2 hne
    obtain ⟨k, hk⟩ : ∃ k, (join d b).length = k + 1 := ⟨(join d b).length - 1, by omega⟩
    rw [hk, recursiveTerms, ← hk, if_pos (by rw [List.getElem?_append_right (Nat.le_refl _)]; simp)]
    have hcs : copySuffix (join d b ++ 47 :: rest) (join d b).length = some (join d b ++ bs "/**" ++ [0] ++ rest.drop 3) := by
      unfold copySuffix
      rw [if_pos (by simp; omega), List.take_left]
      rw [List.drop_append]
      have : (join d b).drop ((join d b).length + 4) = [] := List.drop_of_length_le (by omega)
      rw [this, List.nil_append]
      have : (join d b).length + 4 - (join d b).length = 4 := by omega
      rw [this]; rfl
    rw [hcs]
    simp only
    have htw : (join d b ++ bs "/**" ++ [0] ++ rest.drop 3).takeWhile (fun c => c ≠ 0) = join d b ++ bs "/**" := by
      rw [List.append_assoc (join d b ++ bs "/**"), List.singleton_append]
      apply takeWhile_nul
      simp only [List.mem_append, not_or]
      exact ⟨(Dir.child hd hb).noNul, by decide⟩
    rw [htw]
    cases hadd : addTerm terms .path (join d b ++ bs "/**") with
    | none =>
      have := addTerm_none hadd
      simp only [prefixLength, List.length_append] at this
      have e3 : (bs "/**").length = 3 := by decide
      exact ⟨rfl, by omega⟩
    | some t1 =>
      simp only
      obtain ⟨hl, m1, n1⟩ := addTerm_spec hadd
      have hl4 : 4 + (join d b).length ≤ 245 := by
        simp only [prefixLength, List.length_append] at hl
        have e3 : (bs "/**").length = 3 := by decide
        omega
      by_cases hdn : d = []
      · subst hdn
        have hj : join [] b = b := by unfold join; simp
        rw [hj] at hk hl4 ⊢
        have hsk : recursiveTerms (b ++ bs "/**" ++ [0] ++ rest.drop 3) k t1 = recursiveTerms (b ++ bs "/**" ++ [0] ++ rest.drop 3) 0 t1 := by
          apply recursiveTerms_skip (by omega)
          intro i _ hi
          rw [List.append_assoc, List.append_assoc, List.getElem?_append_left (by omega)]
          exact getElem?_ne_of_not_mem hb.2.1 _
        rw [hsk, recursiveTerms]
        refine ⟨fun x => ?_, n1, hl4⟩
        rw [m1]
        constructor
        · rintro (h | h)
          · exact .inl h
          · exact .inr ⟨b, hb.1, .inl rfl, by rw [h, hj]⟩
        · rintro (h | ⟨a, ha, hw, h⟩)
          · exact .inl h
          · rw [← hj, within_join hb ha] at hw
            rcases hw with hw | hw
            · rw [hw] at h; exact .inr h
            · exact absurd hw (within_nil ha)
      · have hj : join d b = d ++ 47 :: b := by unfold join; rw [if_neg hdn]; simp
        have hkl : k = d.length + b.length := by rw [hj] at hk; simp at hk; omega
        have hbuf : join d b ++ bs "/**" ++ [0] ++ rest.drop 3 = d ++ 47 :: (b ++ bs "/**" ++ [0] ++ rest.drop 3) := by rw [hj]; simp
        have hsk : recursiveTerms (d ++ 47 :: (b ++ bs "/**" ++ [0] ++ rest.drop 3)) k t1 = recursiveTerms (d ++ 47 :: (b ++ bs "/**" ++ [0] ++ rest.drop 3)) d.length t1 := by
          apply recursiveTerms_skip (by omega)
          intro i h1 h2
          obtain ⟨j, rfl⟩ : ∃ j, i = d.length + 1 + j := ⟨i - d.length - 1, by omega⟩
          rw [List.getElem?_append_right (by omega)]
          have : d.length + 1 + j - d.length = j + 1 := by omega
          rw [this, List.getElem?_cons_succ, List.append_assoc, List.append_assoc, List.getElem?_append_left (by omega)]
          exact getElem?_ne_of_not_mem hb.2.1 _
        rw [hbuf, hsk]
        have := @ih (b ++ bs "/**" ++ [0] ++ rest.drop 3) t1 hdn (by simp [show (bs "/**").length = 3 by decide]; omega)
        revert this
        cases recursiveTerms (d ++ 47 :: (b ++ bs "/**" ++ [0] ++ rest.drop 3)) d.length t1 with
        | error e =>
          rintro ⟨h1, h2⟩
          refine ⟨h1, ?_⟩
          rw [hj]; simp; omega
        | ok t =>
          rintro ⟨m2, n2, _⟩
          refine ⟨fun x => ?_, fun h => n2 (n1 h), hl4⟩
          rw [m2, m1]
          constructor
          · rintro ((h | h) | ⟨a, ha, hw, h⟩)
            · exact .inl h
            · exact .inr ⟨join d b, join_ne_nil hb, .inl rfl, h⟩
            · exact .inr ⟨a, ha, (within_join hb ha).2 (.inr hw), h⟩
          · rintro (h | ⟨a, ha, hw, h⟩)
            · exact .inl (.inl h)
            · rcases (within_join hb ha).1 hw with hw | hw
              · rw [hw] at h; exact .inl (.inr h)
              · exact .inr ⟨a, ha, hw, h⟩

theorem addPathTerms_spec {d : Str} (hd : Dir d) (terms : List (Field × Str)) :
    match addPathTerms terms d with
    | .error e => e = .abort ∧ 245 < 4 + d.length
    | .ok t => (∀ x, x ∈ t ↔ x ∈ terms ∨ ∃ w, PathTerm d w ∧ x = (.path, w)) ∧ (terms.Nodup → t.Nodup) ∧ 4 + d.length ≤ 245 := by
  unfold addPathTerms
  cases h1 : addTerm terms .path d with
  | none =>
    have := addTerm_none h1
    simp only [prefixLength] at this
    exact ⟨rfl, by omega⟩
  | some t1 =>
    obtain ⟨_, m1, n1⟩ := addTerm_spec h1
    simp only
    -- the loop
    have hloop : match (if d ≠ [] then recursiveTerms (d ++ bs "/**" ++ [0]) (d.length + 3 - 1) t1 else Except.ok t1) with
        | .error e => e = .abort ∧ 245 < 4 + d.length
        | .ok t => (∀ x, x ∈ t ↔ x ∈ t1 ∨ ∃ a, a ≠ [] ∧ Within a d ∧ x = (.path, a ++ bs "/**")) ∧ (t1.Nodup → t.Nodup) ∧ 4 + d.length ≤ 245 := by
      by_cases hdn : d = []
      · subst hdn
        simp only [ne_eq, not_true_eq_false, if_false]
        refine ⟨fun x => ⟨.inl, ?_⟩, id, by decide⟩
        rintro (h | ⟨a, ha, hw, _⟩)
        · exact h
        · exact absurd hw (within_nil ha)
      · rw [if_pos hdn]
        have hbuf : d ++ bs "/**" ++ [0] = d ++ 47 :: (bs "**" ++ [0]) := by
          rw [List.append_assoc]; rfl
        have hsk : recursiveTerms (d ++ bs "/**" ++ [0]) (d.length + 3 - 1) t1 = recursiveTerms (d ++ 47 :: (bs "**" ++ [0])) d.length t1 := by
          rw [hbuf]
          apply recursiveTerms_skip (by omega)
          intro i h1 h2
          rw [List.getElem?_append_right (by omega)]
          have : i - d.length = 1 ∨ i - d.length = 2 := by omega
          rcases this with h | h <;> rw [h] <;> decide
        rw [hsk]
        exact recursiveTerms_dir hd hdn (by decide)
    revert hloop
    cases (if d ≠ [] then recursiveTerms (d ++ bs "/**" ++ [0]) (d.length + 3 - 1) t1 else Except.ok t1) with
    | error e => intro h; exact h
    | ok t2 =>
      rintro ⟨m2, n2, hl4⟩
      simp only
      obtain ⟨t3, h3⟩ := @addTerm_some t2 .path (bs "**") (by decide)
      rw [h3]
      obtain ⟨_, m3, n3⟩ := addTerm_spec h3
      refine ⟨fun x => ?_, fun h => n3 (n2 (n1 h)), hl4⟩
      rw [m3, m2, m1]
      unfold PathTerm
      constructor
      · rintro (((h | h) | ⟨a, ha, hw, h⟩) | h)
        · exact .inl h
        · exact .inr ⟨d, .inl rfl, h⟩
        · exact .inr ⟨_, .inr (.inr ⟨a, ha, hw, rfl⟩), h⟩
        · exact .inr ⟨_, .inr (.inl rfl), h⟩
      · rintro (h | ⟨w, (hw | hw | ⟨a, ha, hw, hww⟩), h⟩)
        · exact .inl (.inl (.inl h))
        · exact .inl (.inl (.inr (by rw [h, hw])))
        · exact .inr (by rw [h, hw])
        · exact .inl (.inr ⟨a, ha, hw, by rw [h, hww]⟩)

end Notmuch.Directory
