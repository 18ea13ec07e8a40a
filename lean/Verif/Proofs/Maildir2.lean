import Verif.Proofs.Maildir

namespace Notmuch.Maildir
open MaildirSpec

/-! ### The flag actions -/

theorem first_inner (L : List FlagTag) (t : Str) : ∀ (acc : Str × Str) (x : UInt8),
    let r := L.foldl (fun (acc : Str × Str) e =>
      if t = e.tag then
        if e.inverse then (acc.1, acc.2 ++ [e.flag]) else (acc.1 ++ [e.flag], acc.2)
      else acc) acc
    (x ∈ r.1 ↔ x ∈ acc.1 ∨ ∃ e ∈ L, e.inverse = false ∧ e.flag = x ∧ e.tag = t) ∧
    (x ∈ r.2 ↔ x ∈ acc.2 ∨ ∃ e ∈ L, e.inverse = true ∧ e.flag = x ∧ e.tag = t) := by
  induction L with
  | nil => intro acc x; simp
  | cons e L ih =>
    intro acc x
    simp only [List.foldl_cons]
    have := ih (if t = e.tag then
        if e.inverse then (acc.1, acc.2 ++ [e.flag]) else (acc.1 ++ [e.flag], acc.2)
      else acc) x
    simp only at this
    rw [this.1, this.2]
    simp only [List.mem_cons, exists_eq_or_imp]
    by_cases ht : t = e.tag
    · have hc : (e.flag = x) ↔ (x = e.flag) := eq_comm
      cases hi : e.inverse
      · simp [ht, or_assoc, hc]
      · simp [ht, or_assoc, hc]
    · simp [ht, Ne.symm ht]

theorem first_pass (tags : List Str) : ∀ (acc : Str × Str) (x : UInt8),
    let r := tags.foldl (fun acc t => actionsOfTag t acc) acc
    (x ∈ r.1 ↔ x ∈ acc.1 ∨ ∃ e ∈ flag2tag, e.inverse = false ∧ e.flag = x ∧ e.tag ∈ tags) ∧
    (x ∈ r.2 ↔ x ∈ acc.2 ∨ ∃ e ∈ flag2tag, e.inverse = true ∧ e.flag = x ∧ e.tag ∈ tags) := by
  induction tags with
  | nil => intro acc x; simp
  | cons t tags ih =>
    intro acc x
    have h1 := ih (actionsOfTag t acc) x
    have h2 := first_inner flag2tag t acc x
    simp only at h1 h2
    have h2' : (x ∈ (actionsOfTag t acc).1 ↔ _) ∧ (x ∈ (actionsOfTag t acc).2 ↔ _) := h2
    simp only [List.foldl_cons]
    rw [h1.1, h1.2, h2'.1, h2'.2]
    simp only [List.mem_cons]
    constructor
    · constructor
      · rintro ((h | ⟨e, he, hi, hx, ht⟩) | ⟨e, he, hi, hx, ht⟩)
        · exact Or.inl h
        · exact Or.inr ⟨e, he, hi, hx, Or.inl ht⟩
        · exact Or.inr ⟨e, he, hi, hx, Or.inr ht⟩
      · rintro (h | ⟨e, he, hi, hx, ht | ht⟩)
        · exact Or.inl (Or.inl h)
        · exact Or.inl (Or.inr ⟨e, he, hi, hx, ht⟩)
        · exact Or.inr ⟨e, he, hi, hx, ht⟩
    · constructor
      · rintro ((h | ⟨e, he, hi, hx, ht⟩) | ⟨e, he, hi, hx, ht⟩)
        · exact Or.inl h
        · exact Or.inr ⟨e, he, hi, hx, Or.inl ht⟩
        · exact Or.inr ⟨e, he, hi, hx, Or.inr ht⟩
      · rintro (h | ⟨e, he, hi, hx, ht | ht⟩)
        · exact Or.inl (Or.inl h)
        · exact Or.inl (Or.inr ⟨e, he, hi, hx, ht⟩)
        · exact Or.inr ⟨e, he, hi, hx, ht⟩

theorem second_pass (L : List FlagTag) (hnd : (L.map (·.flag)).Nodup) : ∀ (acc : Str × Str) (x : UInt8),
    let r := L.foldl (fun (acc : Str × Str) e =>
      if e.inverse then
        if e.flag ∈ acc.2 then acc else (acc.1 ++ [e.flag], acc.2)
      else
        if e.flag ∈ acc.1 then acc else (acc.1, acc.2 ++ [e.flag])) acc
    (x ∈ r.1 ↔ x ∈ acc.1 ∨ (x ∉ acc.2 ∧ ∃ e ∈ L, e.inverse = true ∧ e.flag = x)) ∧
    (x ∈ r.2 ↔ x ∈ acc.2 ∨ (x ∉ acc.1 ∧ ∃ e ∈ L, e.inverse = false ∧ e.flag = x)) := by
  induction L with
  | nil => intro acc x; simp
  | cons e L ih =>
    intro acc x
    rw [List.map_cons, List.nodup_cons] at hnd
    have h1 := ih hnd.2 (if e.inverse then
        if e.flag ∈ acc.2 then acc else (acc.1 ++ [e.flag], acc.2)
      else
        if e.flag ∈ acc.1 then acc else (acc.1, acc.2 ++ [e.flag])) x
    simp only at h1
    simp only [List.foldl_cons]
    rw [h1.1, h1.2]
    have hne : ∀ e' ∈ L, e'.flag ≠ e.flag := by
      intro e' he' h; exact hnd.1 (h ▸ List.mem_map_of_mem he')
    simp only [List.mem_cons, exists_eq_or_imp]
    by_cases hx : e.flag = x
    · have hno : ∀ b, ¬ ∃ e' ∈ L, e'.inverse = b ∧ e'.flag = x := by
        rintro b ⟨e', he', _, h⟩; exact hne e' he' (h.trans hx.symm)
      simp only [hno, hx]
      cases hi : e.inverse
      · by_cases hm : x ∈ acc.1 <;> simp [hm]
      · by_cases hm : x ∈ acc.2 <;> simp [hm]
    · simp only [hx, and_false, false_or]
      have hx' : x ≠ e.flag := Ne.symm hx
      cases hi : e.inverse
      · by_cases hm : e.flag ∈ acc.1 <;> simp [hm, hx']
      · by_cases hm : e.flag ∈ acc.2 <;> simp [hm, hx']

theorem mem_getActions (tags : List Str) (x : UInt8) :
    (x ∈ (getActions tags).1 ↔ (x = 68 ∧ bs "draft" ∈ tags) ∨ (x = 70 ∧ bs "flagged" ∈ tags) ∨
      (x = 80 ∧ bs "passed" ∈ tags) ∨ (x = 82 ∧ bs "replied" ∈ tags) ∨ (x = 83 ∧ bs "unread" ∉ tags)) ∧
    (x ∈ (getActions tags).2 ↔ (x = 68 ∧ bs "draft" ∉ tags) ∨ (x = 70 ∧ bs "flagged" ∉ tags) ∨
      (x = 80 ∧ bs "passed" ∉ tags) ∨ (x = 82 ∧ bs "replied" ∉ tags) ∨ (x = 83 ∧ bs "unread" ∈ tags)) := by
  have h1 := first_pass tags ([], []) x
  have h2 := second_pass flag2tag (by decide) (tags.foldl (fun acc t => actionsOfTag t acc) ([], [])) x
  simp only at h1 h2
  unfold getActions
  simp only
  rw [h2.1, h2.2, h1.1, h1.2]
  simp only [flag2tag, List.mem_cons, List.not_mem_nil, or_false, exists_eq_or_imp, exists_eq_left,
    false_and, and_false, true_and, false_or, Bool.false_eq_true, Bool.true_eq_false]
  by_cases a1 : x = 68
  · subst a1; simp
  · by_cases a2 : x = 70
    · subst a2; simp
    · by_cases a3 : x = 80
      · subst a3; simp
      · by_cases a4 : x = 82
        · subst a4; simp
        · by_cases a5 : x = 83
          · subst a5; simp
          · simp [a1, a2, a3, a4, a5, Ne.symm a1, Ne.symm a2, Ne.symm a3, Ne.symm a4, Ne.symm a5]

theorem actions_lt (tags : List Str) :
    (∀ c ∈ (getActions tags).1, c.toNat < 128) ∧ (∀ c ∈ (getActions tags).2, c.toNat < 128) := by
  constructor
  · intro c hc
    rw [(mem_getActions tags c).1] at hc
    rcases hc with h | h | h | h | h <;> (rw [h.1]; decide)
  · intro c hc
    rw [(mem_getActions tags c).2] at hc
    rcases hc with h | h | h | h | h <;> (rw [h.1]; decide)

theorem actions_disjoint (tags : List Str) (c : UInt8) (h : c ∈ (getActions tags).1) :
    c ∉ (getActions tags).2 := by
  intro h'
  rw [(mem_getActions tags c).1] at h
  rw [(mem_getActions tags c).2] at h'
  rcases h with h | h | h | h | h <;> (rw [h.1] at h'; simp [h.2] at h')

/-- Old flags with the actions of the tags applied agree with the tags. -/
theorem agrees_of_actions (tags : List Str) (old new : Str)
    (h : ∀ c, c ∈ new ↔ (c ∈ old ∨ c ∈ (getActions tags).1) ∧ c ∉ (getActions tags).2) :
    Agrees tags new ∧ ∀ c, c ∉ tagFlags → (c ∈ new ↔ c ∈ old) := by
  constructor
  · constructor
    · rw [h, (mem_getActions tags 68).1, (mem_getActions tags 68).2]; simp
      intro a; exact Or.inr a
    · rw [h, (mem_getActions tags 70).1, (mem_getActions tags 70).2]; simp
      intro a; exact Or.inr a
    · rw [h, (mem_getActions tags 80).1, (mem_getActions tags 80).2]; simp
      intro a; exact Or.inr a
    · rw [h, (mem_getActions tags 82).1, (mem_getActions tags 82).2]; simp
      intro a; exact Or.inr a
    · rw [h, (mem_getActions tags 83).1, (mem_getActions tags 83).2]; simp
      intro a; exact Or.inr a
  · intro c hc
    have e : tagFlags = [68, 70, 80, 82, 83] := by decide +kernel
    rw [e] at hc
    simp only [List.mem_cons, List.not_mem_nil, or_false, not_or] at hc
    rw [h, (mem_getActions tags c).1, (mem_getActions tags c).2]
    simp [hc]

/-! ### The new name -/

theorem path_eq (n : Name) : n.path = n.pre ++ bs "/" ++ n.dir ++ bs "/" ++
    (n.uniq ++ flagsText n.flags) := by
  unfold Name.path; simp

theorem base_slash (n : Name) (h : n.Ok) :
    47 ∉ n.uniq ++ flagsText n.flags := by
  intro hm
  rcases List.mem_append.1 hm with hm | hm
  · exact h.uniq_slash hm
  · cases hf : n.flags with
    | none => rw [hf] at hm; simp [flagsText] at hm
    | some fl =>
      rw [hf, flagsText, sep_eq] at hm
      simp at hm
      exact h.flags_slash fl hf hm

theorem inMaildir_path (n : Name) (h : n.Ok) : inMaildir n.path = some (n.pre, n.dir,
    n.uniq ++ flagsText n.flags) := by
  rw [path_eq]
  exact inMaildir_intro _ _ _ h.dir_ok (base_slash n h)

theorem splitInfo_dir (dir : Str) (h : dir = bs "cur" ∨ dir = bs "new") : splitInfo dir = none := by
  rcases h with rfl | rfl
  · rw [bs_cur']; simp [splitInfo, List.isPrefixOf]
  · rw [bs_new']; simp [splitInfo, List.isPrefixOf]

/-- `strstr` finds the separator of a well-formed name. -/
theorem splitInfo_path (n : Name) (h : n.Ok) (hp : ¬ sep <:+: n.pre) :
    splitInfo n.path = n.flags.map (fun fl => (n.pre ++ bs "/" ++ n.dir ++ bs "/" ++ n.uniq, fl)) := by
  have e1 : bs "/" = [47] := by decide +kernel
  have hu := (splitInfo_none_iff _).2 h.uniq_sep
  have hbase : splitInfo (n.uniq ++ flagsText n.flags) =
      n.flags.map (fun fl => (n.uniq, fl)) := by
    cases hf : n.flags with
    | none => simpa [flagsText] using hu
    | some fl =>
      simp only [flagsText, sep_eq, List.cons_append, List.nil_append, Option.map_some]
      exact splitInfo_append_sep _ _ hu
  rw [path_eq]
  have : n.pre ++ bs "/" ++ n.dir ++ bs "/" ++
    (n.uniq ++ flagsText n.flags) =
    n.pre ++ 47 :: (n.dir ++ 47 :: (n.uniq ++ flagsText n.flags)) := by
    simp [e1]
  rw [this, splitInfo_append_slash _ _ ((splitInfo_none_iff _).2 hp), splitInfo_slash,
    splitInfo_append_slash _ _ (splitInfo_dir _ h.dir_ok), splitInfo_slash, hbase]
  cases n.flags <;> simp [e1]

/-- A separator in the directory part makes every renaming unsafe. -/
theorem newFlagMap_none (n : Name) (hp : sep <:+: n.pre) (S C : Str) :
    newFlagMap n.path S C = none := by
  have e1 : bs "/" = [47] := by decide +kernel
  have : ∃ a b, splitInfo n.pre = some (a, b) := by
    cases hs : splitInfo n.pre with
    | none => exact absurd hp ((splitInfo_none_iff _).1 hs)
    | some x => exact ⟨x.1, x.2, rfl⟩
  obtain ⟨a, b, hab⟩ := this
  obtain ⟨e, ha⟩ := splitInfo_some hab
  have hsp : ∃ r, splitInfo n.path = some (a, b ++ 47 :: (n.dir ++ 47 :: r)) := by
    refine ⟨n.uniq ++ flagsText n.flags, ?_⟩
    rw [path_eq, e]
    simp only [e1, List.append_assoc, List.cons_append, List.nil_append]
    exact splitInfo_append_sep _ _ ha
  obtain ⟨r, hr⟩ := hsp
  unfold newFlagMap
  rw [hr]
  simp only
  cases hs : scanFlags (b ++ 47 :: (n.dir ++ 47 :: r)) 0 .empty with
  | none => rfl
  | some m =>
    have := (good_of_scan _ _ _ _ hs).1.1
    rw [List.pairwise_append] at this
    have := this.2.1
    rw [List.pairwise_cons] at this
    exact absurd (this.1 47 (by simp)) (UInt8.lt_irrefl _)

/-- Putting the parts together again. -/
theorem newName_general (n : Name) (h : n.Ok) (hp : ¬ sep <:+: n.pre) (S C : Str)
    (hS : ∀ c ∈ S, c.toNat < 128) (hS47 : 47 ∉ S) :
    (∀ fl, n.flags = some fl → ¬ GoodFlags fl → newMaildirFilename n.path S C = none) ∧
    ((∀ fl, n.flags = some fl → GoodFlags fl) →
      ∃ new, GoodFlags new ∧ (∀ c, c ∈ new ↔ (c ∈ n.flags.getD [] ∨ c ∈ S) ∧ c ∉ C) ∧
        newMaildirFilename n.path S C =
          some (if n.dir = bs "new" ∧ n.flags = none ∧ S = [] then n.path
            else (Name.mk n.pre (bs "cur") n.uniq (some new)).path)) := by
  have hsi := splitInfo_path n h hp
  constructor
  · intro fl hfl hbad
    unfold newMaildirFilename newFlagMap
    rw [hsi, hfl]
    simp only [Option.map_some]
    cases hs : scanFlags fl 0 .empty with
    | none => rfl
    | some m => exact absurd (good_of_scan _ _ _ _ hs).1 hbad
  · intro hgood
    have hm : ∃ (m0 : FlagMap), newFlagMap n.path S C =
        some (n.pre ++ bs "/" ++ n.dir ++ bs "/" ++ n.uniq, n.flags.isSome, clearFlags (setFlags m0 S) C) ∧
        (∀ i, m0.map i = true ↔ ∃ c ∈ n.flags.getD [], c.toNat = i) ∧ m0.changed = false ∧
        (n.flags = none → m0 = .empty) := by
      unfold newFlagMap
      rw [hsi]
      cases hf : n.flags with
      | none =>
        refine ⟨.empty, ?_, ?_, rfl, fun _ => rfl⟩
        · simp only [Option.map_none, Option.isSome_none]
          congr 2
          rw [path_eq, hf]; simp [flagsText]
        · simp [FlagMap.empty]
      | some fl =>
        obtain ⟨m, h1, h2, h3⟩ := scan_good fl 0 .empty (hgood fl hf) (by simp) (by simp [FlagMap.empty])
        refine ⟨m, ?_, ?_, h2, by simp⟩
        · simp only [Option.map_some, h1, Option.isSome_some]
        · intro i; rw [h3]; simp [FlagMap.empty]
    obtain ⟨m0, hm0, hmap, hch, hem⟩ := hm
    have hmem : ∀ c, c ∈ flagString (clearFlags (setFlags m0 S) C) ↔
        (c ∈ n.flags.getD [] ∨ c ∈ S) ∧ c ∉ C := by
      intro c
      rw [mem_flagString, clear_map, set_map, hmap]
      have hinj : ∀ l : Str, (∃ x ∈ l, x.toNat = c.toNat) ↔ c ∈ l := by
        intro l
        constructor
        · rintro ⟨x, hx, e⟩; rwa [← UInt8.toNat_inj.1 e]
        · intro hc; exact ⟨c, hc, rfl⟩
      rw [hinj, hinj]
      have hinj' : (∀ x ∈ C, x.toNat ≠ c.toNat) ↔ c ∉ C := by
        rw [← hinj C]; simp
      rw [hinj']
      constructor
      · exact fun h => h.2
      · intro hc
        refine ⟨?_, hc⟩
        rcases hc.1 with h' | h'
        · cases hf : n.flags with
          | none => rw [hf] at h'; simp at h'
          | some fl =>
            rw [hf] at h'
            have := (hgood fl hf).2 c h'
            rw [UInt8.lt_iff_toNat_lt] at this; exact this
        · exact hS c h'
    refine ⟨_, flagString_good _, hmem, ?_⟩
    generalize hM : clearFlags (setFlags m0 S) C = M at *
    unfold newMaildirFilename
    rw [hm0, inMaildir_path n h]
    simp only
    -- the name built
    have hnew : inMaildir (n.pre ++ bs "/" ++ n.dir ++ bs "/" ++ n.uniq ++ bs ":2," ++ flagString M) =
        some (n.pre, n.dir, n.uniq ++ (sep ++ flagString M)) := by
      have := inMaildir_path ⟨n.pre, n.dir, n.uniq, some (flagString M)⟩
        ⟨h.dir_ok, h.uniq_slash, ?_, h.uniq_sep⟩
      · rw [path_eq] at this
        simp only [flagsText] at this
        rw [← this]
        congr 1
        simp [sep]
      · rintro fl ⟨⟩ hm
        rw [hmem] at hm
        rcases hm.1 with hm | hm
        · cases hf : n.flags with
          | none => rw [hf] at hm; simp at hm
          | some fl => rw [hf] at hm; exact h.flags_slash fl hf hm
        · exact hS47 hm
    have hkeep : (M.changed = false ∧ n.flags = none) ↔ (S = [] ∧ n.flags = none) := by
      constructor
      · rintro ⟨hc, hn⟩
        refine ⟨?_, hn⟩
        rw [hem hn] at hM
        rw [← hM] at hc
        have h1 := clear_unchanged _ _ hc
        rw [h1] at hc
        have h2 := set_unchanged _ _ hc
        cases hS' : S with
        | nil => rfl
        | cons c S' =>
          have : (setFlags .empty S).map c.toNat = true := by
            rw [set_map]; exact Or.inr ⟨c, by simp [hS'], rfl⟩
          rw [h2] at this; simp [FlagMap.empty] at this
      · rintro ⟨hs, hn⟩
        refine ⟨?_, hn⟩
        rw [hem hn, hs] at hM
        have : ∀ C : Str, clearFlags .empty C = .empty := by
          intro C
          induction C with
          | nil => rfl
          | cons c C ih => exact ih
        have e0 : setFlags .empty [] = .empty := rfl
        rw [e0, this] at hM
        rw [← hM]; rfl
    by_cases hcond : n.dir = bs "new" ∧ n.flags = none ∧ S = []
    · rw [if_pos hcond, if_pos]
      have := hkeep.2 ⟨hcond.2.2, hcond.2.1⟩
      simp [hcond.1, this.1, this.2]
    · rw [if_neg hcond, if_neg]
      · rw [hnew]
        simp only
        rcases h.dir_ok with hd | hd
        · rw [hd, if_neg (by decide +kernel)]
          simp [Name.path, flagsText, sep]
        · rw [if_pos hd]
          have ec : bs "/cur/" = bs "/" ++ (bs "cur" ++ bs "/") := by decide +kernel
          simp [Name.path, flagsText, ec]
      · intro hk
        simp at hk
        exact hcond ⟨hk.1.1, hk.1.2, (hkeep.1 ⟨hk.2, hk.1.2⟩).1⟩

end Notmuch.Maildir
