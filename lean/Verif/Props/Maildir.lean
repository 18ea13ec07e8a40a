import Verif.Proofs.Maildir2

/-!
# C16, C17, C18: maildir flags and tags (lib/message.cc)
-/

namespace Notmuch.Props
open Notmuch.Maildir Notmuch.MaildirSpec

theorem actions_nil_iff (tags : List Str) : (getActions tags).1 = [] ↔ Agrees tags [] := by
  constructor
  · intro h
    have := fun x => (mem_getActions tags x).1
    rw [h] at this
    have h1 := this 68
    have h2 := this 70
    have h3 := this 80
    have h4 := this 82
    have h5 := this 83
    simp at h1 h2 h3 h4 h5
    exact ⟨by simpa using h1, by simpa using h2, by simpa using h3, by simpa using h4, by simpa using h5⟩
  · rintro ⟨h1, h2, h3, h4, h5⟩
    rw [List.eq_nil_iff_forall_not_mem]
    intro x hx
    rw [(mem_getActions tags x).1] at hx
    simp at h1 h2 h3 h4 h5
    simp [h1, h2, h3, h4, h5] at hx

theorem actions_no_slash (tags : List Str) : 47 ∉ (getActions tags).1 := by
  rw [(mem_getActions tags 47).1]; simp

/-- Every file in a maildir has a decomposed name. -/
theorem name_of_inMaildir {f : Str} (h : (inMaildir f).isSome) : ∃ n : Name, n.Ok ∧ n.path = f := by
  cases hm : inMaildir f with
  | none => simp [hm] at h
  | some t =>
    obtain ⟨pre, dir, base⟩ := t
    obtain ⟨e, hd, hb⟩ := inMaildir_elim hm
    cases hs : splitInfo base with
    | none =>
      exact ⟨⟨pre, dir, base, none⟩, ⟨hd, hb, by simp, (splitInfo_none_iff _).1 hs⟩,
        by rw [e]; simp [Name.path, flagsText]⟩
    | some p =>
      obtain ⟨u, fl⟩ := p
      obtain ⟨eb, hu⟩ := splitInfo_some hs
      refine ⟨⟨pre, dir, u, some fl⟩, ⟨hd, ?_, ?_, (splitInfo_none_iff _).1 hu⟩, ?_⟩
      · intro hm; exact hb (by rw [eb]; simp [hm])
      · rintro fl ⟨⟩ hm; exact hb (by rw [eb]; simp [hm])
      · rw [e, eb]; simp [Name.path, flagsText, sep_eq]

theorem path_inj {n n' : Name} (h : n.Ok) (h' : n'.Ok) (e : n.path = n'.path) : n = n' := by
  have h1 := inMaildir_path n h
  rw [e, inMaildir_path n' h'] at h1
  simp only [Option.some.injEq, Prod.mk.injEq] at h1
  obtain ⟨e1, e2, e3⟩ := h1
  have hsp : ∀ n : Name, n.Ok → splitInfo (n.uniq ++ flagsText n.flags) = n.flags.map (fun fl => (n.uniq, fl)) := by
    intro n h
    have hu := (splitInfo_none_iff _).2 h.uniq_sep
    cases hf : n.flags with
    | none => simpa [flagsText] using hu
    | some fl =>
      simp only [flagsText, sep_eq, List.cons_append, List.nil_append, Option.map_some]
      exact splitInfo_append_sep _ _ hu
  have a := hsp n h
  rw [← e3, hsp n' h'] at a
  obtain ⟨p, d, u, f⟩ := n
  obtain ⟨p', d', u', f'⟩ := n'
  simp only at e1 e2 e3 a ⊢
  cases f <;> cases f' <;> simp_all [flagsText]

theorem sync_some (ok : Str → Str → Bool) (tags : List Str) {f g : Str} (hin : (inMaildir f).isSome)
    (hn : newMaildirFilename f (getActions tags).1 (getActions tags).2 = some g) :
    syncFile ok tags f = if ok f g = true then g else f := by
  unfold syncFile
  cases h : inMaildir f with
  | none => simp [h] at hin
  | some x =>
    simp only [hn]
    by_cases e : f = g
    · simp [e]
    · simp [e]

/-- **C16**: a file of a maildir (with `:2,` nowhere in the directory part) whose flags are in
order.  After synchronising the tags to the flags its name carries flags in ASCII order without
repetition that say exactly what the tags say; every flag that does not stand for a tag is kept.
A file in `new` that has no flags and needs none stays where it is; otherwise it is in `cur`. -/
theorem C16_flags_follow_tags (tags : List Str) (n : Name) (h : n.Ok) (hp : ¬ sep <:+: n.pre)
    (hgood : GoodFlags (n.flags.getD [])) :
    ∃ new, GoodFlags new ∧ Agrees tags new ∧
      (∀ c, c ∉ tagFlags → (c ∈ new ↔ c ∈ n.flags.getD [])) ∧
      ((n.dir = bs "new" ∧ n.flags = none ∧ Agrees tags [] ∧ new = [] ∧
          syncFile (fun _ _ => true) tags n.path = n.path) ∨
       (¬ (n.dir = bs "new" ∧ n.flags = none ∧ Agrees tags []) ∧
          syncFile (fun _ _ => true) tags n.path = (Name.mk n.pre (bs "cur") n.uniq (some new)).path)) := by
  have hg' : ∀ fl, n.flags = some fl → GoodFlags fl := by
    intro fl hfl; rw [hfl] at hgood; exact hgood
  obtain ⟨new, g, hm, hr⟩ := (newName_general n h hp (getActions tags).1 (getActions tags).2
    (actions_lt tags).1 (actions_no_slash tags)).2 hg'
  obtain ⟨ha, ho⟩ := agrees_of_actions tags _ _ hm
  refine ⟨new, g, ha, ho, ?_⟩
  have hsync : syncFile (fun _ _ => true) tags n.path =
      if n.dir = bs "new" ∧ n.flags = none ∧ (getActions tags).1 = [] then n.path
            else (Name.mk n.pre (bs "cur") n.uniq (some new)).path := by
    rw [sync_some _ tags (by rw [inMaildir_path n h]; rfl) hr, if_pos rfl]
  by_cases hk : n.dir = bs "new" ∧ n.flags = none ∧ Agrees tags []
  · left
    refine ⟨hk.1, hk.2.1, hk.2.2, ?_, ?_⟩
    · rw [List.eq_nil_iff_forall_not_mem]
      intro c hc
      rw [hm, (actions_nil_iff tags).2 hk.2.2, hk.2.1] at hc
      simp at hc
    · rw [hsync, if_pos ⟨hk.1, hk.2.1, (actions_nil_iff tags).2 hk.2.2⟩]
  · right
    refine ⟨hk, ?_⟩
    rw [hsync, if_neg]
    rintro ⟨a, b, c⟩
    exact hk ⟨a, b, (actions_nil_iff tags).1 c⟩

example : let n : Name := ⟨bs "/m", bs "new", bs "17.a", some (bs "Sa")⟩
    n.Ok ∧ ¬ sep <:+: n.pre ∧ GoodFlags (n.flags.getD []) ∧
    syncFile (fun _ _ => true) [bs "unread", bs "flagged", bs "x"] n.path = bs "/m/cur/17.a:2,Fa" := by
  refine ⟨⟨Or.inr rfl, by decide +kernel, ?_, by decide +kernel⟩, by decide +kernel, ⟨by decide +kernel, by decide +kernel⟩,
    by decide +kernel⟩
  rintro fl ⟨⟩; decide +kernel

/-- A file whose flags are out of order, repeated or not ASCII is never renamed. -/
theorem C16_bad_flags_kept (ok : Str → Str → Bool) (tags : List Str) (n : Name) (h : n.Ok)
    (fl : Str) (hfl : n.flags = some fl) (hbad : ¬ GoodFlags fl) :
    syncFile ok tags n.path = n.path := by
  unfold syncFile
  rw [inMaildir_path n h]
  simp only
  by_cases hp : sep <:+: n.pre
  · have : newMaildirFilename n.path (getActions tags).1 (getActions tags).2 = none := by
      unfold newMaildirFilename; rw [newFlagMap_none n hp]
    rw [this]
  · rw [(newName_general n h hp (getActions tags).1 (getActions tags).2
      (actions_lt tags).1 (actions_no_slash tags)).1 fl hfl hbad]

example : ¬ GoodFlags (bs "SR") ∧ ¬ GoodFlags (bs "SS") ∧ ¬ GoodFlags [195] := by
  refine ⟨?_, ?_, ?_⟩ <;> (rintro ⟨h1, h2⟩; first | (revert h1; decide +kernel) | (revert h2; decide +kernel))

/-- The memory allocated for the new name is exactly what is written, with its NUL. -/
theorem C16_new_name_fits (f : Str) (tags : List Str) (base : Str) (info : Bool) (m : FlagMap)
    (h : newFlagMap f (getActions tags).1 (getActions tags).2 = some (base, info, m)) :
    ((base ++ bs ":2," ++ flagString m).length + 1 : Int) = allocSize base m := by
  have hc : Counted m := by
    unfold newFlagMap at h
    split at h
    · simp only [Option.some.injEq, Prod.mk.injEq] at h
      rw [← h.2.2]
      exact clear_counted _ (actions_lt tags).2 _ (set_counted _ (actions_lt tags).1 _ counted_empty)
    · split at h
      · simp at h
      · rename_i hs
        simp only [Option.some.injEq, Prod.mk.injEq] at h
        rw [← h.2.2]
        exact clear_counted _ (actions_lt tags).2 _ (set_counted _ (actions_lt tags).1 _
          (scan_counted _ _ _ _ counted_empty hs))
  have := flagString_length m hc
  have e : (bs ":2,").length = 3 := by decide +kernel
  unfold allocSize
  simp only [List.length_append, e]
  omega

example : (newFlagMap (bs "/m/cur/x:2,RS") (bs "F") (bs "S")).isSome := by decide +kernel

/-- **C18**: whatever the tags and the file, synchronisation renames at most within the maildir:
only the directory (`new` to `cur`) and the text from `:2,` on can change. -/
theorem C18_rename_confined (ok : Str → Str → Bool) (tags : List Str) (f : Str)
    (hne : syncFile ok tags f ≠ f) :
    ∃ (n : Name) (new : Str), n.Ok ∧ f = n.path ∧ GoodFlags new ∧
      syncFile ok tags f = (Name.mk n.pre (bs "cur") n.uniq (some new)).path := by
  have hin : (inMaildir f).isSome := by
    cases h : inMaildir f with
    | none => exfalso; apply hne; unfold syncFile; rw [h]
    | some x => rfl
  obtain ⟨n, h, rfl⟩ := name_of_inMaildir hin
  have hp : ¬ sep <:+: n.pre := by
    intro hp
    apply hne
    unfold syncFile
    rw [inMaildir_path n h]
    have : newMaildirFilename n.path (getActions tags).1 (getActions tags).2 = none := by
      unfold newMaildirFilename; rw [newFlagMap_none n hp]
    simp only [this]
  have hg : ∀ fl, n.flags = some fl → GoodFlags fl := by
    intro fl hfl
    by_cases hb : GoodFlags fl
    · exact hb
    · exact absurd (C16_bad_flags_kept ok tags n h fl hfl hb) hne
  obtain ⟨new, g, _, hr⟩ := (newName_general n h hp (getActions tags).1 (getActions tags).2
    (actions_lt tags).1 (actions_no_slash tags)).2 hg
  refine ⟨n, new, h, rfl, g, ?_⟩
  rw [sync_some _ tags (by rw [inMaildir_path n h]; rfl) hr] at hne ⊢
  split at hne
  · split at hne <;> exact absurd rfl hne
  · rename_i hx
    rw [if_neg hx]
    split at hne
    · rename_i hk; rw [if_pos hk]
    · exact absurd rfl hne

/-- Flags separated from `uniq` determine everything, so renaming is idempotent: a second
synchronisation renames nothing. -/
theorem C18_sync_idempotent (ok : Str → Str → Bool) (tags : List Str) (f : Str) :
    syncFile ok tags (syncFile (fun _ _ => true) tags f) = syncFile (fun _ _ => true) tags f := by
  by_cases hne : syncFile (fun _ _ => true) tags f = f
  · -- nothing was renamed: the new name is `f` itself or there is none
    rw [hne]
    unfold syncFile at hne ⊢
    cases hin : inMaildir f with
    | none => rfl
    | some x =>
      rw [hin] at hne
      simp only at hne ⊢
      cases hn : newMaildirFilename f (getActions tags).1 (getActions tags).2 with
      | none => rfl
      | some f' =>
        rw [hn] at hne
        simp only at hne ⊢
        by_cases e : f = f'
        · simp [e]
        · simp [e] at hne; exact absurd hne.symm e
  · have hin : (inMaildir f).isSome := by
      cases h : inMaildir f with
      | none => exfalso; apply hne; unfold syncFile; rw [h]
      | some x => rfl
    obtain ⟨n, h, rfl⟩ := name_of_inMaildir hin
    have hp : ¬ sep <:+: n.pre := by
      intro hp
      apply hne
      unfold syncFile
      rw [inMaildir_path n h]
      have : newMaildirFilename n.path (getActions tags).1 (getActions tags).2 = none := by
        unfold newMaildirFilename; rw [newFlagMap_none n hp]
      simp only [this]
    have hg : GoodFlags (n.flags.getD []) := by
      cases hfl : n.flags with
      | none => exact ⟨List.Pairwise.nil, by simp⟩
      | some fl =>
        by_cases hb : GoodFlags fl
        · exact hb
        · exact absurd (C16_bad_flags_kept _ tags n h fl hfl hb) hne
    obtain ⟨new, g, ha, hot, hr⟩ := C16_flags_follow_tags tags n h hp hg
    rcases hr with hr | ⟨_, hr⟩
    · exact absurd hr.2.2.2.2 hne
    · rw [hr]
      have h' : (Name.mk n.pre (bs "cur") n.uniq (some new)).Ok := by
        refine ⟨Or.inl rfl, h.uniq_slash, ?_, h.uniq_sep⟩
        rintro fl ⟨⟩ hm
        rw [hot 47 (by decide +kernel)] at hm
        cases hfl : n.flags with
        | none => rw [hfl] at hm; simp at hm
        | some fl => rw [hfl] at hm; exact h.flags_slash fl hfl hm
      -- the flags computed from `new` are `new`
      obtain ⟨new', g', ha', hot', hr'⟩ := C16_flags_follow_tags tags _ h' hp g
      have hnew : new' = new := by
        apply sorted_ext _ _ g'.1 g.1
        intro c
        by_cases hc : c ∈ tagFlags
        · have e : tagFlags = [68, 70, 80, 82, 83] := by decide +kernel
          rw [e] at hc
          simp only [List.mem_cons, List.not_mem_nil, or_false] at hc
          rcases hc with rfl | rfl | rfl | rfl | rfl
          · rw [ha'.draft, ha.draft]
          · rw [ha'.flagged, ha.flagged]
          · rw [ha'.passed, ha.passed]
          · rw [ha'.replied, ha.replied]
          · rw [ha'.seen, ha.seen]
        · simpa using hot' c hc
      rw [hnew] at hr'
      have hsame : syncFile (fun _ _ => true) tags (Name.mk n.pre (bs "cur") n.uniq (some new)).path =
          (Name.mk n.pre (bs "cur") n.uniq (some new)).path := by
        rcases hr' with hr' | hr'
        · exact hr'.2.2.2.2
        · exact hr'.2
      generalize (Name.mk n.pre (bs "cur") n.uniq (some new)).path = p at hsame ⊢
      unfold syncFile at hsame ⊢
      cases hin : inMaildir p with
      | none => rfl
      | some x =>
        rw [hin] at hsame
        simp only at hsame ⊢
        cases hn : newMaildirFilename p (getActions tags).1 (getActions tags).2 with
        | none => rfl
        | some f' =>
          rw [hn] at hsame
          simp only at hsame ⊢
          by_cases e : p = f'
          · simp [e]
          · simp [e] at hsame; exact absurd hsame.symm e

example : syncFile (fun _ _ => true) [bs "replied"] (bs "/m/new/x") = bs "/m/cur/x:2,RS" := by
  decide +kernel

/-- Where a synchronised file can be: same maildir, same name up to `:2,`. -/
theorem sync_parts (ok : Str → Str → Bool) (tags : List Str) (n : Name) (h : n.Ok) :
    ∃ n' : Name, n'.Ok ∧ syncFile ok tags n.path = n'.path ∧ n'.pre = n.pre ∧ n'.uniq = n.uniq := by
  by_cases hne : syncFile ok tags n.path = n.path
  · exact ⟨n, h, hne, rfl, rfl⟩
  · obtain ⟨n1, new, h1, e1, g, e2⟩ := C18_rename_confined ok tags n.path hne
    have := path_inj h h1 e1
    subst this
    refine ⟨⟨n.pre, bs "cur", n.uniq, some new⟩, ⟨Or.inl rfl, h.uniq_slash, ?_, h.uniq_sep⟩, e2, rfl, rfl⟩
    rintro fl ⟨⟩ hm
    -- a slash among the new flags would be a slash among the old ones
    have hp : ¬ sep <:+: n.pre := by
      intro hp
      apply hne
      unfold syncFile
      rw [inMaildir_path n h]
      have : newMaildirFilename n.path (getActions tags).1 (getActions tags).2 = none := by
        unfold newMaildirFilename; rw [newFlagMap_none n hp]
      simp only [this]
    have hg : ∀ fl, n.flags = some fl → GoodFlags fl := by
      intro fl hfl
      by_cases hb : GoodFlags fl
      · exact hb
      · exact absurd (C16_bad_flags_kept ok tags n h fl hfl hb) hne
    obtain ⟨new', g', hmem, hr⟩ := (newName_general n h hp (getActions tags).1 (getActions tags).2
      (actions_lt tags).1 (actions_no_slash tags)).2 hg
    have hno : 47 ∉ new' := by
      intro h47
      rw [hmem] at h47
      rcases h47.1 with h47 | h47
      · cases hfl : n.flags with
        | none => rw [hfl] at h47; simp at h47
        | some fl => rw [hfl] at h47; exact h.flags_slash fl hfl h47
      · exact actions_no_slash tags h47
    have e3 : syncFile ok tags n.path = (Name.mk n.pre (bs "cur") n.uniq (some new')).path := by
      rw [sync_some _ tags (by rw [inMaildir_path n h]; rfl) hr] at hne ⊢
      split at hne
      · split at hne <;> exact absurd rfl hne
      · rename_i hx
        rw [if_neg hx]
        split at hne
        · rename_i hk; rw [if_pos hk]
        · exact absurd rfl hne
    rw [e3] at e2
    have : new' = new := by
      have := List.append_cancel_left (show (n.pre ++ bs "/" ++ bs "cur" ++ bs "/" ++ n.uniq ++ sep) ++ new' =
        (n.pre ++ bs "/" ++ bs "cur" ++ bs "/" ++ n.uniq ++ sep) ++ new by
          simpa [Name.path, flagsText] using e2)
      exact this
    exact hno (this ▸ hm)

/-- Two files of a maildir that differ before `:2,` never get the same name, so no renaming
overwrites a file that has a different unique name. -/
theorem C18_no_overwrite (ok ok' : Str → Str → Bool) (tags tags' : List Str) (n n' : Name)
    (h : n.Ok) (h' : n'.Ok) (hd : n.pre ≠ n'.pre ∨ n.uniq ≠ n'.uniq) :
    syncFile ok tags n.path ≠ syncFile ok' tags' n'.path := by
  obtain ⟨m, hm, e, e1, e2⟩ := sync_parts ok tags n h
  obtain ⟨m', hm', e', e1', e2'⟩ := sync_parts ok' tags' n' h'
  rw [e, e']
  intro he
  have := path_inj hm hm' he
  subst this
  rcases hd with hd | hd
  · exact hd (e1.symm.trans e1')
  · exact hd (e2.symm.trans e2')

/-- But two files that agree before `:2,` (one in `new`, one in `cur`) can be renamed onto each
other: `rename (2)` then replaces the second. -/
theorem C18_same_unique_collides :
    ∃ f g : Str, f ≠ g ∧ (inMaildir f).isSome ∧ (inMaildir g).isSome ∧
      syncFile (fun _ _ => true) [] f = g ∧ syncFile (fun _ _ => true) [] g = g :=
  ⟨bs "/m/new/x:2,", bs "/m/cur/x:2,S", by decide +kernel, by decide +kernel, by decide +kernel,
    by decide +kernel, by decide +kernel⟩

/-! ### From flags to tags -/

/-- The flags a file contributes, if it carries maildir information at all. -/
def fileFlags (n : Name) : Option Str :=
  match n.flags with
  | some fl => some fl
  | none => if n.dir = bs "new" then some [] else none

theorem combined_names (ns : List Name) (hok : ∀ n ∈ ns, n.Ok ∧ ¬ sep <:+: n.pre) (others : List Str)
    (ho : ∀ f ∈ others, inMaildir f = none) :
    (combinedFlags (ns.map Name.path ++ others) = none ↔ ∀ n ∈ ns, fileFlags n = none) ∧
    ∀ fl, combinedFlags (ns.map Name.path ++ others) = some fl →
      ∀ c, c ∈ fl ↔ ∃ n ∈ ns, ∃ g, fileFlags n = some g ∧ c ∈ g := by
  induction ns with
  | nil =>
    have : combinedFlags others = none := by
      clear hok
      induction others with
      | nil => rfl
      | cons f fs ih =>
        rw [combinedFlags]
        simp only [ho f (by simp), ih (fun x hx => ho x (by simp [hx]))]
    simp [this]
  | cons n ns ih =>
    obtain ⟨ih1, ih2⟩ := ih (fun x hx => hok x (by simp [hx]))
    obtain ⟨h, hp⟩ := hok n (by simp)
    have step : combinedFlags ((n :: ns).map Name.path ++ others) =
        (match n.flags with
        | some flags => some (flags ++ (combinedFlags (ns.map Name.path ++ others)).getD [])
        | none => if n.dir = bs "new" then some ((combinedFlags (ns.map Name.path ++ others)).getD [])
            else combinedFlags (ns.map Name.path ++ others)) := by
      rw [List.map_cons, List.cons_append, combinedFlags]
      simp only [inMaildir_path n h, splitInfo_path n h hp]
      cases n.flags <;> rfl
    rw [step]
    have hrest : ∀ c, c ∈ (combinedFlags (ns.map Name.path ++ others)).getD [] ↔
        ∃ n ∈ ns, ∃ g, fileFlags n = some g ∧ c ∈ g := by
      intro c
      cases hc : combinedFlags (ns.map Name.path ++ others) with
      | none =>
        have := ih1.1 hc
        constructor
        · simp
        · rintro ⟨m, hm, g, hg, _⟩; rw [this m hm] at hg; simp at hg
      | some fl => exact ih2 fl hc c
    unfold fileFlags at *
    cases hf : n.flags with
    | some fl0 =>
      refine ⟨by simp [hf], ?_⟩
      rintro fl ⟨⟩ c
      rw [List.mem_append, hrest]
      simp [hf]
    | none =>
      by_cases hd : n.dir = bs "new"
      · refine ⟨by simp [hf, hd], ?_⟩
        simp only [hd, if_true]
        rintro fl ⟨⟩ c
        rw [hrest]
        simp [hf, hd]
      · simp only [hd, if_false, List.mem_cons, forall_eq_or_imp, hf, true_and, exists_eq_or_imp]
        refine ⟨ih1, ?_⟩
        intro fl hfl c
        rw [ih2 fl hfl c]
        simp

theorem mem_addTag (l : List Str) (t x : Str) : x ∈ addTag l t ↔ x ∈ l ∨ x = t := by
  unfold addTag
  split
  · rename_i h
    constructor
    · exact Or.inl
    · rintro (h' | rfl)
      · exact h'
      · exact h
  · simp

theorem mem_removeTag (l : List Str) (t x : Str) : x ∈ removeTag l t ↔ x ∈ l ∧ x ≠ t := by
  unfold removeTag; simp

theorem flags_fold (L : List FlagTag) (hnd : (L.map (·.tag)).Nodup) (flags : Str) :
    ∀ (tags : List Str) (x : Str),
    x ∈ L.foldl (fun tags e =>
      if (decide (e.flag ∈ flags)) ^^ e.inverse then addTag tags e.tag else removeTag tags e.tag) tags ↔
    (∃ e ∈ L, e.tag = x ∧ ((decide (e.flag ∈ flags)) ^^ e.inverse) = true) ∨
      (x ∈ tags ∧ x ∉ L.map (·.tag)) := by
  induction L with
  | nil => intro tags x; simp
  | cons e L ih =>
    intro tags x
    rw [List.map_cons, List.nodup_cons] at hnd
    rw [List.foldl_cons, ih hnd.2]
    have hne : ∀ e' ∈ L, e'.tag ≠ e.tag := by
      intro e' he' h; exact hnd.1 (h ▸ List.mem_map_of_mem he')
    have hstep : x ∈ (if (decide (e.flag ∈ flags)) ^^ e.inverse then addTag tags e.tag
        else removeTag tags e.tag) ↔
        (x = e.tag ∧ ((decide (e.flag ∈ flags)) ^^ e.inverse) = true) ∨ (x ∈ tags ∧ x ≠ e.tag) := by
      cases hb : (decide (e.flag ∈ flags)) ^^ e.inverse
      · simp [mem_removeTag]
      · simp only [if_true, mem_addTag, and_true]
        by_cases hx : x = e.tag <;> simp [hx]
    rw [hstep]
    simp only [List.mem_cons, exists_eq_or_imp, List.map_cons, not_or]
    by_cases hx : x = e.tag
    · subst hx
      have : ¬ ∃ a ∈ L, a.tag = e.tag ∧ ((decide (a.flag ∈ flags)) ^^ a.inverse) = true := by
        rintro ⟨a, ha, h, _⟩; exact hne a ha h
      simp only [this, hnd.1, false_or, not_false_eq_true, and_true, ne_eq, not_true_eq_false,
        and_false, or_false, true_and]
    · simp only [hx, false_and, false_or, Ne.symm hx, not_false_eq_true, and_true, ne_eq,
        true_and]

/-- **C17** (what reading the flags does): if no file of the message is in `new` or carries `:2,`
nothing changes.  Otherwise each of the five tags is set iff *some* file of the message carries its flag
(`unread`: iff none carries `S`), and all other tags are kept. -/
theorem C17_flags_to_tags_meaning (ns : List Name) (hok : ∀ n ∈ ns, n.Ok ∧ ¬ sep <:+: n.pre)
    (others : List Str) (ho : ∀ f ∈ others, inMaildir f = none) (tags : List Str) :
    ((∀ n ∈ ns, n.flags = none ∧ n.dir ≠ bs "new") →
      flagsToTags (ns.map Name.path ++ others) tags = tags) ∧
    ((∃ n ∈ ns, n.flags ≠ none ∨ n.dir = bs "new") →
      ∃ all : Str, (∀ c, c ∈ all ↔ ∃ n ∈ ns, ∃ fl, n.flags = some fl ∧ c ∈ fl) ∧
        Agrees (flagsToTags (ns.map Name.path ++ others) tags) all ∧
        ∀ t, t ∉ flagTags → (t ∈ flagsToTags (ns.map Name.path ++ others) tags ↔ t ∈ tags)) := by
  obtain ⟨c1, c2⟩ := combined_names ns hok others ho
  constructor
  · intro h
    have : combinedFlags (ns.map Name.path ++ others) = none := by
      rw [c1]
      intro n hn
      simp [fileFlags, (h n hn).1, (h n hn).2]
    unfold flagsToTags
    rw [this]
  · rintro ⟨n, hn, hh⟩
    cases hc : combinedFlags (ns.map Name.path ++ others) with
    | none =>
      have := c1.1 hc n hn
      unfold fileFlags at this
      rcases hh with hh | hh
      · cases hf : n.flags with
        | none => exact absurd hf hh
        | some fl => rw [hf] at this; simp at this
      · cases hf : n.flags with
        | none => rw [hf] at this; simp [hh] at this
        | some fl => rw [hf] at this; simp at this
    | some all =>
      refine ⟨all, ?_, ?_, ?_⟩
      · intro c
        rw [c2 all hc c]
        constructor
        · rintro ⟨m, hm, g, hg, hcg⟩
          refine ⟨m, hm, g, ?_, hcg⟩
          unfold fileFlags at hg
          cases hf : m.flags with
          | none =>
            rw [hf] at hg
            simp only at hg
            split at hg
            · simp at hg; subst hg; simp at hcg
            · simp at hg
          | some fl => rw [hf] at hg; simpa using hg
        · rintro ⟨m, hm, fl, hf, hcf⟩
          exact ⟨m, hm, fl, by simp [fileFlags, hf], hcf⟩
      · have hmem : flagsToTags (ns.map Name.path ++ others) tags = flag2tag.foldl (fun tags e =>
            if (decide (e.flag ∈ all)) ^^ e.inverse then addTag tags e.tag else removeTag tags e.tag) tags := by
          unfold flagsToTags
          rw [hc]
        have key : ∀ t : Str, t ∈ flag2tag.map (·.tag) → (t ∈ flagsToTags (ns.map Name.path ++ others) tags ↔
            ∃ e ∈ flag2tag, e.tag = t ∧ ((decide (e.flag ∈ all)) ^^ e.inverse) = true) := by
          intro t ht
          rw [hmem, flags_fold flag2tag (by decide +kernel) all tags t]
          simp only [ht, not_true_eq_false, and_false, or_false]
        have only : ∀ (e : FlagTag), e ∈ flag2tag → (e.tag ∈ flagsToTags (ns.map Name.path ++ others) tags ↔
            ((decide (e.flag ∈ all)) ^^ e.inverse) = true) := by
          intro e he
          rw [key e.tag (List.mem_map_of_mem he)]
          constructor
          · rintro ⟨e', he', ht, hb⟩
            have : e' = e := by
              have hinj : ∀ a ∈ flag2tag, ∀ b ∈ flag2tag, a.tag = b.tag → a.flag = b.flag ∧ a.inverse = b.inverse := by
                decide +kernel
              obtain ⟨h1, h2⟩ := hinj e' he' e he ht
              cases e; cases e'; simp_all
            rw [← this]; exact hb
          · intro hb; exact ⟨e, he, rfl, hb⟩
        have o1 := only ⟨68, bs "draft", false⟩ (by simp [flag2tag])
        have o2 := only ⟨70, bs "flagged", false⟩ (by simp [flag2tag])
        have o3 := only ⟨80, bs "passed", false⟩ (by simp [flag2tag])
        have o4 := only ⟨82, bs "replied", false⟩ (by simp [flag2tag])
        have o5 := only ⟨83, bs "unread", true⟩ (by simp [flag2tag])
        simp only [Bool.xor_false, decide_eq_true_eq, Bool.xor_true, Bool.not_eq_true',
          decide_eq_false_iff_not] at o1 o2 o3 o4 o5
        exact ⟨o1.symm, o2.symm, o3.symm, o4.symm, by rw [o5]; simp⟩
      · intro t ht
        have := flags_fold flag2tag (by decide +kernel) all tags t
        unfold flagsToTags
        rw [hc]
        simp only
        rw [this]
        have hnot : t ∉ flag2tag.map (·.tag) := ht
        constructor
        · rintro (⟨e, he, rfl, _⟩ | h)
          · exact absurd (List.mem_map_of_mem he) hnot
          · exact h.1
        · exact fun h => Or.inr ⟨h, hnot⟩

/-- **C17**: after a complete synchronisation of the tags to the file names, reading the flags back
changes no tag.  `ns` are the message's files in maildirs (flags in order, `:2,` nowhere in the
directories), `others` its other files. -/
theorem C17_tags_flags_roundtrip (ns : List Name) (hok : ∀ n ∈ ns, n.Ok ∧ ¬ sep <:+: n.pre ∧
    GoodFlags (n.flags.getD [])) (others : List Str) (ho : ∀ f ∈ others, inMaildir f = none)
    (tags : List Str) :
    ∀ t, t ∈ flagsToTags (tagsToFlags (fun _ _ => true) (ns.map Name.path ++ others) tags) tags ↔ t ∈ tags := by
  have hothers : others.map (syncFile (fun _ _ => true) tags) = others := by
    conv => rhs; rw [← List.map_id others]
    apply List.map_congr_left
    intro f hf
    unfold syncFile; rw [ho f hf]; rfl
  -- the synchronised names
  have hns : ∃ ns' : List Name, (ns.map Name.path).map (syncFile (fun _ _ => true) tags) = ns'.map Name.path ∧
      (∀ n ∈ ns', n.Ok ∧ ¬ sep <:+: n.pre) ∧
      (∀ n ∈ ns', (n.flags = none ∧ n.dir = bs "new" ∧ Agrees tags []) ∨ ∃ fl, n.flags = some fl ∧ Agrees tags fl) := by
    clear ho hothers
    induction ns with
    | nil => exact ⟨[], rfl, by simp, by simp⟩
    | cons n ns ih =>
      obtain ⟨ns', e, h1, h2⟩ := ih (fun m hm => hok m (by simp [hm]))
      obtain ⟨h, hp, hg⟩ := hok n (by simp)
      obtain ⟨new, g, ha, hot, hr⟩ := C16_flags_follow_tags tags n h hp hg
      rcases hr with ⟨hd, hf, ha0, _, hs⟩ | ⟨_, hs⟩
      · refine ⟨n :: ns', by simp [hs, e], ?_, ?_⟩
        · intro m hm
          rcases List.mem_cons.1 hm with rfl | hm
          · exact ⟨h, hp⟩
          · exact h1 m hm
        · intro m hm
          rcases List.mem_cons.1 hm with rfl | hm
          · exact Or.inl ⟨hf, hd, ha0⟩
          · exact h2 m hm
      · refine ⟨⟨n.pre, bs "cur", n.uniq, some new⟩ :: ns', ?_, ?_, ?_⟩
        · simp only [List.map_cons, hs, e]
        · intro m hm
          rcases List.mem_cons.1 hm with rfl | hm
          · refine ⟨⟨Or.inl rfl, h.uniq_slash, ?_, h.uniq_sep⟩, hp⟩
            rintro fl ⟨⟩ hm
            rw [hot 47 (by decide +kernel)] at hm
            cases hfl : n.flags with
            | none => rw [hfl] at hm; simp at hm
            | some fl => rw [hfl] at hm; exact h.flags_slash fl hfl hm
          · exact h1 m hm
        · intro m hm
          rcases List.mem_cons.1 hm with rfl | hm
          · exact Or.inr ⟨new, rfl, ha⟩
          · exact h2 m hm
  obtain ⟨ns', e, hok', hfl⟩ := hns
  intro t
  unfold tagsToFlags
  rw [List.map_append, hothers, e]
  obtain ⟨m1, m2⟩ := C17_flags_to_tags_meaning ns' hok' others ho tags
  cases hcase : ns' with
  | nil =>
    rw [hcase] at m1
    rw [m1 (by simp)]
  | cons n0 rest =>
    rw [← hcase]
    have hn0 : n0 ∈ ns' := by simp [hcase]
    have hinfo : ∃ n ∈ ns', n.flags ≠ none ∨ n.dir = bs "new" := by
      refine ⟨n0, hn0, ?_⟩
      rcases hfl n0 hn0 with h | ⟨fl, h, _⟩
      · exact Or.inr h.2.1
      · left; rw [h]; simp
    obtain ⟨all, hall, hag, hoth⟩ := m2 hinfo
    by_cases ht : t ∈ flagTags
    · -- the combined flags agree with the tags
      have hA : Agrees tags all := by
        have mem : ∀ c P, (∀ fl, Agrees tags fl → (c ∈ fl ↔ P)) → (c ∈ all ↔ P) := by
          intro c P hP
          rw [hall]
          constructor
          · rintro ⟨n, hn, fl, hf, hc⟩
            rcases hfl n hn with h | ⟨fl', h, ha⟩
            · rw [h.1] at hf; simp at hf
            · rw [h] at hf; cases hf
              exact (hP _ ha).1 hc
          · intro hp
            rcases hfl n0 hn0 with h | ⟨fl', h, ha⟩
            · exact absurd ((hP _ h.2.2).2 hp) (by simp)
            · exact ⟨n0, hn0, fl', h, (hP _ ha).2 hp⟩
        exact ⟨mem 68 _ (fun _ h => h.draft), mem 70 _ (fun _ h => h.flagged),
          mem 80 _ (fun _ h => h.passed), mem 82 _ (fun _ h => h.replied), mem 83 _ (fun _ h => h.seen)⟩
      unfold flagTags at ht
      simp only [List.mem_cons, List.not_mem_nil, or_false] at ht
      rcases ht with rfl | rfl | rfl | rfl | rfl
      · rw [← hag.draft, hA.draft]
      · rw [← hag.flagged, hA.flagged]
      · rw [← hag.passed, hA.passed]
      · rw [← hag.replied, hA.replied]
      · have := hag.seen.symm.trans hA.seen
        exact ⟨fun h => Classical.byContradiction fun h' => this.2 h' h, fun h => Classical.byContradiction fun h' => this.1 h' h⟩
    · exact hoth t ht

example : tagsToFlags (fun _ _ => true) [bs "/m/new/x", bs "/m/cur/y:2,RST", bs "/other/z"]
      [bs "flagged", bs "inbox", bs "unread"] =
      [bs "/m/cur/x:2,F", bs "/m/cur/y:2,FT", bs "/other/z"] ∧
    flagsToTags [bs "/m/cur/x:2,F", bs "/m/cur/y:2,FT", bs "/other/z"]
      [bs "flagged", bs "inbox", bs "unread"] = [bs "flagged", bs "inbox", bs "unread"] := by
  decide +kernel

/-- The other direction, for a message with a single file: once the tags were read from the
flags, synchronising back changes no flag. -/
theorem C17_flags_tags_roundtrip (n : Name) (h : n.Ok) (hp : ¬ sep <:+: n.pre) (fl : Str)
    (hfl : n.flags = some fl) (hg : GoodFlags fl) (tags : List Str) :
    syncFile (fun _ _ => true) (flagsToTags [n.path] tags) n.path =
      (Name.mk n.pre (bs "cur") n.uniq (some fl)).path := by
  have hm := (C17_flags_to_tags_meaning [n] (by simp [h, hp]) [] (by simp) tags).2
    ⟨n, by simp, Or.inl (by simp [hfl])⟩
  simp only [List.map_cons, List.map_nil, List.append_nil] at hm
  obtain ⟨all, hall, hag, _⟩ := hm
  have hall' : ∀ c, c ∈ all ↔ c ∈ fl := by
    intro c; rw [hall]; simp [hfl]
  obtain ⟨new, g, ha, hot, hr⟩ := C16_flags_follow_tags (flagsToTags [n.path] tags) n h hp (by rw [hfl]; exact hg)
  have : new = fl := by
    apply sorted_ext _ _ g.1 hg.1
    intro c
    by_cases hc : c ∈ tagFlags
    · have e : tagFlags = [68, 70, 80, 82, 83] := by decide +kernel
      rw [e] at hc
      simp only [List.mem_cons, List.not_mem_nil, or_false] at hc
      rw [← hall']
      rcases hc with rfl | rfl | rfl | rfl | rfl
      · rw [ha.draft, hag.draft]
      · rw [ha.flagged, hag.flagged]
      · rw [ha.passed, hag.passed]
      · rw [ha.replied, hag.replied]
      · rw [ha.seen, hag.seen]
    · simpa [hfl] using hot c hc
  rw [this] at hr
  rcases hr with hr | hr
  · rw [hfl] at hr; simp at hr
  · exact hr.2

/-- The hypothesis on the directory part is needed: `:2,` in a directory name is taken for the
separator when the flags are read (but blocks every renaming), so a freshly delivered message in such
a folder can lose `unread` without being seen. -/
theorem C17_separator_in_directory_counterexample :
    ∃ f : Str, (inMaildir f).isSome ∧ (∀ tags, syncFile (fun _ _ => true) tags f = f) ∧
      flagsToTags [f] [bs "unread"] = [bs "flagged"] := by
  refine ⟨bs "/m/a:2,FS/cur/x", by decide +kernel, ?_, by decide +kernel⟩
  intro tags
  let n : Name := ⟨bs "/m/a:2,FS", bs "cur", bs "x", none⟩
  have e : bs "/m/a:2,FS/cur/x" = n.path := by decide +kernel
  have h : n.Ok := ⟨Or.inl rfl, by decide +kernel, by simp [n], by decide +kernel⟩
  rw [e]
  unfold syncFile
  rw [inMaildir_path n h]
  have : newMaildirFilename n.path (getActions tags).1 (getActions tags).2 = none := by
    unfold newMaildirFilename; rw [newFlagMap_none n (by decide +kernel)]
  simp only [this]

/-- And so is the order of the flags: a file whose flags cannot be rewritten pulls its flags back
into the tags. -/
theorem C17_bad_flags_counterexample :
    ∃ (files : List Str) (tags : List Str), bs "unread" ∈ tags ∧
      bs "unread" ∉ flagsToTags (tagsToFlags (fun _ _ => true) files tags) tags :=
  ⟨[bs "/m/cur/x:2,SR"], [bs "unread"], by simp, by decide +kernel⟩

end Notmuch.Props
