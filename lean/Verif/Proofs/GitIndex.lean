import Verif.Proofs.GitLine

/-! # notmuch-git: the private index -/

namespace Notmuch.GitProof
open Notmuch.Git Notmuch.GitSpec Notmuch.StringUtil Notmuch.TagUtil Notmuch.DumpRestore

/-! ## Paths -/

theorem code_file : ∀ c : UInt8, ∀ d ∈ code fileSafe c, d ≠ 47 ∧ 32 < d ∧ d < 127 ∧ d ≠ 34 ∧ d ≠ 92 := by
  apply forall_byte; decide +kernel

theorem hexQuote_chars (s : Str) : ∀ d ∈ hexQuote s, d ≠ 47 ∧ 32 < d ∧ d < 127 ∧ d ≠ 34 ∧ d ≠ 92 := by
  rw [hexQuote_eq]
  intro d hd
  unfold codes at hd
  simp only [List.mem_flatMap] at hd
  obtain ⟨c, _, hd⟩ := hd
  exact code_file c d hd

theorem hexDir_chars {s : Str} (h : isHexDir s = true) : s.length = 2 ∧ ∀ d ∈ s, d ≠ 47 ∧ 32 < d ∧ d < 127 ∧ d ≠ 34 ∧ d ≠ 92 := by
  unfold isHexDir at h
  simp only [Bool.and_eq_true, beq_iff_eq, List.all_eq_true] at h
  refine ⟨h.1, fun d hd => ?_⟩
  have := h.2 d hd
  clear hd h
  revert this; revert d
  apply forall_byte; decide +kernel

theorem idPath_injective {E : Env} (hE : Sane E) {i j : Str} (h : idPath E i = idPath E j) : i = j := by
  unfold idPath at h
  simp only at h
  split at h
  · have l : ∀ s, (bs "tags/" ++ (E.hash s).1 ++ bs "/" ++ (E.hash s).2 ++ bs "/").length = 11 := by
      intro s
      simp only [List.length_append, (hexDir_chars (hE.hash s).1).1, (hexDir_chars (hE.hash s).2).1]
      rfl
    exact hexQuote_injective (List.append_inj_right h (by rw [l, l]))
  · exact hexQuote_injective (List.append_cancel_left h)

theorem dirname_tagPath (E : Env) (id t : Str) : dirname (tagPath E id t) = idPath E id := by
  unfold dirname tagPath
  rw [List.append_assoc, List.reverse_append, List.reverse_append]
  have e : (bs "/" : Str).reverse = [47] := by decide +kernel
  rw [e, List.append_assoc, dropWhile_append_all, List.singleton_append]
  · simp
  · intro c hc
    have := (hexQuote_chars t c (by simpa using hc)).1
    simpa using this

theorem tagPath_injective {E : Env} (hE : Sane E) {i j t u : Str} (h : tagPath E i t = tagPath E j u) : i = j ∧ t = u := by
  have h1 : i = j := idPath_injective hE (by rw [← dirname_tagPath E i t, ← dirname_tagPath E j u, h])
  subst h1
  unfold tagPath at h
  exact ⟨rfl, hexQuote_injective (List.append_cancel_left h)⟩

theorem tagPath_tags (E : Env) (id t : Str) : (bs "tags/").isPrefixOf (tagPath E id t) = true := by
  rw [List.isPrefixOf_iff_prefix]
  unfold tagPath idPath
  simp only
  split <;> simp only [List.append_assoc] <;> exact List.prefix_append _ _

/-! ## `update-index` -/

theorem updateIndex_append (E : Env) (a b : List Upd) (idx : List Str) :
    updateIndex E (a ++ b) idx = (updateIndex E a idx).bind (updateIndex E b) := by
  induction a generalizing idx with
  | nil => rfl
  | cons u a ih =>
    cases u with
    | add p =>
      simp only [List.cons_append, updateIndex]
      split
      · exact ih _
      · rfl
    | del p => simp only [List.cons_append, updateIndex]; exact ih _

theorem updateIndex_dels (E : Env) (ps : List Str) (idx : List Str) :
    ∃ r, updateIndex E (ps.map .del) idx = some r ∧ ∀ p, p ∈ r ↔ p ∈ idx ∧ p ∉ ps := by
  induction ps generalizing idx with
  | nil => exact ⟨idx, rfl, by simp⟩
  | cons q ps ih =>
    obtain ⟨r, hr, h⟩ := ih (idx.filter (· ≠ q))
    refine ⟨r, by simpa [updateIndex] using hr, fun p => ?_⟩
    rw [h p]
    simp only [List.mem_filter, List.mem_cons, ne_eq, decide_eq_true_eq]
    grind

theorem updateIndex_adds (E : Env) (ps : List Str) (hv : ∀ p ∈ ps, E.verify p = true) (idx : List Str) :
    ∃ r, updateIndex E (ps.map .add) idx = some r ∧ ∀ p, p ∈ r ↔ p ∈ idx ∨ p ∈ ps := by
  induction ps generalizing idx with
  | nil => exact ⟨idx, rfl, by simp⟩
  | cons q ps ih =>
    obtain ⟨r, hr, h⟩ := ih (fun p hp => hv p (by simp [hp])) (if q ∈ idx then idx else idx ++ [q])
    refine ⟨r, by simp only [List.map_cons, updateIndex, hv q (by simp), if_true]; exact hr, fun p => ?_⟩
    rw [h p]
    split <;> simp only [List.mem_cons, List.mem_append, List.not_mem_nil, or_false] <;> grind

/-! ## The lines of the dump -/

/-- The updates for one message. -/
def msgUpds (E : Env) (clear : Bool) (idx : List Str) (m : Git.Msg) : List Upd :=
  (if clear then clearTags E idx m.id else []) ++ tagsForMessage E m.id true (suffixes E.pre m.tags)

theorem indexLines_comment (E : Env) (clear : Bool) (idx : List Str) (l : Str) (ls : List Str) :
    indexLines E clear idx ((35 :: l) :: ls) = indexLines E clear idx ls := by
  rw [indexLines, readLine_comment]

theorem pyLines_comment {l : Str} (h : ∀ c ∈ l, isBreak c = false) (r : Str) : pyLines (35 :: l ++ 10 :: r) = (35 :: (l ++ [10])) :: pyLines r := by
  have := pyLines_line (l := 35 :: l) (by
    intro c hc
    simp only [List.mem_cons] at hc
    rcases hc with rfl | hc
    · decide
    · exact h c hc) r
  exact this

/-- Text made of comments. -/
inductive Comments : Str → Prop
  | nil : Comments []
  | cons {l r : Str} : (∀ c ∈ l, isBreak c = false) → Comments r → Comments (35 :: l ++ 10 :: r)

theorem Comments.append {a b : Str} (ha : Comments a) (hb : Comments b) : Comments (a ++ b) := by
  induction ha with
  | nil => exact hb
  | cons h _ ih =>
    rw [List.append_assoc, List.cons_append]
    exact Comments.cons h ih

theorem indexLines_comments (E : Env) (clear : Bool) (idx : List Str) {a : Str} (ha : Comments a) (r : Str) :
    indexLines E clear idx (pyLines (a ++ r)) = indexLines E clear idx (pyLines r) := by
  induction ha with
  | nil => rfl
  | cons h _ ih =>
    rename_i l0 r0 _
    have e : 35 :: l0 ++ 10 :: r0 ++ r = 35 :: l0 ++ 10 :: (r0 ++ r) := by simp
    rw [e, pyLines_comment h, indexLines_comment, ih]

theorem bs_not_break {s : String} (h : (bs s).all (fun c => !isBreak c) = true) : ∀ c ∈ bs s, isBreak c = false := by
  intro c hc
  simpa using List.all_eq_true.mp h c hc

theorem header_comments : Comments (dumpHeader ⟨true, true, true⟩) := by
  have e : dumpHeader ⟨true, true, true⟩ = 35 :: bs "notmuch-dump batch-tag:3 config,properties,tags" ++ 10 :: [] := by decide +kernel
  rw [e]
  exact Comments.cons (bs_not_break (by decide +kernel)) .nil

theorem config_comments (kv : Str × Str) : Comments (dumpConfigLine kv) := by
  have e : dumpConfigLine kv = 35 :: (bs "@ " ++ Hex.encode kv.1 ++ bs " " ++ Hex.encode kv.2) ++ 10 :: [] := by
    unfold dumpConfigLine
    rw [show bs "#@ " = 35 :: bs "@ " from by decide +kernel]
    simp only [List.append_assoc, List.cons_append]
  rw [e]
  refine Comments.cons ?_ .nil
  intro c hc
  simp only [List.mem_append] at hc
  rcases hc with ((hc | hc) | hc) | hc
  · exact bs_not_break (by decide +kernel) c hc
  · exact encode_not_break _ c hc
  · exact bs_not_break (by decide +kernel) c hc
  · exact encode_not_break _ c hc

theorem configs_comments (l : List (Str × Str)) : Comments (l.flatMap dumpConfigLine) := by
  induction l with
  | nil => exact .nil
  | cons kv l ih => rw [List.flatMap_cons]; exact (config_comments kv).append ih

theorem props_comments (m : DumpRestore.Msg) : Comments (dumpProps m) := by
  unfold dumpProps
  split
  · exact .nil
  · split
    · exact .nil
    · have e : bs "#= " ++ Hex.encode m.id ++ (m.props.flatMap (fun kv => bs " " ++ Hex.encode kv.1 ++ bs "=" ++ Hex.encode kv.2)) ++ [10] =
          35 :: (bs "= " ++ Hex.encode m.id ++ (m.props.flatMap (fun kv => bs " " ++ Hex.encode kv.1 ++ bs "=" ++ Hex.encode kv.2))) ++ 10 :: [] := by
        rw [show bs "#= " = 35 :: bs "= " from by decide +kernel]
        simp only [List.append_assoc, List.cons_append]
      rw [e]
      refine Comments.cons ?_ .nil
      intro c hc
      simp only [List.mem_append, List.mem_flatMap] at hc
      rcases hc with (hc | hc) | ⟨kv, _, hc⟩
      · exact bs_not_break (by decide +kernel) c hc
      · exact encode_not_break _ c hc
      · rcases hc with ((hc | hc) | hc) | hc
        · exact bs_not_break (by decide +kernel) c hc
        · exact encode_not_break _ c hc
        · exact bs_not_break (by decide +kernel) c hc
        · exact encode_not_break _ c hc

theorem quoteBody_mem (s : Str) : ∀ c ∈ quoteBody s, c ∈ s := by
  induction s with
  | nil => simp [quoteBody]
  | cons a s ih =>
    intro c hc
    unfold quoteBody at hc
    split at hc <;> simp only [List.mem_cons] at hc ⊢ <;> grind

theorem term_not_break {id : Str} (h : ReadableId id) : ∀ c ∈ makeBooleanTerm none id, isBreak c = false := by
  intro c hc
  unfold makeBooleanTerm at hc
  simp only [List.nil_append] at hc
  split at hc
  · simp only [List.cons_append, List.mem_cons, List.mem_append, List.not_mem_nil, or_false] at hc
    rcases hc with rfl | hc | rfl
    · decide
    · exact readable_break h c (quoteBody_mem id c hc)
    · decide
  · exact readable_break h c hc

theorem indexLines_message (E : Env) (hp : 126 ∉ E.pre) (clear : Bool) (idx : List Str) (m : Git.Msg) (h : ReadableId m.id) (r : Str) :
    indexLines E clear idx (pyLines (dumpTags ⟨m.id, m.tags, m.props⟩ ++ r)) =
      (indexLines E clear idx (pyLines r)).map (msgUpds E clear idx m ++ ·) := by
  have h10 : 10 ∉ m.id := fun hc => absurd (readable_break h 10 hc) (by decide)
  have e := dumpTags_eq ⟨m.id, m.tags, m.props⟩ h10
  have hl := readLine_message E.pre hp ⟨m.id, m.tags, m.props⟩ h
  have e' : dumpTags ⟨m.id, m.tags, m.props⟩ = (dumpTagWords m.tags true ++ (idSep ++ makeBooleanTerm none m.id)) ++ [10] := by
    rw [e]; simp only [List.append_assoc]
  rw [e'] at hl ⊢
  rw [List.append_assoc, List.singleton_append, pyLines_line, indexLines, hl]
  · simp only
    rfl
  · intro c hc
    simp only [List.mem_append] at hc
    rcases hc with hc | hc | hc
    · rcases dumpTagWords_mem m.tags true c hc with rfl | rfl | hc
      · decide
      · decide
      · exact hc.1
    · exact bs_not_break (by decide +kernel) c hc
    · exact term_not_break h c hc

/-- **The loop over the dump.** -/
theorem indexLines_dump (E : Env) (hp : 126 ∉ E.pre) (clear : Bool) (idx : List Str) (db : Git.Db) (ms : List Git.Msg) (h : ∀ m ∈ ms, ReadableId m.id) :
    indexLines E clear idx (pyLines (dumpOf db ms)) = some (ms.flatMap (msgUpds E clear idx)) := by
  unfold dumpOf dump
  simp only [if_true, Bool.or_self]
  rw [List.append_assoc, indexLines_comments E clear idx header_comments, indexLines_comments E clear idx (configs_comments _)]
  induction ms with
  | nil => rfl
  | cons m ms ih =>
    simp only [List.map_cons, List.flatMap_cons]
    rw [List.append_assoc, indexLines_message E hp clear idx m (h m (by simp)), indexLines_comments E clear idx (props_comments _),
      ih (fun x hx => h x (by simp [hx]))]
    rfl

/-! ## The new index -/

theorem updateIndex_msgs {E : Env} (hE : Sane E) (clear : Bool) (idx0 : List Str) (ms : List Git.Msg)
    (hu : ∀ m ∈ ms, ∀ m' ∈ ms, m.id = m'.id → m = m') (hv : ∀ m ∈ ms, ∀ t, E.pre ++ t ∈ m.tags → E.verify (tagPath E m.id t) = true) (idx : List Str) :
    ∃ r, updateIndex E (ms.flatMap (msgUpds E clear idx0)) idx = some r ∧
      ∀ p, p ∈ r ↔ (∃ m ∈ ms, ∃ t, E.pre ++ t ∈ m.tags ∧ p = tagPath E m.id t) ∨
        (p ∈ idx ∧ ¬ (clear = true ∧ ∃ m ∈ ms, p ∈ idx0 ∧ (bs "tags/").isPrefixOf p = true ∧ dirname p = idPath E m.id)) := by
  induction ms generalizing idx with
  | nil => exact ⟨idx, rfl, by simp⟩
  | cons m ms ih =>
    rw [List.flatMap_cons, updateIndex_append]
    have e1 : ∃ r1, updateIndex E (if clear then clearTags E idx0 m.id else []) idx = some r1 ∧
        ∀ p, p ∈ r1 ↔ p ∈ idx ∧ ¬ (clear = true ∧ p ∈ idx0 ∧ (bs "tags/").isPrefixOf p = true ∧ dirname p = idPath E m.id) := by
      cases clear with
      | false => exact ⟨idx, rfl, by simp⟩
      | true =>
        obtain ⟨r, hr, h⟩ := updateIndex_dels E (idx0.filter (fun p => (bs "tags/").isPrefixOf p && dirname p == idPath E m.id)) idx
        refine ⟨r, hr, fun p => ?_⟩
        rw [h p]
        simp only [List.mem_filter, Bool.and_eq_true, beq_iff_eq, true_and]
    obtain ⟨r1, h1, m1⟩ := e1
    have e2 : tagsForMessage E m.id true (suffixes E.pre m.tags) = ((suffixes E.pre m.tags).map (tagPath E m.id)).map .add := by
      unfold tagsForMessage
      simp
    obtain ⟨r2, h2, m2⟩ := updateIndex_adds E ((suffixes E.pre m.tags).map (tagPath E m.id)) (by
      intro p hp
      simp only [List.mem_map] at hp
      obtain ⟨t, ht, rfl⟩ := hp
      exact hv m (by simp) t (mem_suffixes.mp ht)) r1
    have e3 : updateIndex E (msgUpds E clear idx0 m) idx = some r2 := by
      unfold msgUpds
      rw [updateIndex_append, h1, e2]
      exact h2
    rw [e3]
    obtain ⟨r, hr, mr⟩ := ih (fun a ha b hb => hu a (by simp [ha]) b (by simp [hb])) (fun a ha => hv a (by simp [ha])) r2
    refine ⟨r, hr, fun p => ?_⟩
    rw [mr p, m2 p, m1 p]
    have hs : p ∈ (suffixes E.pre m.tags).map (tagPath E m.id) ↔ ∃ t, E.pre ++ t ∈ m.tags ∧ p = tagPath E m.id t := by
      simp only [List.mem_map, mem_suffixes]
      constructor
      · rintro ⟨t, h, rfl⟩; exact ⟨t, h, rfl⟩
      · rintro ⟨t, h, rfl⟩; exact ⟨t, h, rfl⟩
    rw [hs]
    constructor
    · rintro (⟨m', hm', h⟩ | ⟨(⟨hi, hn⟩ | ⟨t, ht, rfl⟩), hc⟩)
      · exact Or.inl ⟨m', by simp [hm'], h⟩
      · refine Or.inr ⟨hi, ?_⟩
        rintro ⟨hcl, m', hm', h⟩
        simp only [List.mem_cons] at hm'
        rcases hm' with rfl | hm'
        · exact hn ⟨hcl, h⟩
        · exact hc ⟨hcl, m', hm', h⟩
      · exact Or.inl ⟨m, by simp, t, ht, rfl⟩
    · rintro (⟨m', hm', h⟩ | ⟨hi, hn⟩)
      · simp only [List.mem_cons] at hm'
        rcases hm' with rfl | hm'
        · by_cases hc : (clear = true ∧ ∃ m ∈ ms, p ∈ idx0 ∧ (bs "tags/").isPrefixOf p = true ∧ dirname p = idPath E m.id)
          · obtain ⟨_, m2, hm2, _, _, hd⟩ := hc
            obtain ⟨t, ht, rfl⟩ := h
            rw [dirname_tagPath] at hd
            have := hu m' (by simp) m2 (by simp [hm2]) (idPath_injective hE hd)
            subst this
            exact Or.inl ⟨m', hm2, t, ht, rfl⟩
          · exact Or.inr ⟨Or.inr h, hc⟩
        · exact Or.inl ⟨m', hm', h⟩
      · refine Or.inr ⟨Or.inl ⟨hi, ?_⟩, ?_⟩
        · rintro ⟨hcl, h⟩; exact hn ⟨hcl, m, by simp, h⟩
        · rintro ⟨hcl, m', hm', h⟩; exact hn ⟨hcl, m', by simp [hm'], h⟩

theorem hasPrefix_iff {p : Str} {m : Git.Msg} : hasPrefix p m = true ↔ ∃ t, p ++ t ∈ m.tags := by
  unfold hasPrefix
  rw [List.any_eq_true]
  constructor
  · rintro ⟨t, ht, hp⟩
    obtain ⟨r, rfl⟩ := List.isPrefixOf_iff_prefix.mp hp
    exact ⟨r, ht⟩
  · rintro ⟨t, ht⟩
    exact ⟨_, ht, List.isPrefixOf_iff_prefix.mpr (List.prefix_append _ _)⟩

/-- **The private index is exact**, after any history. -/
theorem indexTags_exact {E : Env} (hE : Sane E) (hp : 126 ∉ E.pre) {c : Option Cache} {db : Git.Db} (hdb : Regular E db) (hc : Honest E c db) (idx : Option (List Str)) :
    ∃ r, indexTags E c idx db = some r ∧ Represents E E.pre r db := by
  unfold indexTags
  simp only
  by_cases hs : startsEmpty E c (idx.map E.sum) = true
  · -- everything is written
    have hf : incrementalFrom E c (idx.map E.sum) db.uuid = none := by
      unfold startsEmpty at hs
      unfold incrementalFrom
      cases c with
      | none => rfl
      | some x =>
        obtain ⟨i0, d, h1, _⟩ := hc x rfl
        simp only [h1, Bool.or_eq_true, bne_iff_ne, ne_eq, beq_iff_eq, reduceCtorEq, or_false] at hs
        simp only
        rw [if_neg]
        rintro ⟨a, _, _, b⟩
        rw [h1] at b
        rcases hs with hs | hs
        · exact hs a
        · exact hs b
    rw [hf, if_pos hs]
    simp only [queried, Option.isSome_none]
    rw [indexLines_dump E hp false [] db _ (fun m hm => hdb.readable m ((List.mem_filter.mp hm).1))]
    obtain ⟨r, hr, h⟩ := updateIndex_msgs hE false [] (db.msgs.filter (hasPrefix E.pre))
      (fun a ha b hb => hdb.unique a ((List.mem_filter.mp ha).1) b ((List.mem_filter.mp hb).1))
      (fun a ha => hdb.paths a ((List.mem_filter.mp ha).1)) []
    refine ⟨r, hr, fun p => ?_⟩
    rw [h p]
    simp only [List.not_mem_nil, false_and, or_false, List.mem_filter, Has]
    constructor
    · rintro ⟨m, ⟨hm, _⟩, t, ht, rfl⟩
      exact ⟨m.id, t, ⟨m, hm, rfl, ht⟩, rfl⟩
    · rintro ⟨id, t, ⟨m, hm, rfl, ht⟩, rfl⟩
      exact ⟨m, ⟨hm, hasPrefix_iff.mpr ⟨t, ht⟩⟩, t, ht, rfl⟩
  · -- only what changed
    cases c with
    | none => exact absurd rfl hs
    | some x =>
      obtain ⟨i0, d, h1, h2, hu0, h3, h4, h5⟩ := hc x rfl
      unfold startsEmpty at hs
      simp only [h1, Bool.or_eq_true, bne_iff_ne, ne_eq, beq_iff_eq, reduceCtorEq, or_false, not_or, Decidable.not_not] at hs
      obtain ⟨ha, hb⟩ := hs
      have hi : idx = some i0 := by
        cases idx with
        | none => simp at hb
        | some y =>
          simp only [Option.map_some, Option.some.injEq] at hb
          rw [hE.sum _ _ hb]
      subst hi
      have hf : incrementalFrom E (some x) (Option.map E.sum (some i0)) db.uuid = some (x.lastmod + 1) := by
        unfold incrementalFrom
        simp only
        rw [if_pos]
        have hu : x.uuid = db.uuid := by rw [h5.uuid, h3]
        exact ⟨ha, by rw [hu]; exact hdb.uuid, hu, h1⟩
      have hs' : startsEmpty E (some x) (Option.map E.sum (some i0)) = false := by
        unfold startsEmpty
        simp [h1, ha]
      rw [hf, hs']
      simp only [queried, Option.isSome_some, Bool.false_eq_true, if_false, Option.getD_some]
      rw [indexLines_dump E hp true i0 db _ (fun m hm => hdb.readable m ((List.mem_filter.mp hm).1))]
      obtain ⟨r, hr, h⟩ := updateIndex_msgs hE true i0 (db.msgs.filter (fun m => decide (x.lastmod + 1 ≤ m.lastmod)))
        (fun a ha b hb => hdb.unique a ((List.mem_filter.mp ha).1) b ((List.mem_filter.mp hb).1))
        (fun a ha => hdb.paths a ((List.mem_filter.mp ha).1)) i0
      refine ⟨r, hr, fun p => ?_⟩
      rw [h p]
      simp only [List.mem_filter, decide_eq_true_eq, true_and]
      constructor
      · rintro (⟨m, ⟨hm, _⟩, t, ht, rfl⟩ | ⟨hi, hn⟩)
        · exact ⟨m.id, t, ⟨m, hm, rfl, ht⟩, rfl⟩
        · obtain ⟨id, t, ⟨m, hm, rfl, ht⟩, rfl⟩ := (h2 p).mp hi
          obtain ⟨m', hm', hid⟩ := h5.keeps m hm
          have hl : m'.lastmod ≤ d.rev := by
            apply Decidable.byContradiction
            intro hgt
            exact hn ⟨m', ⟨hm', by omega⟩, hi, tagPath_tags E _ _, by rw [dirname_tagPath, hid]⟩
          -- an unchanged message was there already, with the same tags; it is this one
          have hmd := h5.touched m' hm' hl
          have := hu0 m hm m' hmd hid.symm
          subst this
          exact ⟨m.id, t, ⟨m, hm', rfl, by rw [← ha]; exact ht⟩, rfl⟩
      · rintro ⟨id, t, ⟨m, hm, rfl, ht⟩, rfl⟩
        by_cases hl : x.lastmod + 1 ≤ m.lastmod
        · exact Or.inl ⟨m, ⟨hm, hl⟩, t, ht, rfl⟩
        · have hmd := h5.touched m hm (by omega)
          refine Or.inr ⟨(h2 _).mpr ⟨m.id, t, ⟨m, hmd, rfl, by rw [ha]; exact ht⟩, rfl⟩, ?_⟩
          rintro ⟨m', ⟨hm', hl'⟩, _, _, hd⟩
          rw [dirname_tagPath] at hd
          have := hdb.unique m hm m' hm' (idPath_injective hE hd)
          subst this
          exact hl hl'

end Notmuch.GitProof
