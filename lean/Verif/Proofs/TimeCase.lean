import Verif.Proofs.TimeWords

/-! # Proofs: upper and lower case -/

namespace Notmuch.Time

theorem lower_facts : ∀ c : UInt8, isAlpha (toLower c) = isAlpha c ∧ isDigit (toLower c) = isDigit c ∧ isSep (toLower c) = isSep c ∧ isTimeSep (toLower c) = isTimeSep c ∧ isAlnum (toLower c) = isAlnum c ∧
    (isAlpha c = false → toLower c = c) ∧ (isSep c = true → isAlpha c = false) ∧ (isDigit c = true → isAlpha c = false) := by
  apply forall_byte
  decide +kernel

theorem lower_same (s : Str) (h : ∀ c ∈ s, isAlpha c = false) : s.map toLower = s := by
  induction s with
  | nil => rfl
  | cons c s ih =>
    rw [List.map_cons, (lower_facts c).2.2.2.2.2.1 (h c List.mem_cons_self), ih (fun x hx => h x (List.mem_cons_of_mem _ hx))]

theorem takeWhile_lower (p : UInt8 → Bool) (hp : ∀ c, p (toLower c) = p c) (s : Str) : (s.map toLower).takeWhile p = (s.takeWhile p).map toLower := by
  induction s with
  | nil => rfl
  | cons c s ih =>
    simp only [List.map_cons, List.takeWhile_cons, hp]
    split
    · rw [List.map_cons, ih]
    · rfl

theorem mem_takeWhile (p : UInt8 → Bool) (s : Str) : ∀ c ∈ s.takeWhile p, p c = true := by
  intro c hc
  induction s with
  | nil => simp at hc
  | cons x s ih =>
    rw [List.takeWhile_cons] at hc
    split at hc
    · rcases List.mem_cons.1 hc with h | h
      · rw [h]; assumption
      · exact ih h
    · simp at hc

theorem digits_lower (s : Str) : (s.map toLower).takeWhile isDigit = s.takeWhile isDigit := by
  rw [takeWhile_lower isDigit (fun c => (lower_facts c).2.1)]
  exact lower_same _ (fun c hc => (lower_facts c).2.2.2.2.2.2.2 (mem_takeWhile _ _ c hc))

theorem group_lower (s : Str) : group (s.map toLower) = (group s).map (fun p => (toLower p.1, p.2)) := by
  match s with
  | [] => rfl
  | [c] => rfl
  | c :: d :: l =>
    simp only [List.map_cons, group, (lower_facts d).2.1]
    split
    · rename_i h
      have := digits_lower (d :: l)
      rw [List.map_cons] at this
      rw [this]
      rfl
    · rfl

theorem thirdGroup_lower (sep : UInt8) (hs : isSep sep = true) (s : Str) : thirdGroup sep (s.map toLower) = thirdGroup sep s := by
  unfold thirdGroup
  rw [group_lower]
  cases group s with
  | none => rfl
  | some p =>
    simp only [Option.map_some]
    have : toLower p.1 = sep ↔ p.1 = sep := by
      constructor
      · intro h
        have k : isSep (toLower p.1) = true := by rw [h]; exact hs
        rw [(lower_facts p.1).2.2.1] at k
        rw [← h]
        exact ((lower_facts p.1).2.2.2.2.2.1 ((lower_facts p.1).2.2.2.2.2.2.1 k)).symm
      · intro h
        rw [h]
        exact (lower_facts sep).2.2.2.2.2.1 ((lower_facts sep).2.2.2.2.2.2.1 hs)
    by_cases h : p.1 = sep
    · rw [if_pos (this.2 h), if_pos h]
    · rw [if_neg (fun k => h (this.1 k)), if_neg h]

theorem parseNumber_lower (st : State) (s : Str) : parseNumber st (s.map toLower) = parseNumber st s := by
  unfold parseNumber
  simp only [digits_lower, ← List.map_drop, group_lower]
  cases hg : group (s.drop (s.takeWhile isDigit).length) with
  | none => rfl
  | some p =>
    obtain ⟨sep, d2⟩ := p
    simp only [Option.map_some]
    by_cases hs : isSep sep = true
    · have e : toLower sep = sep := (lower_facts sep).2.2.2.2.2.1 ((lower_facts sep).2.2.2.2.2.2.1 hs)
      rw [e, hs, thirdGroup_lower sep hs]
    · have h2 : isSep sep = false := by simpa using hs
      rw [(lower_facts sep).2.2.1, h2]
      rfl

theorem parseDelim_lower (st : State) (s : Str) : parseDelim st (s.map toLower) = parseDelim st s := by
  unfold parseDelim
  rw [takeWhile_lower (fun c => !isAlnum c) (fun c => by rw [(lower_facts c).2.2.2.2.1]), lower_same]
  intro c hc
  have := mem_takeWhile _ _ c hc
  have h2 : isAlnum c = false := by simpa using this
  exact (not_alnum c h2).1

theorem word_split (s : Str) : s = s.takeWhile isAlpha ++ s.dropWhile isAlpha ∧ NoAlpha (s.dropWhile isAlpha) := by
  refine ⟨List.takeWhile_append_dropWhile.symm, ?_⟩
  intro c hc
  induction s with
  | nil => simp at hc
  | cons x s ih =>
    rw [List.dropWhile_cons] at hc
    split at hc
    · exact ih hc
    · rename_i h
      simp at hc
      rw [← hc]
      simpa using h

theorem parseKeyword_lower (st : State) (s : Str) (h : s.takeWhile isAlpha ≠ bs "M") : parseKeyword st (s.map toLower) = parseKeyword st s := by
  have e : findKeyword (s.map toLower) keywords = findKeyword s keywords := by
    obtain ⟨h1, h2⟩ := word_split s
    have ha := mem_takeWhile isAlpha s
    have ha' : ∀ c ∈ (s.takeWhile isAlpha).map toLower, isAlpha c = true := by
      intro c hc
      obtain ⟨x, hx, rfl⟩ := List.mem_map.1 hc
      rw [(lower_facts x).1]
      exact ha x hx
    have hn : NoAlpha ((s.dropWhile isAlpha).map toLower) := by
      intro c hc
      cases hd : s.dropWhile isAlpha with
      | nil => rw [hd] at hc; simp at hc
      | cons x l =>
        rw [hd] at hc
        simp at hc
        rw [← hc, (lower_facts x).1]
        exact h2 x (by rw [hd]; rfl)
    have l1 : findKeyword s keywords = findKeyword (s.takeWhile isAlpha) keywords := by
      conv => lhs; rw [h1]
      exact findKeyword_append _ _ h2 ha _
    have l2 : findKeyword (s.map toLower) keywords = findKeyword ((s.takeWhile isAlpha).map toLower) keywords := by
      conv => lhs; rw [h1, List.map_append]
      exact findKeyword_append _ _ hn ha' _
    rw [l1, l2, findKeyword_lower _ ha h]
  unfold parseKeyword
  rw [e]

theorem parseNext_lower (st : State) (s : Str) (h : s.takeWhile isAlpha ≠ bs "M") : parseNext st (s.map toLower) = parseNext st s := by
  cases s with
  | nil => rfl
  | cons c l =>
    have e : parseNext st ((c :: l).map toLower) = if isAlpha c then parseKeyword st ((c :: l).map toLower) else if isDigit c then parseNumber st ((c :: l).map toLower) else .ok (parseDelim st ((c :: l).map toLower)) := by
      show (if isAlpha (toLower c) then _ else if isDigit (toLower c) then _ else _) = _
      rw [(lower_facts c).1, (lower_facts c).2.1]
    rw [e, parseKeyword_lower st _ h, parseNumber_lower, parseDelim_lower]
    rfl

/-! ## What is consumed -/

theorem group_some {s : Str} {c : UInt8} {ds : Str} (h : group s = some (c, ds)) : ∃ rest, s = c :: (ds ++ rest) ∧ ∀ x ∈ ds, isDigit x = true := by
  match s with
  | [] => simp [group] at h
  | [x] => simp [group] at h
  | x :: d :: l =>
    simp only [group] at h
    split at h
    · have h' := Option.some.inj h
      have h1 : x = c := congrArg Prod.fst h'
      have h2 : (d :: l).takeWhile isDigit = ds := congrArg Prod.snd h'
      refine ⟨(d :: l).dropWhile isDigit, ?_, ?_⟩
      · rw [h1, ← h2, List.takeWhile_append_dropWhile]
      · rw [← h2]
        exact mem_takeWhile _ _
    · cases h

theorem bind_snd {a : Except Err State} {n : Nat} {p : State × Nat} (h : a.bind (fun st => .ok (st, n)) = .ok p) : p.2 = n := by
  cases a with
  | error e => simp [Except.bind] at h
  | ok st => rw [← Except.ok.inj h]

theorem number_consumes (st : State) (s : Str) (p : State × Nat) (h : parseNumber st s = .ok p) : ∀ c ∈ s.take p.2, isAlpha c = false := by
  have hd : ∀ x, isDigit x = true → isAlpha x = false := fun x => (lower_facts x).2.2.2.2.2.2.2
  have hsp : ∀ x, isSep x = true → isAlpha x = false := fun x => (lower_facts x).2.2.2.2.2.2.1
  have e1 : s = s.takeWhile isDigit ++ s.drop (s.takeWhile isDigit).length := by
    have k : s.take (s.takeWhile isDigit).length = s.takeWhile isDigit := (List.prefix_iff_eq_take.1 (List.takeWhile_prefix isDigit)).symm
    have k2 := (List.take_append_drop (s.takeWhile isDigit).length s).symm
    rw [k] at k2
    exact k2
  have m1 := mem_takeWhile isDigit s
  unfold parseNumber at h
  simp only at h
  generalize s.takeWhile isDigit = d1 at *
  generalize hr1 : s.drop d1.length = r1 at *
  have single : p.2 = d1.length → ∀ c ∈ s.take p.2, isAlpha c = false := by
    intro hp c hc
    rw [hp, e1, List.take_left] at hc
    exact hd c (m1 c hc)
  cases hg : group r1 with
  | none =>
    rw [hg] at h
    exact single (bind_snd h)
  | some q =>
    obtain ⟨sep, d2⟩ := q
    rw [hg] at h
    simp only at h
    by_cases hs : isSep sep = true
    · rw [hs] at h
      simp only [Bool.not_true, Bool.false_eq_true, if_false] at h
      have hp := bind_snd h
      obtain ⟨rest, e2, m2⟩ := group_some hg
      have e3 : r1.drop (1 + d2.length) = rest := by
        rw [e2, Nat.add_comm, List.drop_succ_cons, List.drop_left]
      rw [e3] at hp
      have two : ∀ c ∈ d1 ++ (sep :: d2), isAlpha c = false := by
        intro c hc
        rcases List.mem_append.1 hc with k | k
        · exact hd c (m1 c k)
        · rcases List.mem_cons.1 k with k | k
          · rw [k]; exact hsp sep hs
          · exact hd c (m2 c k)
      by_cases h3 : thirdGroup sep rest = []
      · rw [if_pos h3] at hp
        intro c hc
        have : s = (d1 ++ (sep :: d2)) ++ rest := by
          rw [e1, e2]
          simp
        rw [this, hp, List.take_left' (by simp; omega)] at hc
        exact two c hc
      · rw [if_neg h3] at hp
        unfold thirdGroup at h3 hp
        cases hg3 : group rest with
        | none => rw [hg3] at h3; exact absurd rfl h3
        | some q3 =>
          obtain ⟨sep', d3⟩ := q3
          rw [hg3] at h3 hp
          simp only at h3 hp
          by_cases k : sep' = sep
          · rw [if_pos k] at h3 hp
            obtain ⟨rest3, e4, m3⟩ := group_some hg3
            intro c hc
            have : s = (d1 ++ (sep :: d2) ++ (sep' :: d3)) ++ rest3 := by
              rw [e1, e2, e4]
              simp
            rw [this, hp, List.take_left' (by simp; omega)] at hc
            rcases List.mem_append.1 hc with hc | hc
            · exact two c hc
            · rcases List.mem_cons.1 hc with hc | hc
              · rw [hc, k]; exact hsp sep hs
              · exact hd c (m3 c hc)
          · rw [if_neg k] at h3
            exact absurd rfl h3
    · have hs' : isSep sep = false := by simpa using hs
      rw [hs'] at h
      exact single (bind_snd (by simpa using h))

theorem noLoneM_word {s : Str} (h : NoLoneM s) : s.takeWhile isAlpha ≠ bs "M" := by
  intro e
  obtain ⟨h1, h2⟩ := word_split s
  rw [e] at h1
  rcases h [] (s.dropWhile isAlpha) h1 with ⟨c, k, _⟩ | ⟨c, k, k2⟩
  · simp at k
  · rw [h2 c k] at k2
    cases k2

theorem noLoneM_drop {s : Str} {n : Nat} (h : NoLoneM s) (hc : (∀ c ∈ s.take n, isAlpha c = false) ∨ NoAlpha (s.drop n)) : NoLoneM (s.drop n) := by
  intro pre post e
  have es : s = (s.take n ++ pre) ++ 77 :: post := by
    rw [List.append_assoc, ← e, List.take_append_drop]
  rcases h _ _ es with ⟨c, k, ka⟩ | k
  · rcases List.eq_nil_or_concat pre with hp | ⟨l, x, hp⟩
    · rcases hc with hc | hc
      · rw [hp, List.append_nil] at k
        have := hc c (List.mem_of_getLast? k)
        rw [this] at ka
        cases ka
      · have := hc 77 (by rw [e, hp]; rfl)
        exact absurd this (by decide)
    · left
      rw [List.concat_eq_append] at hp
      rw [hp] at k ⊢
      refine ⟨c, ?_, ka⟩
      rw [← List.append_assoc, List.getLast?_append] at k
      rw [List.getLast?_append]
      simpa using k
  · exact Or.inr k

theorem next_consumes (st : State) (s : Str) (p : State × Nat) (h : parseNext st s = .ok p) : (∀ c ∈ s.take p.2, isAlpha c = false) ∨ NoAlpha (s.drop p.2) := by
  cases s with
  | nil => left; simp
  | cons c l =>
    unfold parseNext at h
    simp only at h
    by_cases ha : isAlpha c = true
    · rw [if_pos ha] at h
      right
      unfold parseKeyword at h
      obtain ⟨h1, h2⟩ := word_split (c :: l)
      have hw := mem_takeWhile isAlpha (c :: l)
      have l1 : findKeyword (c :: l) keywords = findKeyword ((c :: l).takeWhile isAlpha) keywords := by
        conv => lhs; rw [h1]
        exact findKeyword_append _ _ h2 hw _
      rw [l1] at h
      cases hk : findKeyword ((c :: l).takeWhile isAlpha) keywords with
      | none => rw [hk] at h; simp at h
      | some q =>
        obtain ⟨k, n⟩ := q
        rw [hk] at h
        have hp := bind_snd h
        have hn := findKeyword_length _ hw keywords k n hk
        rw [hp, hn]
        have : (c :: l).drop ((c :: l).takeWhile isAlpha).length = (c :: l).dropWhile isAlpha := by
          generalize (c :: l).takeWhile isAlpha = a at h1
          generalize (c :: l).dropWhile isAlpha = b at h1
          rw [h1, List.drop_left]
        rw [this]
        exact h2
    · rw [if_neg ha] at h
      left
      by_cases hd : isDigit c = true
      · rw [if_pos hd] at h
        exact number_consumes st _ p h
      · rw [if_neg hd] at h
        rw [← Except.ok.inj h]
        intro x hx
        have : (c :: l).take (parseDelim st (c :: l)).2 = (c :: l).takeWhile (fun c => !isAlnum c) := (List.prefix_iff_eq_take.1 (List.takeWhile_prefix _)).symm
        rw [this] at hx
        have := mem_takeWhile _ _ x hx
        exact (not_alnum x (by simpa using this)).1

/-- Upper and lower case are the same, but for `M` as a word. -/
theorem parseInput_lower : ∀ (n : Nat) (st : State) (s : Str), NoLoneM s → parseInput n st (s.map toLower) = parseInput n st s := by
  intro n
  induction n with
  | zero =>
    intro st s _
    cases s <;> rfl
  | succ n ih =>
    intro st s h
    cases s with
    | nil => rfl
    | cons c l =>
      have e : parseInput (n + 1) st ((c :: l).map toLower) = (parseNext st ((c :: l).map toLower)).bind (fun p => parseInput n p.1 (((c :: l).map toLower).drop p.2)) := rfl
      have e' : parseInput (n + 1) st (c :: l) = (parseNext st (c :: l)).bind (fun p => parseInput n p.1 ((c :: l).drop p.2)) := rfl
      rw [e, e', parseNext_lower st _ (noLoneM_word h)]
      cases hp : parseNext st (c :: l) with
      | error x => rfl
      | ok p =>
        simp only [Except.bind]
        rw [← List.map_drop, ih _ _ (noLoneM_drop h (next_consumes st _ p hp))]

theorem parseTimeString_lower (z : Zone) (s : Str) (ref : Int) (r : Round) (h : NoLoneM s) : parseTimeString z (s.map toLower) ref r = parseTimeString z s ref r := by
  unfold parseTimeString
  rw [List.length_map, parseInput_lower _ _ _ h]

end Notmuch.Time
