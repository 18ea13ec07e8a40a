import Verif.Proofs.TimeWords

/-! # Proofs: dates and times as they are written -/

namespace Notmuch.Time

/-- A word or a number ends here. -/
structure Stops (rest : Str) : Prop where
  alpha : NoAlpha rest
  digit : NoDigit rest
  group : NoGroup rest

/-- The fields are given, and the postponed number is none that a month or am/pm would take. -/
structure Ready (st : State) (g : Given) : Prop where
  means : Means st g
  long : ¬(st.postLen = 1 ∨ st.postLen = 2)

/-- What the text does, at the end. -/
structure DoesLast (text : Str) (P : Given → Prop) (U : Given → Given) : Prop where
  begins : ∃ c l, text = c :: l ∧ isAlnum c = true
  does : ∀ (st : State) (g : Given) (rest : Str), Ready st g → P g → st.delim ≠ 64 → Stops rest → ∃ st', parse st (text ++ rest) = parse st' rest ∧ Means st' (U g)

/-- What the text does. -/
structure Does (text : Str) (P : Given → Prop) (U : Given → Given) : Prop where
  begins : ∃ c l, text = c :: l ∧ isAlnum c = true
  does : ∀ (st : State) (g : Given) (rest : Str), Ready st g → P g → st.delim ≠ 64 → Stops rest → ∃ st', parse st (text ++ rest) = parse st' rest ∧ Ready st' (U g)

theorem Does.last {text : Str} {P : Given → Prop} {U : Given → Given} (h : Does text P U) : DoesLast text P U :=
  ⟨h.begins, fun st g rest a b c d => by
    obtain ⟨st', e, r⟩ := h.does st g rest a b c d
    exact ⟨st', e, r.means⟩⟩

theorem Fresh.ready {st : State} {g : Given} {f : Field} (h : Fresh st g f) : Ready st g := ⟨h.means, by rw [h.post]; decide⟩

theorem Ready.delim {st : State} {g : Given} (c : UInt8) (h : Ready st g) : Ready { st with delim := c } g := ⟨h.means.delim c, h.long⟩

theorem stops_nil : Stops [] := ⟨by intro c h; simp at h, by intro c h; simp at h, by intro c d l h; simp at h⟩

theorem parse_gap (st : State) (s rest : Str) (hs : Gap s) (hd : st.delim ≠ 64) (hr : ∀ x ∈ rest.head?, isAlnum x = true) : ∃ c, c ≠ 64 ∧ parse st (s ++ rest) = parse { st with delim := c } rest := by
  rcases List.eq_nil_or_concat s with h | ⟨l, c, h⟩
  · rw [h]
    exact ⟨st.delim, hd, rfl⟩
  · rw [List.concat_eq_append] at h
    refine ⟨c, ?_, ?_⟩
    · apply hs.2
      rw [h]
      simp
    · rw [h, parse_delim st l rest c (by rw [← h]; exact hs.1) hr]

theorem alnum_head {text rest : Str} (h : ∃ c l, text = c :: l ∧ isAlnum c = true) : ∀ x ∈ (text ++ rest).head?, isAlnum x = true := by
  obtain ⟨c, l, rfl, hc⟩ := h
  intro x hx
  simp at hx
  rw [← hx]
  exact hc

/-- Nothing that is not a letter or a digit, or the end. -/
theorem noAlpha_gap (s rest : Str) (hs : ∀ c ∈ s, isAlnum c = false) (hr : NoAlpha rest) : NoAlpha (s ++ rest) := by
  cases s with
  | nil => exact hr
  | cons c s =>
    intro x hx
    simp at hx
    rw [← hx]
    exact (not_alnum c (hs c List.mem_cons_self)).1

theorem noDigit_gap (s rest : Str) (hs : ∀ c ∈ s, isAlnum c = false) (hr : NoDigit rest) : NoDigit (s ++ rest) := by
  cases s with
  | nil => exact hr
  | cons c s =>
    intro x hx
    simp at hx
    rw [← hx]
    exact (not_alnum c (hs c List.mem_cons_self)).2

/-- A gap before a letter. -/
theorem noGroup_gap (s rest : Str) (hs : ∀ c ∈ s, isAlnum c = false) (hr : NoDigit rest) (hg : NoGroup rest) : NoGroup (s ++ rest) := by
  intro c d l e hc
  match s with
  | [] => exact hg c d l e hc
  | [x] =>
    rw [List.singleton_append, List.cons.injEq] at e
    apply hr
    rw [e.2]
    rfl
  | x :: y :: s =>
    rw [List.cons_append, List.cons_append, List.cons.injEq, List.cons.injEq] at e
    rw [← e.2.1]
    exact (not_alnum y (hs y (by simp))).2

theorem between_stops (s rest : Str) (h : Between s) : Stops (s ++ rest) := by
  obtain ⟨⟨h1, _⟩, h2, h3⟩ := h
  match s with
  | [] => exact absurd rfl h2
  | [x] =>
    have hx := not_alnum x (h1 x (by simp))
    refine ⟨?_, ?_, ?_⟩
    · intro c hc
      simp at hc
      rw [← hc]
      exact hx.1
    · intro c hc
      simp at hc
      rw [← hc]
      exact hx.2
    · intro c d l e hc
      rw [List.singleton_append, List.cons.injEq] at e
      obtain ⟨a, b, c', d'⟩ := h3 x rfl
      exfalso
      rw [← e.1] at hc
      simp [isSep, isTimeSep, isDateSep] at hc
      rcases hc with k | (k | k) | k
      · exact d' k
      · exact a k
      · exact b k
      · exact c' k
  | x :: y :: s =>
    have hx := not_alnum x (h1 x (by simp))
    have hy := not_alnum y (h1 y (by simp))
    refine ⟨?_, ?_, ?_⟩
    · intro c hc
      simp at hc
      rw [← hc]
      exact hx.1
    · intro c hc
      simp at hc
      rw [← hc]
      exact hx.2
    · intro c d l e hc
      rw [List.cons_append, List.cons_append, List.cons.injEq, List.cons.injEq] at e
      rw [← e.2.1]
      exact hy.2

theorem Does.seqLast {t1 t2 gap : Str} {P1 P2 : Given → Prop} {U1 U2 : Given → Given} (h1 : Does t1 P1 U1) (hg : Between gap) (h2 : DoesLast t2 P2 U2) :
    DoesLast (t1 ++ (gap ++ t2)) (fun g => P1 g ∧ P2 (U1 g)) (fun g => U2 (U1 g)) := by
  constructor
  · obtain ⟨c, l, e, hc⟩ := h1.begins
    exact ⟨c, l ++ (gap ++ t2), by rw [e]; rfl, hc⟩
  · intro st g rest hm hp hd hs
    obtain ⟨s1, e1, m1⟩ := h1.does st g (gap ++ (t2 ++ rest)) hm hp.1 hd (between_stops gap _ hg)
    have hne := hg.2.1
    rcases List.eq_nil_or_concat gap with h | ⟨l, c, h⟩
    · exact absurd h hne
    · rw [List.concat_eq_append] at h
      have hc : c ≠ 64 := by
        apply hg.1.2
        rw [h]
        simp
      have e2 : parse s1 (gap ++ (t2 ++ rest)) = parse { s1 with delim := c } (t2 ++ rest) := by
        rw [h, parse_delim s1 l (t2 ++ rest) c (by rw [← h]; exact hg.1.1) (alnum_head h2.begins)]
      obtain ⟨s2, e3, m2⟩ := h2.does { s1 with delim := c } (U1 g) rest (m1.delim c) hp.2 hc hs
      exact ⟨s2, by rw [List.append_assoc, List.append_assoc, e1, e2, e3], m2⟩

theorem Does.seq {t1 t2 gap : Str} {P1 P2 : Given → Prop} {U1 U2 : Given → Given} (h1 : Does t1 P1 U1) (hg : Between gap) (h2 : Does t2 P2 U2) :
    Does (t1 ++ (gap ++ t2)) (fun g => P1 g ∧ P2 (U1 g)) (fun g => U2 (U1 g)) := by
  constructor
  · obtain ⟨c, l, e, hc⟩ := h1.begins
    exact ⟨c, l ++ (gap ++ t2), by rw [e]; rfl, hc⟩
  · intro st g rest hm hp hd hs
    obtain ⟨s1, e1, m1⟩ := h1.does st g (gap ++ (t2 ++ rest)) hm hp.1 hd (between_stops gap _ hg)
    have hne := hg.2.1
    rcases List.eq_nil_or_concat gap with h | ⟨l, c, h⟩
    · exact absurd h hne
    · rw [List.concat_eq_append] at h
      have hc : c ≠ 64 := by
        apply hg.1.2
        rw [h]
        simp
      have e2 : parse s1 (gap ++ (t2 ++ rest)) = parse { s1 with delim := c } (t2 ++ rest) := by
        rw [h, parse_delim s1 l (t2 ++ rest) c (by rw [← h]; exact hg.1.1) (alnum_head h2.begins)]
      obtain ⟨s2, e3, m2⟩ := h2.does { s1 with delim := c } (U1 g) rest (m1.delim c) hp.2 hc hs
      exact ⟨s2, by rw [List.append_assoc, List.append_assoc, e1, e2, e3], m2⟩

theorem DoesLast.parse {text : Str} {P : Given → Prop} {U : Given → Given} (h : DoesLast text P U) (hp : P Given.none) : ∃ st, parse .init text = .ok st ∧ Has st (U Given.none) ∧ st.postLen = 0 := by
  have hi : Ready .init Given.none := ⟨⟨.init, rfl, rfl, rfl⟩, by decide⟩
  obtain ⟨st', e, s1, m1, m2⟩ := h.does .init Given.none [] hi hp (by decide) stops_nil
  rw [List.append_nil, parse_nil, m1] at e
  exact ⟨s1, e, m2, parsePostponed_post m1⟩

/-! ## Digits -/

theorem decVal_lt : ∀ (s : Str), (∀ c ∈ s, isDigit c = true) → decVal s < 10 ^ s.length := by
  have key : ∀ (s : Str) (a : Nat), (∀ c ∈ s, isDigit c = true) → s.foldl (fun a c => 10 * a + (c.toNat - 48)) a < (a + 1) * 10 ^ s.length := by
    intro s
    induction s with
    | nil => intro a _; simp
    | cons c s ih =>
      intro a h
      rw [List.foldl_cons]
      have h1 := ih (10 * a + (c.toNat - 48)) (fun x hx => h x (List.mem_cons_of_mem _ hx))
      have hc : c.toNat - 48 ≤ 9 := by
        have : ∀ c : UInt8, isDigit c = true → c.toNat - 48 ≤ 9 := by
          apply forall_byte
          decide +kernel
        exact this c (h c List.mem_cons_self)
      refine Nat.lt_of_lt_of_le h1 ?_
      rw [List.length_cons, Nat.pow_succ]
      have : 10 * a + (c.toNat - 48) + 1 ≤ (a + 1) * 10 := by omega
      calc (10 * a + (c.toNat - 48) + 1) * 10 ^ s.length ≤ ((a + 1) * 10) * 10 ^ s.length := Nat.mul_le_mul_right _ this
        _ = (a + 1) * (10 ^ s.length * 10) := by rw [Nat.mul_assoc, Nat.mul_comm 10]
  intro s h
  have := key s 0 h
  simpa [decVal] using this

theorem Digits.lt {n v : Nat} {s : Str} (h : Digits n v s) : v < 10 ^ n := by
  rw [← h.1, ← h.2.2]
  exact decVal_lt s h.2.1

theorem Digits.strtoul {n v : Nat} {s : Str} (h : Digits n v s) (hn : n ≤ 8) : strtoul s = v := by
  have h1 := h.lt
  have h2 : 10 ^ n ≤ 10 ^ 8 := Nat.pow_le_pow_right (by omega) hn
  rw [strtoul_eq s (by rw [h.2.2]; omega), h.2.2]

theorem Digits.ne {n v : Nat} {s : Str} (h : Digits n v s) (hn : 0 < n) : s ≠ [] := by
  intro e
  have := h.1
  rw [e] at this
  simp at this
  omega

theorem Short.digits {v : Nat} {s : Str} (h : Short v s) : ∃ n, (n = 1 ∨ n = 2) ∧ Digits n v s := by
  rcases h with h | h
  · exact ⟨1, Or.inl rfl, h⟩
  · exact ⟨2, Or.inr rfl, h⟩

theorem digits_begin {s t : Str} (hn : s ≠ []) (h : ∀ c ∈ s, isDigit c = true) : ∃ c l, s ++ t = c :: l ∧ isAlnum c = true := by
  obtain ⟨c, l, rfl⟩ := List.exists_cons_of_ne_nil hn
  exact ⟨c, l ++ t, rfl, digit_alnum c (h c List.mem_cons_self)⟩

theorem word_begin {s t : Str} (hn : s ≠ []) (h : ∀ c ∈ s, isAlpha c = true) : ∃ c l, s ++ t = c :: l ∧ isAlnum c = true := by
  obtain ⟨c, l, rfl⟩ := List.exists_cons_of_ne_nil hn
  exact ⟨c, l ++ t, rfl, by simp [isAlnum, h c List.mem_cons_self]⟩

/-! ## Dates -/

theorem notSet {g : Given} {f : Field} {v : Int} {h : Field} (e : h ≠ f) : (g.add f v).set h = g.set h := put_other _ _ _ _ e

/-- The day is not given. -/
def NoDate (g : Given) : Prop := g.set .year = .unset ∧ g.set .mon = .unset ∧ g.set .mday = .unset

/-- The day is given. -/
def addDate (y m d : Nat) (g : Given) : Given := ((g.add .year y).add .mon m).add .mday d

theorem groups_date (st : State) (g : Given) (sep : UInt8) (a b c : Str) (y m d : Nat) (hm : Ready st g) (hn : NoDate g) (hsep : isTimeSep sep = false)
    (hf : dateFields sep (strtoul a) (strtoul b) (strtoul c) a.length b.length c.length = some (some (y : Int), (m : Int), some (d : Int)))
    (h1 : 1970 ≤ y) (h2 : 1 ≤ m ∧ m ≤ 12) (h3 : 1 ≤ d ∧ d ≤ 31) : ∃ st', groups st sep a b c = .ok st' ∧ Ready st' (addDate y m d g) := by
  have hfree : Free g [(.year, (y : Int)), (.mon, (m : Int)), (.mday, (d : Int))] :=
    ⟨hn.1, by rw [notSet (by decide)]; exact hn.2.1, by rw [notSet (by decide), notSet (by decide)]; exact hn.2.2, trivial⟩
  obtain ⟨st', e, _, fr⟩ := setAll_means _ hm.means hfree
  refine ⟨st', ?_, (fr .mday (by simp)).ready⟩
  unfold groups parseDate
  rw [hsep, hf]
  have v1 : validYear (y : Int) = true := by simp [validYear]; omega
  have v2 : validMon (m : Int) = true := by simp [validMon]; omega
  have v3 : validMday (d : Int) = true := by simp [validMday]; omega
  simp only [Option.map_some, Option.getD_some, v1, v2, v3, Option.toList_some, Bool.and_self, if_true]
  exact e

theorem isDay_bounds {y m d : Nat} (h : IsDay y m d) : 1970 ≤ y ∧ (1 ≤ m ∧ m ≤ 12) ∧ 1 ≤ d ∧ d ≤ 31 := by
  obtain ⟨h1, _, h3, h4, h5, h6⟩ := h
  refine ⟨h1, ⟨h3, h4⟩, h5, Nat.le_trans h6 ?_⟩
  unfold daysIn
  repeat' split
  all_goals omega

theorem YearText.digits {y : Nat} {s : Str} (h : YearText y s) : ∃ n v, Digits n v s ∧ (n = 2 ∨ n = 4) ∧ expandYear v n = some (y : Int) := by
  rcases h with h | ⟨h, h1, h2⟩
  · exact ⟨4, y, h, Or.inr rfl, by simp [expandYear]⟩
  · refine ⟨2, y % 100, h, Or.inl rfl, ?_⟩
    simp only [expandYear, if_true, Option.some.injEq]
    split <;> omega

/-- Three groups of digits. -/
theorem date_groups (y m d : Nat) (sep : UInt8) (a b c : Str) (n1 n2 n3 v1 v2 v3 : Nat) (hd : IsDay y m d) (hs : isSep sep = true) (hsep : isTimeSep sep = false)
    (h1 : Digits n1 v1 a) (h2 : Digits n2 v2 b) (h3 : Digits n3 v3 c) (k1 : 0 < n1 ∧ n1 ≤ 4) (k2 : 0 < n2 ∧ n2 ≤ 4) (k3 : 0 < n3 ∧ n3 ≤ 4)
    (hf : dateFields sep v1 v2 v3 n1 n2 n3 = some (some (y : Int), (m : Int), some (d : Int))) : Does (a ++ sep :: (b ++ sep :: c)) NoDate (addDate y m d) := by
  constructor
  · exact digits_begin (h1.ne k1.1) h1.2.1
  · intro st g rest hm hp hdl hst
    rw [parse_three st sep a b c rest hs (h1.ne k1.1) (h2.ne k2.1) (h3.ne k3.1) h1.2.1 h2.2.1 h3.2.1 hst.digit]
    obtain ⟨b1, b2, b3⟩ := isDay_bounds hd
    obtain ⟨st', e, r⟩ := groups_date st g sep a b c y m d hm hp hsep
      (by rw [h1.strtoul (by omega), h2.strtoul (by omega), h3.strtoul (by omega), h1.1, h2.1, h3.1]; exact hf) b1 b2 b3
    rw [e]
    exact ⟨st', rfl, r⟩

theorem singleNumber_means (st : State) (g : Given) (v n : Nat) (hm : Means st g) (hd : st.delim ≠ 64) (hv : v < 2 ^ 31) :
    ∃ st', singleNumber st v n = .ok st' ∧ Has st' g ∧ st'.postLen = n ∧ st'.postVal = v ∧ st'.postDelim = st.delim ∧ (st.postLen = 0 → st'.last = st.last) ∧ st'.delim ≠ 64 := by
  obtain ⟨st', e, r1, r2, r3, r4, r5, r6⟩ := postpone_means v n hm
  refine ⟨st', ?_, r1, r2, r3, r4, r5, r6 hd⟩
  unfold singleNumber
  rw [if_neg hd, if_neg (by omega), e]

theorem parse_number {st : State} {g : Given} {n v : Nat} {s rest : Str} (h : Digits n v s) (h0 : 0 < n) (h8 : n ≤ 8) (hm : Means st g) (hd : st.delim ≠ 64) (hr : NoDigit rest) (hg : NoGroup rest) :
    ∃ st', parse st (s ++ rest) = parse st' rest ∧ Has st' g ∧ st'.postLen = n ∧ st'.postVal = v ∧ st'.postDelim = st.delim ∧ (st.postLen = 0 → st'.last = st.last) ∧ st'.delim ≠ 64 := by
  have hl := h.lt
  have h2 : 10 ^ n ≤ 10 ^ 8 := Nat.pow_le_pow_right (by omega) h8
  obtain ⟨st', e, r⟩ := singleNumber_means st g v n hm hd (by omega)
  refine ⟨st', ?_, r⟩
  rw [parse_single st s rest (h.ne h0) h.2.1 hr hg, h.strtoul h8, h.1, e]
  rfl

/-- What a postponed number sets. -/
theorem means_post {st : State} {g : Given} (l : List (Field × Int)) (h : Has st g) (hl : l ≠ []) (hf : Free g l) (e : parsePostponed st = setAll0 st.consume l) : Means st (g.addAll l) := by
  obtain ⟨st', e1, r⟩ := setAll0_means l (st := st.consume) h rfl hl hf
  exact ⟨st', by rw [e, e1], r⟩

/-- The day as one number. -/
theorem means_eight {st : State} {g : Given} {y m d : Nat} (h : Has st g) (hn : NoDate g) (hl : st.postLen = 8) (hv : st.postVal = (10000 * y + 100 * m + d : Nat)) (hd : IsDay y m d) :
    Means st (addDate y m d g) := by
  obtain ⟨b1, b2, b3⟩ := isDay_bounds hd
  have e1 : ((10000 * y + 100 * m + d : Nat) : Int) / 10000 = y := by omega
  have e2 : ((10000 * y + 100 * m + d : Nat) : Int) / 100 % 100 = m := by omega
  have e3 : ((10000 * y + 100 * m + d : Nat) : Int) % 100 = d := by omega
  have v1 : validYear (y : Int) = true := by simp [validYear]; omega
  have v2 : validMon (m : Int) = true := by simp [validMon]; omega
  have v3 : validMday (d : Int) = true := by simp [validMday]; omega
  have hfree : Free g [(.year, (y : Int)), (.mon, (m : Int)), (.mday, (d : Int))] :=
    ⟨hn.1, by rw [notSet (by decide)]; exact hn.2.1, by rw [notSet (by decide), notSet (by decide)]; exact hn.2.2, trivial⟩
  apply means_post _ h (by simp) hfree
  unfold parsePostponed
  simp only [hl, hv, e1, e2, e3, v1, v2, v3]
  simp

/-- A year that is postponed. -/
theorem means_year {st : State} {g : Given} {y : Nat} (h : Has st g) (hn : g.set .year = .unset) (hl : st.postLen = 4) (hv : st.postVal = y) (hy : 1970 ≤ y) : Means st (g.add .year y) := by
  have v1 : validYear (y : Int) = true := by simp [validYear]; omega
  apply means_post [(.year, (y : Int))] h (by simp) ⟨hn, trivial⟩
  unfold parsePostponed
  simp only [hl, hv, v1]
  simp [setAll0]
  cases setField0 st.consume .year (y : Int) <;> rfl

/-- A day that is postponed, after its month. -/
theorem means_mday {st : State} {g : Given} {d : Nat} {n : Nat} (h : Has st g) (hn : g.set .mday = .unset) (hk : n = 1 ∨ n = 2) (hl : st.postLen = n) (hv : st.postVal = d) (hla : st.last = some .mon)
    (hd : 1 ≤ d ∧ d ≤ 31) : Means st (g.add .mday d) := by
  have v1 : validMday (d : Int) = true := by simp [validMday]; omega
  have hn2 : (n : Int) = 1 ∨ (n : Int) = 2 := by omega
  have hn0 : ¬((n : Int) = 0) := by omega
  have s2 : st.consume.last = some .mon := hla
  apply means_post [(.mday, (d : Int))] h (by simp) ⟨hn, trivial⟩
  unfold parsePostponed
  simp only [hl, hv, v1, s2]
  rw [if_neg hn0, if_pos hn2]
  simp [setAll0]
  cases setField0 st.consume .mday (d : Int) <;> rfl

theorem Given.add_comm (g : Given) (f h : Field) (v w : Int) (e : f ≠ h) : (g.add f v).add h w = (g.add h w).add f v := by
  simp only [Given.add, put_comm _ _ _ _ _ e]

theorem word_next {w rest : Str} {f : Field} {v : Int} {s : Setter} (h : IsKeyword w f v s) : NoDigit (w ++ rest) ∧ NoGroup (w ++ rest) := by
  obtain ⟨x, l, rfl⟩ := List.exists_cons_of_ne_nil h.ne
  constructor
  · intro z hz
    simp at hz
    rw [← hz]
    exact alpha_not_digit x (h.alpha x (by simp))
  · intro z d' l' e hz
    rw [List.cons_append, List.cons.injEq] at e
    have := sep_not_alpha z hz
    rw [← e.1, h.alpha x (by simp)] at this
    cases this

theorem digits_noAlpha {n v : Nat} {s rest : Str} (h : Digits n v s) (hn : 0 < n) : NoAlpha (s ++ rest) := by
  obtain ⟨x, l, rfl⟩ := List.exists_cons_of_ne_nil (h.ne hn)
  intro z hz
  simp at hz
  rw [← hz]
  cases ha : isAlpha x with
  | false => rfl
  | true =>
    have := alpha_not_digit x ha
    rw [h.2.1 x (by simp)] at this
    cases this

theorem apply_dayMonth {st : State} {k : Keyword} {g : Given} {m d : Nat} (hh : Has st g) (hp2 : g.set .mon = .unset) (hp3 : g.set .mday = .unset) (hd : 1 ≤ d ∧ d ≤ 31)
    (hs : st.postLen = 1 ∨ st.postLen = 2) (hv : st.postVal = d) (kf : k.field = .mon) (kv : k.value = m) (ks : k.set = .month) :
    ∃ st', applyKeyword st k = .ok st' ∧ Fresh st' ((g.add .mday d).add .mon m) .mon := by
  have v1 : validMday (d : Int) = true := by simp [validMday]; omega
  obtain ⟨s2, e4, f2⟩ := setField_means (st := st.consume) (g := g) (f := .mday) d (Has.means hh rfl) hp3
  obtain ⟨s3, e5, f3⟩ := setField_means (f := .mon) (m : Int) f2.means (by rw [notSet (by decide)]; exact hp2)
  refine ⟨s3, ?_, f3⟩
  unfold applyKeyword
  rw [ks, kf, kv, hv]
  simp only [v1, if_true]
  rw [if_pos hs, e4]
  exact e5

/-- A day and then its month. -/
theorem parse_dayMonth {m d : Nat} {a g w rest : Str} {st : State} {gv : Given} (hd : 1 ≤ d ∧ d ≤ 31) (h1 : Short d a) (h2 : Gap g) (h3 : MonthWord m w) (hm : Means st gv)
    (hp2 : gv.set .mon = .unset) (hp3 : gv.set .mday = .unset) (hdl : st.delim ≠ 64) (hr : NoAlpha rest) :
    ∃ st', parse st (a ++ (g ++ (w ++ rest))) = parse st' rest ∧ Fresh st' ((gv.add .mday d).add .mon m) .mon := by
  obtain ⟨n1, k1, g1⟩ := h1.digits
  obtain ⟨hm12, kw⟩ := monthWord_keyword h3
  have wn := word_next (rest := rest) kw
  obtain ⟨s1, e1, r1, r2, r3, _, _, r6⟩ := parse_number g1 (by omega) (by omega) hm hdl (noDigit_gap g _ h2.1 wn.1) (noGroup_gap g _ h2.1 wn.1 wn.2)
  obtain ⟨c1, _, e2⟩ := parse_gap s1 g (w ++ rest) h2 r6 (fun x hx => by
    obtain ⟨c, l, e, hc⟩ := word_begin (t := rest) kw.ne kw.alpha
    rw [e] at hx
    simp at hx
    rw [← hx]
    exact hc)
  obtain ⟨k, kf, kv, ks, e3⟩ := parse_word kw { s1 with delim := c1 } rest hr
  obtain ⟨s3, ea, f3⟩ := apply_dayMonth (st := { s1 with delim := c1 }) (k := k) (g := gv) r1 hp2 hp3 hd (by show s1.postLen = 1 ∨ s1.postLen = 2; omega) r3 kf kv ks
  refine ⟨s3, ?_, f3⟩
  rw [e1, e2, e3, ea]
  rfl

/-- A day, as an ordinal. -/
theorem parse_ordinal {d : Nat} {a o rest : Str} {st : State} {gv : Given} (hd : 1 ≤ d ∧ d ≤ 31) (h1 : Short d a) (h3 : OrdinalWord d o) (hm : Means st gv)
    (hp3 : gv.set .mday = .unset) (hdl : st.delim ≠ 64) (hr : NoAlpha rest) :
    ∃ st', parse st (a ++ (o ++ rest)) = parse st' rest ∧ Fresh st' (gv.add .mday d) .mday := by
  obtain ⟨n1, k1, g1⟩ := h1.digits
  obtain ⟨kw, k, hk, kn, ks⟩ := ordinalWord_keyword h3
  have wn := word_next (rest := rest) kw
  obtain ⟨s1, e1, r1, r2, r3, _, _, r6⟩ := parse_number g1 (by omega) (by omega) hm hdl wn.1 wn.2
  obtain ⟨s2, e4, f2⟩ := setField_means (st := s1.consume) (g := gv) (f := .mday) d (Has.means r1 rfl) hp3
  refine ⟨s2, ?_, f2⟩
  rw [e1, parse_keyword s1 o rest k kw.ne kw.alpha hr hk]
  have hb : badOrdinal k.name (d : Int) = false := by
    rw [kn]
    unfold OrdinalWord at h3
    rw [h3]
    have v1 : validMday (d : Int) = true := by simp [validMday]; omega
    have hcase : d = 1 ∨ d = 2 ∨ d = 3 ∨ d = 4 ∨ d = 5 ∨ d = 6 ∨ d = 7 ∨ d = 8 ∨ d = 9 ∨ d = 10 ∨ d = 11 ∨ d = 12 ∨ d = 13 ∨ d = 14 ∨ d = 15 ∨ d = 16 ∨ d = 17 ∨ d = 18 ∨ d = 19 ∨ d = 20 ∨ d = 21 ∨
        d = 22 ∨ d = 23 ∨ d = 24 ∨ d = 25 ∨ d = 26 ∨ d = 27 ∨ d = 28 ∨ d = 29 ∨ d = 30 ∨ d = 31 := by omega
    rcases hcase with h | h | h | h | h | h | h | h | h | h | h | h | h | h | h | h | h | h | h | h | h | h | h | h | h | h | h | h | h | h | h <;> subst h <;> decide +kernel
  have ea : applyKeyword s1 k = .ok s2 := by
    unfold applyKeyword
    rw [ks]
    simp only
    rw [if_pos (by omega), r3, hb]
    exact e4
  rw [ea]
  rfl

/-- The month, then. -/
theorem parse_month {m : Nat} {w rest : Str} {st : State} {gv : Given} (h3 : MonthWord m w) (hm : Ready st gv) (hp : gv.set .mon = .unset) (hr : NoAlpha rest) :
    ∃ st', parse st (w ++ rest) = parse st' rest ∧ Fresh st' (gv.add .mon m) .mon := by
  obtain ⟨hm12, kw⟩ := monthWord_keyword h3
  obtain ⟨k, kf, kv, ks, e3⟩ := parse_word kw st rest hr
  obtain ⟨s3, e5, f3⟩ := setField_means (f := .mon) (m : Int) hm.means hp
  refine ⟨s3, ?_, f3⟩
  have ea : applyKeyword st k = .ok s3 := by
    unfold applyKeyword
    rw [ks, kf, kv]
    simp only
    rw [if_neg hm.long]
    exact e5
  rw [e3, ea]
  rfl

theorem digits_head {n v : Nat} {s rest : Str} (h : Digits n v s) (hn : 0 < n) : ∀ x ∈ (s ++ rest).head?, isAlnum x = true := by
  intro x hx
  obtain ⟨c, l, e, hc⟩ := digits_begin (t := rest) (h.ne hn) h.2.1
  rw [e] at hx
  simp at hx
  rw [← hx]
  exact hc

/-- A gap and a year, after a month. -/
theorem parse_year {y : Nat} {h c rest : Str} {st : State} {gv : Given} (hy : 1970 ≤ y) (h4 : Gap h) (h5 : Digits 4 y c) (hm : Means st gv) (hdl : st.delim ≠ 64) (hp : gv.set .year = .unset) (hst : Stops rest) :
    ∃ st', parse st (h ++ (c ++ rest)) = parse st' rest ∧ Ready st' (gv.add .year y) := by
  obtain ⟨c1, hc1, e1⟩ := parse_gap st h (c ++ rest) h4 hdl (digits_head h5 (by omega))
  obtain ⟨s1, e2, r1, r2, r3, _⟩ := parse_number h5 (by omega) (by omega) (hm.delim c1) hc1 hst.digit hst.group
  refine ⟨s1, by rw [e1, e2], means_year r1 hp r2 r3 hy, by rw [r2]; decide⟩

theorem dateText_does {y m d : Nat} {s : Str} (hd : IsDay y m d) (h : DateText y m d s) : Does s NoDate (addDate y m d) := by
  obtain ⟨b1, b2, b3⟩ := isDay_bounds hd
  cases h with
  | yearFirst a b c h1 h2 h3 => exact date_groups y m d 45 a b c 4 2 2 y m d hd (by decide) (by decide) h1 h2 h3 (by omega) (by omega) (by omega) (by simp [dateFields])
  | dashes a b c h1 h2 h3 =>
    obtain ⟨n, v, h4, hn, e⟩ := h3.digits
    apply date_groups y m d 45 a b c 2 2 n d m v hd (by decide) (by decide) h1 h2 h4 (by omega) (by omega) (by omega)
    rcases hn with hn | hn <;> subst hn <;> simp [dateFields, e]
  | slashes a b c h1 h2 h3 =>
    obtain ⟨n, v, h4, hn, e⟩ := h3.digits
    obtain ⟨n1, k1, g1⟩ := h1.digits
    obtain ⟨n2, k2, g2⟩ := h2.digits
    apply date_groups y m d 47 a b c n1 n2 n m d v hd (by decide) (by decide) g1 g2 h4 (by omega) (by omega) (by omega)
    rcases hn with hn | hn <;> subst hn <;> rcases k1 with k | k <;> subst k <;> rcases k2 with k | k <;> subst k <;> simp [dateFields, e]
  | dots a b c h1 h2 h3 =>
    obtain ⟨n, v, h4, hn, e⟩ := h3.digits
    obtain ⟨n1, k1, g1⟩ := h1.digits
    obtain ⟨n2, k2, g2⟩ := h2.digits
    apply date_groups y m d 46 a b c n1 n2 n d m v hd (by decide) (by decide) g1 g2 h4 (by omega) (by omega) (by omega)
    rcases hn with hn | hn <;> subst hn <;> rcases k1 with k | k <;> subst k <;> rcases k2 with k | k <;> subst k <;> simp [dateFields, e]
  | plain _ h1 =>
    constructor
    · have := digits_begin (t := []) (h1.ne (by omega)) h1.2.1
      simpa using this
    · intro st g rest hm hp hdl hst
      obtain ⟨st', e, r1, r2, r3, _⟩ := parse_number h1 (by omega) (by omega) hm.means hdl hst.digit hst.group
      exact ⟨st', e, means_eight r1 hp r2 r3 hd, by rw [r2]; decide⟩
  | dayMonth a g w h c h1 h2 h3 h4 h5 =>
    obtain ⟨n1, k1, g1⟩ := h1.digits
    constructor
    · exact digits_begin (g1.ne (by omega)) g1.2.1
    · intro st gv rest hm hp hdl hst
      obtain ⟨p1, p2, p3⟩ := hp
      obtain ⟨s1, e1, f1⟩ := parse_dayMonth (rest := h ++ (c ++ rest)) b3 h1 h2 h3 hm.means p2 p3 hdl (noAlpha_gap h _ h4.1 (digits_noAlpha h5 (by omega)))
      obtain ⟨s2, e2, f2⟩ := parse_year b1 h4 h5 f1.means (by rw [f1.delim]; decide) (by rw [notSet (by decide), notSet (by decide)]; exact p1) hst
      refine ⟨s2, ?_, ?_⟩
      · have ea : a ++ (g ++ (w ++ (h ++ c))) ++ rest = a ++ (g ++ (w ++ (h ++ (c ++ rest)))) := by simp
        rw [ea, e1, e2]
      · unfold addDate
        rw [Given.add_comm gv .year .mon _ _ (by decide), Given.add_comm _ .year .mday _ _ (by decide), Given.add_comm gv .mon .mday _ _ (by decide)]
        exact f2
  | monthDay w g a h c h1 h2 h3 h4 h5 =>
    obtain ⟨n1, k1, g1⟩ := h3.digits
    obtain ⟨hm12, kw⟩ := monthWord_keyword h1
    constructor
    · exact word_begin kw.ne kw.alpha
    · intro st gv rest hm hp hdl hst
      obtain ⟨p1, p2, p3⟩ := hp
      obtain ⟨s1, e1, f1⟩ := parse_month (rest := g ++ (a ++ (h ++ (c ++ rest)))) h1 hm p2 (noAlpha_gap g _ h2.1 (digits_noAlpha g1 (by omega)))
      obtain ⟨c1, hc1, e2⟩ := parse_gap s1 g (a ++ (h ++ (c ++ rest))) h2 (by rw [f1.delim]; decide) (digits_head g1 (by omega))
      have hb := between_stops h (c ++ rest) h4
      obtain ⟨s2, e3, r1, r2, r3, _, r5, r6⟩ := parse_number g1 (by omega) (by omega) (f1.means.delim c1) hc1 hb.digit hb.group
      have hla : s2.last = some .mon := by
        rw [r5 f1.post]
        exact f1.last
      have hmd := means_mday r1 (by rw [notSet (by decide)]; exact p3) k1 r2 r3 hla b3
      obtain ⟨s3, e4, f3⟩ := parse_year b1 h4.1 h5 hmd r6 (by rw [notSet (by decide), notSet (by decide)]; exact p1) hst
      refine ⟨s3, ?_, ?_⟩
      · have ea : w ++ (g ++ (a ++ (h ++ c))) ++ rest = w ++ (g ++ (a ++ (h ++ (c ++ rest)))) := by simp
        rw [ea, e1, e2, e3, e4]
      · unfold addDate
        rw [Given.add_comm gv .year .mon _ _ (by decide), Given.add_comm _ .year .mday _ _ (by decide)]
        exact f3
  | ordinalMonth a o g w h c h1 h2 h3 hne h4 h5 h6 =>
    obtain ⟨n1, k1, g1⟩ := h1.digits
    obtain ⟨hm12, kw⟩ := monthWord_keyword h4
    constructor
    · exact digits_begin (g1.ne (by omega)) g1.2.1
    · intro st gv rest hm hp hdl hst
      obtain ⟨p1, p2, p3⟩ := hp
      have hgna : NoAlpha (g ++ (w ++ (h ++ (c ++ rest)))) := by
        obtain ⟨x, l, rfl⟩ := List.exists_cons_of_ne_nil hne
        intro z hz
        simp at hz
        rw [← hz]
        exact (not_alnum x (h3.1 x (by simp))).1
      obtain ⟨s1, e1, f1⟩ := parse_ordinal (rest := g ++ (w ++ (h ++ (c ++ rest)))) b3 h1 h2 hm.means p3 hdl hgna
      obtain ⟨c1, hc1, e2⟩ := parse_gap s1 g (w ++ (h ++ (c ++ rest))) h3 (by rw [f1.delim]; decide) (alnum_head (by
        have := word_begin (t := []) kw.ne kw.alpha
        simpa using this))
      obtain ⟨s2, e3, f2⟩ := parse_month (rest := h ++ (c ++ rest)) h4 (f1.ready.delim c1) (by rw [notSet (by decide)]; exact p2) (noAlpha_gap h _ h5.1 (digits_noAlpha h6 (by omega)))
      obtain ⟨s3, e4, f3⟩ := parse_year b1 h5 h6 f2.means (by rw [f2.delim]; decide) (by rw [notSet (by decide), notSet (by decide)]; exact p1) hst
      refine ⟨s3, ?_, ?_⟩
      · have ea : a ++ (o ++ (g ++ (w ++ (h ++ c)))) ++ rest = a ++ (o ++ (g ++ (w ++ (h ++ (c ++ rest))))) := by simp
        rw [ea, e1, e2, e3, e4]
      · unfold addDate
        rw [Given.add_comm gv .year .mon _ _ (by decide), Given.add_comm _ .year .mday _ _ (by decide), Given.add_comm gv .mon .mday _ _ (by decide)]
        exact f3
  | monthOrdinal w g a o h c h1 h2 h3 h4 h5 h6 =>
    obtain ⟨n1, k1, g1⟩ := h3.digits
    obtain ⟨hm12, kw⟩ := monthWord_keyword h1
    constructor
    · exact word_begin kw.ne kw.alpha
    · intro st gv rest hm hp hdl hst
      obtain ⟨p1, p2, p3⟩ := hp
      obtain ⟨s1, e1, f1⟩ := parse_month (rest := g ++ (a ++ (o ++ (h ++ (c ++ rest))))) h1 hm p2 (noAlpha_gap g _ h2.1 (digits_noAlpha g1 (by omega)))
      obtain ⟨c1, hc1, e2⟩ := parse_gap s1 g (a ++ (o ++ (h ++ (c ++ rest)))) h2 (by rw [f1.delim]; decide) (digits_head g1 (by omega))
      obtain ⟨s2, e3, f2⟩ := parse_ordinal (rest := h ++ (c ++ rest)) b3 h3 h4 (f1.means.delim c1) (by rw [notSet (by decide)]; exact p3) hc1 (noAlpha_gap h _ h5.1 (digits_noAlpha h6 (by omega)))
      obtain ⟨s3, e4, f3⟩ := parse_year b1 h5 h6 f2.means (by rw [f2.delim]; decide) (by rw [notSet (by decide), notSet (by decide)]; exact p1) hst
      refine ⟨s3, ?_, ?_⟩
      · have ea : w ++ (g ++ (a ++ (o ++ (h ++ c)))) ++ rest = w ++ (g ++ (a ++ (o ++ (h ++ (c ++ rest))))) := by simp
        rw [ea, e1, e2, e3, e4]
      · unfold addDate
        rw [Given.add_comm gv .year .mon _ _ (by decide), Given.add_comm _ .year .mday _ _ (by decide)]
        exact f3

theorem monthText_does {y m : Nat} {s : Str} (hy : 1970 ≤ y) (hm1 : 1 ≤ m ∧ m ≤ 12) (h : MonthText y m s) :
    Does s (fun g => g.set .year = .unset ∧ g.set .mon = .unset) (fun g => (g.add .year y).add .mon m) := by
  have two : ∀ (sep : UInt8) (a b : Str) (n1 n2 v1 v2 : Nat), isSep sep = true → isTimeSep sep = false → Digits n1 v1 a → Digits n2 v2 b → 0 < n1 ∧ n1 ≤ 4 → 0 < n2 ∧ n2 ≤ 4 →
      dateFields sep v1 v2 0 n1 n2 0 = some (some (y : Int), (m : Int), none) → Does (a ++ sep :: b) (fun g => g.set .year = .unset ∧ g.set .mon = .unset) (fun g => (g.add .year y).add .mon m) := by
    intro sep a b n1 n2 v1 v2 hs hsep h1 h2 k1 k2 hf
    constructor
    · exact digits_begin (h1.ne k1.1) h1.2.1
    · intro st g rest hr hp hdl hst
      rw [parse_two st sep a b rest hs (h1.ne k1.1) (h2.ne k2.1) h1.2.1 h2.2.1 hst.digit (fun d l e => hst.group sep d l e hs)]
      have hfree : Free g [(.year, (y : Int)), (.mon, (m : Int))] := ⟨hp.1, by rw [notSet (by decide)]; exact hp.2, trivial⟩
      obtain ⟨st', e, _, fr⟩ := setAll_means _ hr.means hfree
      refine ⟨st', ?_, (fr .mon (by simp)).ready⟩
      have eg : groups st sep a b [] = .ok st' := by
        unfold groups parseDate
        rw [hsep, h1.strtoul (by omega), h2.strtoul (by omega), h1.1, h2.1]
        have v1 : validYear (y : Int) = true := by simp [validYear]; omega
        have v2 : validMon (m : Int) = true := by simp [validMon]; omega
        have e0 : strtoul [] = 0 := by decide
        simp only [e0, List.length_nil, hf, Option.map_some, Option.map_none, Option.getD_some, Option.getD_none, v1, v2, Option.toList_some, Option.toList_none, Bool.and_self, if_true,
          Bool.false_eq_true, if_false, List.map_nil, List.append_nil, List.map_cons]
        exact e
      rw [eg]
      rfl
  cases h with
  | yearFirst a b h1 h2 => exact two 45 a b 4 2 y m (by decide) (by decide) h1 h2 (by omega) (by omega) (by simp [dateFields])
  | dash a b h1 h2 => exact two 45 a b 2 4 m y (by decide) (by decide) h1 h2 (by omega) (by omega) (by simp [dateFields])
  | slash a b h1 h2 =>
    obtain ⟨n1, k1, g1⟩ := h1.digits
    apply two 47 a b n1 4 m y (by decide) (by decide) g1 h2 (by omega) (by omega)
    rcases k1 with k | k <;> subst k <;> simp [dateFields]
  | name w g a h1 h2 h3 =>
    obtain ⟨hm12, kw⟩ := monthWord_keyword h1
    constructor
    · exact word_begin kw.ne kw.alpha
    · intro st gv rest hr hp hdl hst
      obtain ⟨s1, e1, f1⟩ := parse_month (rest := g ++ (a ++ rest)) h1 hr hp.2 (noAlpha_gap g _ h2.1 (digits_noAlpha h3 (by omega)))
      obtain ⟨s2, e2, f2⟩ := parse_year hy h2 h3 f1.means (by rw [f1.delim]; decide) (by rw [notSet (by decide)]; exact hp.1) hst
      refine ⟨s2, ?_, ?_⟩
      · have ea : w ++ (g ++ a) ++ rest = w ++ (g ++ (a ++ rest)) := by simp
        rw [ea, e1, e2]
      · rw [Given.add_comm gv .year .mon _ _ (by decide)]
        exact f2

/-! ## Times of the day -/

def NoTime (g : Given) : Prop := g.set .hour = .unset ∧ g.set .min = .unset ∧ g.set .sec = .unset

def addClock (h m : Nat) (s : Option Nat) (g : Given) : Given :=
  match s with
  | none => (g.add .hour h).add .min m
  | some s => ((g.add .hour h).add .min m).add .sec s

theorem clock_begin {h m : Nat} {so : Option Nat} {s : Str} (hc : ClockText h m so s) : ∃ c l, s = c :: l ∧ isAlnum c = true := by
  cases hc with
  | minutes a b h1 h2 =>
    obtain ⟨n1, k1, g1⟩ := h1.digits
    exact digits_begin (g1.ne (by omega)) g1.2.1
  | seconds s a b c h1 h2 h3 =>
    obtain ⟨n1, k1, g1⟩ := h1.digits
    exact digits_begin (g1.ne (by omega)) g1.2.1

theorem parse_clock {h m : Nat} {so : Option Nat} {s rest : Str} {st : State} {g : Given} (hc : ClockText h m so s) (hh : h ≤ 23) (hmi : m ≤ 59) (hse : ∀ x ∈ so, x ≤ 59)
    (hm : Means st g) (hp : NoTime g) (hr : NoDigit rest) (hr2 : ∀ d l, rest = 58 :: d :: l → isDigit d = false) :
    ∃ st' f, parse st (s ++ rest) = parse st' rest ∧ Fresh st' (addClock h m so g) f ∧ f ≠ .mon := by
  obtain ⟨p1, p2, p3⟩ := hp
  have hst : st.isSet .hour = false := by
    obtain ⟨s1, h1, h2⟩ := hm
    have := (parsePostponed_keeps (f := .hour) h1 (by rw [h2.1]; exact p1)).1
    simp [State.isSet, this]
  cases hc with
  | minutes a b h1 h2 =>
    obtain ⟨n1, k1, g1⟩ := h1.digits
    rw [parse_two st 58 a b rest (by decide) (g1.ne (by omega)) (h2.ne (by omega)) g1.2.1 h2.2.1 hr hr2]
    have hfree : Free g [(.hour, (h : Int)), (.min, (m : Int))] := ⟨p1, by rw [notSet (by decide)]; exact p2, trivial⟩
    obtain ⟨st', e, _, fr⟩ := setAll_means _ hm hfree
    refine ⟨st', .min, ?_, fr .min (by simp), by decide⟩
    have eg : groups st 58 a b [] = .ok st' := by
      unfold groups parseTime
      rw [g1.strtoul (by omega), h2.strtoul (by omega), g1.1, h2.1]
      have vt : validTime (h : Int) (m : Int) 0 = true := by simp [validTime]; omega
      have hn : ¬((n1 ≠ 1 ∧ n1 ≠ 2) ∨ (2 : Nat) ≠ 2 ∨ ((0 : Nat) ≠ 0 ∧ (0 : Nat) ≠ 2)) := by omega
      rw [if_pos (by decide), List.length_nil, if_neg hn]
      simp only [hst, Bool.false_eq_true, false_and, if_false, if_true, vt, Bool.not_true, List.append_nil]
      exact e
    rw [eg]
    rfl
  | seconds s a b c h1 h2 h3 =>
    obtain ⟨n1, k1, g1⟩ := h1.digits
    rw [parse_three st 58 a b c rest (by decide) (g1.ne (by omega)) (h2.ne (by omega)) (h3.ne (by omega)) g1.2.1 h2.2.1 h3.2.1 hr]
    have hfree : Free g [(.hour, (h : Int)), (.min, (m : Int)), (.sec, (s : Int))] :=
      ⟨p1, by rw [notSet (by decide)]; exact p2, by rw [notSet (by decide), notSet (by decide)]; exact p3, trivial⟩
    obtain ⟨st', e, _, fr⟩ := setAll_means _ hm hfree
    refine ⟨st', .sec, ?_, fr .sec (by simp), by decide⟩
    have hs9 := hse s rfl
    have eg : groups st 58 a b c = .ok st' := by
      unfold groups parseTime
      rw [g1.strtoul (by omega), h2.strtoul (by omega), h3.strtoul (by omega), g1.1, h2.1, h3.1]
      have vt : validTime (h : Int) (m : Int) (s : Int) = true := by simp [validTime]; omega
      have hn : ¬((n1 ≠ 1 ∧ n1 ≠ 2) ∨ (2 : Nat) ≠ 2 ∨ ((2 : Nat) ≠ 0 ∧ (2 : Nat) ≠ 2)) := by omega
      rw [if_pos (by decide), if_neg hn]
      have n2 : ¬((2 : Nat) = 0) := by omega
      simp only [hst, Bool.false_eq_true, false_and, if_false, if_neg n2, vt, Bool.not_true]
      exact e
    rw [eg]
    rfl

/-- The fields that a time gives. -/
def addTime (h m : Nat) (s : Option Nat) (half : Option Bool) (z : Option Int) (g : Given) : Given :=
  let g := addClock h m s g
  let g := match half with
    | none => g
    | some pm => g.add .ampm (if pm then 1 else 0)
  match z with
  | none => g
  | some z => g.add .tz z

def NoClock (g : Given) : Prop := NoTime g ∧ g.set .ampm = .unset ∧ g.set .tz = .unset

theorem addClock_other {h m : Nat} {s : Option Nat} {g : Given} {f : Field} (h1 : f ≠ .hour) (h2 : f ≠ .min) (h3 : f ≠ .sec) : (addClock h m s g).set f = g.set f := by
  cases s with
  | none => simp only [addClock]; rw [notSet h2, notSet h1]
  | some s => simp only [addClock]; rw [notSet h3, notSet h2, notSet h1]

/-- Noon and midnight. -/
theorem parse_daytime (h : Nat) {s rest : Str} {st : State} {g : Given} (kw : IsKeyword s .sec h .timeofday) (hm : Means st g) (hp : NoTime g) (ha : NoAlpha rest) :
    ∃ st' f, parse st (s ++ rest) = parse st' rest ∧ Fresh st' (addTime h 0 (some 0) none none g) f ∧ f ≠ .mon := by
  obtain ⟨p1, p2, p3⟩ := hp
  obtain ⟨k, kf, kv, ks, e3⟩ := parse_word kw st rest ha
  have hfree : Free g [(.hour, (h : Int)), (.min, 0), (.sec, 0)] := ⟨p1, by rw [notSet (by decide)]; exact p2, by rw [notSet (by decide), notSet (by decide)]; exact p3, trivial⟩
  obtain ⟨s2, e4, _, fr⟩ := setAll_means _ hm hfree
  refine ⟨s2, .sec, ?_, fr .sec (by simp), by decide⟩
  have ea : applyKeyword st k = .ok s2 := by
    unfold applyKeyword
    rw [ks, kv]
    exact e4
  rw [e3, ea]
  rfl

/-- After a time without a zone. -/
theorem parse_time {h m : Nat} {so : Option Nat} {half : Option Bool} {s rest : Str} {st : State} {g : Given} (ht : TimeText h m so half none s) (hv : IsTime h m so half)
    (hm : Means st g) (hp : NoClock g) (hdl : st.delim ≠ 64) (ha : NoAlpha rest) (hr : NoDigit rest) (hr2 : ∀ d l, rest = 58 :: d :: l → isDigit d = false) :
    ∃ st' f, parse st (s ++ rest) = parse st' rest ∧ Fresh st' (addTime h m so half none g) f ∧ f ≠ .mon := by
  obtain ⟨v1, v2, v3⟩ := hv
  cases ht with
  | plain a hc =>
    rw [if_pos rfl] at v1
    exact parse_clock hc v1 v2 v3 hm hp.1 hr hr2
  | half pm a gp b hc hg hb =>
    rw [if_neg (by simp)] at v1
    have kw := halfText_keyword hb
    have wn := word_next (rest := rest) kw
    obtain ⟨s1, f1, e1, r1, _⟩ := parse_clock (rest := gp ++ (b ++ rest)) hc (by omega) v2 v3 hm hp.1 (noDigit_gap gp _ hg.1 wn.1)
      (fun d l e => noGroup_gap gp _ hg.1 wn.1 wn.2 58 d l e (by decide))
    obtain ⟨c1, _, e2⟩ := parse_gap s1 gp (b ++ rest) hg (by rw [r1.delim]; decide) (alnum_head (by
      have := word_begin (t := []) kw.ne kw.alpha
      simpa using this))
    obtain ⟨k, kf, kv, ks, e3⟩ := parse_word kw { s1 with delim := c1 } rest ha
    obtain ⟨s3, e5, f3⟩ := setField_means (f := .ampm) (if pm then 1 else 0 : Int) (r1.means.delim c1) (by rw [addClock_other (by decide) (by decide) (by decide)]; exact hp.2.1)
    refine ⟨s3, .ampm, ?_, f3, by decide⟩
    have ea : applyKeyword { s1 with delim := c1 } k = .ok s3 := by
      unfold applyKeyword
      rw [ks, kf, kv]
      have hl : ¬(s1.postLen = 1 ∨ s1.postLen = 2) := by rw [r1.post]; decide
      simp only
      rw [if_neg hl]
      exact e5
    have ea2 : a ++ (gp ++ b) ++ rest = a ++ (gp ++ (b ++ rest)) := by simp
    rw [ea2, e1, e2, e3, ea]
    rfl
  | hour pm a gp b em es h1 hg hb =>
    subst em es
    rw [if_neg (by simp)] at v1
    obtain ⟨n1, k1, g1⟩ := h1.digits
    have kw := halfText_keyword hb
    have wn := word_next (rest := rest) kw
    obtain ⟨s1, e1, r1, r2, r3, _, _, r6⟩ := parse_number g1 (by omega) (by omega) hm hdl (noDigit_gap gp _ hg.1 wn.1) (noGroup_gap gp _ hg.1 wn.1 wn.2)
    obtain ⟨c1, _, e2⟩ := parse_gap s1 gp (b ++ rest) hg r6 (alnum_head (by
      have := word_begin (t := []) kw.ne kw.alpha
      simpa using this))
    obtain ⟨k, kf, kv, ks, e3⟩ := parse_word kw { s1 with delim := c1 } rest ha
    obtain ⟨⟨p1, p2, p3⟩, p4, _⟩ := hp
    have hfree : Free g [(.hour, (h : Int)), (.min, 0), (.sec, 0)] := ⟨p1, by rw [notSet (by decide)]; exact p2, by rw [notSet (by decide), notSet (by decide)]; exact p3, trivial⟩
    have hms : Means { s1 with delim := c1 }.consume g := Has.means r1 rfl
    obtain ⟨s2, e4, _, fr⟩ := setAll_means _ hms hfree
    obtain ⟨s3, e5, f3⟩ := setField_means (f := .ampm) (if pm then 1 else 0 : Int) (fr .sec (by simp)).means (by simp [Given.addAll, Given.add, put, p4])
    refine ⟨s3, .ampm, ?_, f3, by decide⟩
    have v12 : valid12Hour (h : Int) = true := by
      unfold valid12Hour
      simp only [decide_eq_true_eq]
      omega
    have ea : applyKeyword { s1 with delim := c1 } k = .ok s3 := by
      unfold applyKeyword
      rw [ks, kf, kv]
      have hl : s1.postLen = 1 ∨ s1.postLen = 2 := by omega
      simp only
      have e4' : setAll (State.consume { s1 with delim := c1, postVal := (h : Int) }) [(.hour, (h : Int)), (.min, 0), (.sec, 0)] = .ok s2 := e4
      rw [if_pos hl, r3, v12, if_pos rfl, e4']
      exact e5
    have ea2 : a ++ (gp ++ b) ++ rest = a ++ (gp ++ (b ++ rest)) := by simp
    rw [ea2, e1, e2, e3, ea]
    rfl
  | noon _ eh em es hw =>
    subst eh em es
    exact parse_daytime 12 (noonWord_keyword hw) hm hp.1 ha
  | midnight _ eh em es hw =>
    subst eh em es
    exact parse_daytime 0 (midnightWord_keyword hw) hm hp.1 ha

theorem time_begin {h m : Nat} {so : Option Nat} {half : Option Bool} {z : Option Int} {s : Str} (ht : TimeText h m so half z s) : ∃ c l, s = c :: l ∧ isAlnum c = true := by
  induction ht with
  | plain a hc => exact clock_begin hc
  | half pm a g b hc _ _ =>
    obtain ⟨c, l, e, hc⟩ := clock_begin hc
    exact ⟨c, l ++ (g ++ b), by rw [e]; rfl, hc⟩
  | hour pm a g b _ _ h1 _ _ =>
    obtain ⟨n1, k1, g1⟩ := h1.digits
    exact digits_begin (g1.ne (by omega)) g1.2.1
  | noon a _ _ _ hw =>
    have kw := noonWord_keyword hw
    have := word_begin (t := []) kw.ne kw.alpha
    simpa using this
  | midnight a _ _ _ hw =>
    have kw := midnightWord_keyword hw
    have := word_begin (t := []) kw.ne kw.alpha
    simpa using this
  | named pm z a g b _ _ _ _ ih =>
    obtain ⟨c, l, e, hc⟩ := ih
    exact ⟨c, l ++ (g ++ b), by rw [e]; rfl, hc⟩
  | zone pm z a g b _ _ _ ih =>
    obtain ⟨c, l, e, hc⟩ := ih
    exact ⟨c, l ++ (g ++ b), by rw [e]; rfl, hc⟩

theorem timeText_does {h m : Nat} {so : Option Nat} {half : Option Bool} {s : Str} (ht : TimeText h m so half none s) (hv : IsTime h m so half) : Does s NoClock (addTime h m so half none) := by
  refine ⟨time_begin ht, ?_⟩
  intro st g rest hr hp hdl hst
  obtain ⟨st', f, e, r, _⟩ := parse_time ht hv hr.means hp hdl hst.alpha hst.digit (fun d l e => hst.group 58 d l e (by decide))
  exact ⟨st', e, r.ready⟩

theorem userTz_ok (neg : Bool) (h m : Nat) (h1 : h ≤ 14) (h2 : m ≤ 59) (h3 : m % 15 = 0) :
    userTz (if neg then 45 else 43) (h : Int) (m : Int) = .ok (if neg then -(60 * h + m : Nat) else (60 * h + m : Nat)) := by
  unfold userTz
  rw [if_neg (by omega)]
  cases neg
  · simp
    omega
  · simp
    omega

/-- The hour and the minute are given by a time. -/
theorem addTime_set {h m : Nat} {s : Option Nat} {half : Option Bool} {g : Given} : (addTime h m s half none g).set .hour = .set ∧ (addTime h m s half none g).set .min = .set := by
  cases s <;> cases half <;> simp [addTime, addClock, Given.add, put]

theorem addTime_tz {h m : Nat} {s : Option Nat} {half : Option Bool} {g : Given} : (addTime h m s half none g).set .tz = g.set .tz := by
  cases s <;> cases half <;> simp [addTime, addClock, Given.add, put]

/-- A time and then the sign of a zone. -/
theorem parse_sign {h m : Nat} {so : Option Nat} {half : Option Bool} {a gp rest ds : Str} {st : State} {g : Given} (ht : TimeText h m so half none a) (hv : IsTime h m so half) (hr : Ready st g) (hp : NoClock g)
    (hdl : st.delim ≠ 64) (hg : ∀ c ∈ gp, isAlnum c = false) (neg : Bool) (hds : (∃ n v, Digits n v ds ∧ 0 < n) ∨ (∃ x l, ds = x :: l ∧ isAlnum x = true)) :
    ∃ s1 f, parse st ((a ++ (gp ++ ((if neg then 45 else 43) :: ds))) ++ rest) = parse { s1 with delim := if neg then 45 else 43 } (ds ++ rest) ∧ Fresh s1 (addTime h m so half none g) f ∧ f ≠ .mon := by
  have hb : ∃ x l, ds = x :: l ∧ isAlnum x = true := by
    rcases hds with ⟨n, v, hd, hn⟩ | k
    · have := digits_begin (t := []) (hd.ne hn) hd.2.1
      simpa using this
    · exact k
  have hsg : isAlnum (if neg then 45 else 43 : UInt8) = false := by cases neg <;> decide
  have hall : ∀ c ∈ gp ++ [(if neg then 45 else 43 : UInt8)], isAlnum c = false := by
    intro c hc
    rw [List.mem_append, List.mem_singleton] at hc
    rcases hc with hc | hc
    · exact hg c hc
    · rw [hc]
      exact hsg
  have esplit : (a ++ (gp ++ ((if neg then 45 else 43) :: ds))) ++ rest = a ++ ((gp ++ [(if neg then 45 else 43 : UInt8)]) ++ (ds ++ rest)) := by simp
  have hnd : NoDigit ((gp ++ [(if neg then 45 else 43 : UInt8)]) ++ (ds ++ rest)) := by
    intro x hx
    cases hgp : gp with
    | nil =>
      rw [hgp] at hx
      simp at hx
      rw [← hx]
      cases neg <;> decide
    | cons y l =>
      rw [hgp] at hx
      simp at hx
      rw [← hx]
      exact (not_alnum y (hg y (by rw [hgp]; simp))).2
  have hna : NoAlpha ((gp ++ [(if neg then 45 else 43 : UInt8)]) ++ (ds ++ rest)) := by
    intro x hx
    cases hgp : gp with
    | nil =>
      rw [hgp] at hx
      simp at hx
      rw [← hx]
      cases neg <;> decide
    | cons y l =>
      rw [hgp] at hx
      simp at hx
      rw [← hx]
      exact (not_alnum y (hg y (by rw [hgp]; simp))).1
  obtain ⟨s1, f, e1, r1, r2⟩ := parse_time ht hv hr.means hp hdl hna hnd (by
    intro d l e
    match hgp : gp with
    | [] =>
      simp at e
      cases neg <;> simp at e
    | [x] =>
      simp at e
      rw [← e.2.1]
      cases neg <;> decide
    | x :: y :: l' =>
      simp at e
      rw [← e.2.1]
      exact (not_alnum y (hg y (by simp))).2)
  refine ⟨s1, f, ?_, r1, r2⟩
  rw [esplit, e1, parse_delim s1 gp (ds ++ rest) _ hall (alnum_head hb)]

theorem zoneText_does {h m : Nat} {so : Option Nat} {half : Option Bool} {z : Option Int} {s : Str} (ht : TimeText h m so half z s) (hv : IsTime h m so half) : DoesLast s NoClock (addTime h m so half z) := by
  refine ⟨time_begin ht, ?_⟩
  intro st g rest hr hp hdl hst
  have hnone : ∀ (half : Option Bool) s, TimeText h m so half none s → IsTime h m so half → ∃ st', parse st (s ++ rest) = parse st' rest ∧ Means st' (addTime h m so half none g) := by
    intro half s ht hv
    obtain ⟨st', e, r⟩ := (timeText_does ht hv).does st g rest hr hp hdl hst
    exact ⟨st', e, r.means⟩
  cases ht with
  | plain _ hc => exact hnone _ _ (.plain _ hc) hv
  | half pm a gp b hc hg hb => exact hnone _ _ (.half pm a gp b hc hg hb) hv
  | hour pm a gp b em es h1 hg hb => exact hnone _ _ (.hour pm a gp b em es h1 hg hb) hv
  | noon _ a b c d => exact hnone _ _ (.noon _ a b c d) hv
  | midnight _ a b c d => exact hnone _ _ (.midnight _ a b c d) hv
  | named pm z a gp b ht hg hne hz =>
    have kw := zoneName_keyword hz
    have wn := word_next (rest := rest) kw
    have hgna : NoAlpha (gp ++ (b ++ rest)) := by
      obtain ⟨x, l, rfl⟩ := List.exists_cons_of_ne_nil hne
      intro z hz
      simp at hz
      rw [← hz]
      exact (not_alnum x (hg.1 x (by simp))).1
    have htz : (addTime h m so half .none g).set .tz = .unset := by rw [addTime_tz]; exact hp.2.2
    obtain ⟨s1, f1, e1, r1, _⟩ := parse_time (rest := gp ++ (b ++ rest)) ht hv hr.means hp hdl hgna (noDigit_gap gp _ hg.1 wn.1)
      (fun d l e => noGroup_gap gp _ hg.1 wn.1 wn.2 58 d l e (by decide))
    obtain ⟨c1, _, e2⟩ := parse_gap s1 gp (b ++ rest) hg (by rw [r1.delim]; decide) (alnum_head (by
      have := word_begin (t := []) kw.ne kw.alpha
      simpa using this))
    obtain ⟨k, kf, kv, ks, e3⟩ := parse_word kw { s1 with delim := c1 } rest hst.alpha
    obtain ⟨s3, e5, f3⟩ := setField_means (f := .tz) z (r1.means.delim c1) htz
    refine ⟨s3, ?_, f3.means⟩
    have ea : applyKeyword { s1 with delim := c1 } k = .ok s3 := by
      unfold applyKeyword
      rw [ks, kf, kv]
      exact e5
    have ea2 : a ++ (gp ++ b) ++ rest = a ++ (gp ++ (b ++ rest)) := by simp
    rw [ea2, e1, e2, e3, ea]
    rfl
  | zone pm z a gp b ht hg hz =>
    have sign := fun (neg : Bool) (ds : Str) hds => parse_sign (rest := rest) (ds := ds) ht hv hr hp hdl hg neg hds
    have htz : (addTime h m so half .none g).set .tz = .unset := by rw [addTime_tz]; exact hp.2.2
    have hset := addTime_set (h := h) (m := m) (s := so) (half := half) (g := g)
    cases hz with
    | colon neg zh zm za zb h1 h2 k1 k2 k3 =>
      obtain ⟨s1, f, e1, r1, _⟩ := sign neg (za ++ 58 :: zb) (Or.inr (digits_begin (h1.ne (by omega)) h1.2.1))
      generalize hs2 : ({ s1 with delim := if neg then 45 else 43 } : State) = s2 at e1
      have hm2 : Means s2 (addTime h m so half .none g) := by rw [← hs2]; exact r1.means.delim _
      have d2 : s2.delim = if neg then 45 else 43 := by rw [← hs2]
      have i1 : s2.isSet .hour = true := by
        rw [← hs2]
        show decide (s1.set .hour ≠ .unset) = true
        rw [r1.has.1, hset.1]
        decide
      have i2 : s2.isSet .min = true := by
        rw [← hs2]
        show decide (s1.set .min ≠ .unset) = true
        rw [r1.has.1, hset.2]
        decide
      obtain ⟨s3, e3, f3⟩ := setField_means (f := .tz) (if neg then -(60 * zh + zm : Nat) else (60 * zh + zm : Nat) : Int) hm2 htz
      refine ⟨s3, ?_, f3.means⟩
      rw [e1, parse_two s2 58 za zb rest (by decide) (h1.ne (by omega)) (h2.ne (by omega)) h1.2.1 h2.2.1 hst.digit (fun d l e => hst.group 58 d l e (by decide))]
      have eg : groups s2 58 za zb [] = .ok s3 := by
        unfold groups parseTime
        rw [h1.strtoul (by omega), h2.strtoul (by omega), h1.1, h2.1]
        rw [if_pos (by decide), List.length_nil, if_neg (by omega), if_pos ⟨i1, i2, rfl, rfl, rfl, by rw [d2]; cases neg <;> decide⟩, d2, userTz_ok neg zh zm k1 k2 k3]
        exact e3
      rw [eg]
      rfl
    | four neg zh zm za h1 k1 k2 k3 =>
      obtain ⟨s1, f, e1, r1, _⟩ := sign neg za (Or.inl ⟨_, _, h1, by omega⟩)
      generalize hs2 : ({ s1 with delim := if neg then 45 else 43 } : State) = s2 at e1
      have hm2 : Means s2 (addTime h m so half .none g) := by rw [← hs2]; exact r1.means.delim _
      have d2 : s2.delim = if neg then 45 else 43 := by rw [← hs2]
      obtain ⟨s3, e3, q1, q2, q3, q4, _⟩ := parse_number h1 (by omega) (by omega) hm2 (by rw [d2]; cases neg <;> decide) hst.digit hst.group
      refine ⟨s3, by rw [e1, e3], ?_⟩
      apply means_post [(.tz, (if neg then -(60 * zh + zm : Nat) else (60 * zh + zm : Nat) : Int))] q1 (by simp) ⟨htz, trivial⟩
      unfold parsePostponed
      have y1 : validYear ((100 * zh + zm : Nat) : Int) = false := by simp [validYear]; omega
      have ed : ((100 * zh + zm : Nat) : Int) / 100 = zh := by omega
      have em : ((100 * zh + zm : Nat) : Int) % 100 = zm := by omega
      simp only [q2, q3, q4, d2, y1, ed, em, userTz_ok neg zh zm k1 k2 k3]
      have hsg : (if neg then 45 else 43 : UInt8) = 43 ∨ (if neg then 45 else 43 : UInt8) = 45 := by cases neg <;> decide
      rw [if_neg (by decide), if_neg (by decide), if_pos (by decide), if_pos (by decide), if_pos hsg]
      simp only [Except.bind, setAll0]
      cases setField0 s3.consume .tz _ <;> rfl
    | two neg zh za h1 k1 =>
      obtain ⟨s1, f, e1, r1, hf⟩ := sign neg za (Or.inl ⟨_, _, h1, by omega⟩)
      generalize hs2 : ({ s1 with delim := if neg then 45 else 43 } : State) = s2 at e1
      have hm2 : Means s2 (addTime h m so half .none g) := by rw [← hs2]; exact r1.means.delim _
      have d2 : s2.delim = if neg then 45 else 43 := by rw [← hs2]
      have p2 : s2.postLen = 0 := by rw [← hs2]; exact r1.post
      have l2 : s2.last = some f := by rw [← hs2]; exact r1.last
      obtain ⟨s3, e3, q1, q2, q3, q4, q5, _⟩ := parse_number h1 (by omega) (by omega) hm2 (by rw [d2]; cases neg <;> decide) hst.digit hst.group
      refine ⟨s3, by rw [e1, e3], ?_⟩
      apply means_post [(.tz, (if neg then -(60 * zh : Nat) else (60 * zh : Nat) : Int))] q1 (by simp) ⟨htz, trivial⟩
      have l3 : ¬(s3.consume.last = some .mon) := by
        show ¬(s3.last = some .mon)
        rw [q5 p2, l2]
        intro e
        exact hf (Option.some.inj e)
      have ez : userTz (if neg then 45 else 43) (zh : Int) 0 = .ok (if neg then -(60 * zh : Nat) else (60 * zh : Nat) : Int) := by
        have := userTz_ok neg zh 0 k1 (by omega) (by omega)
        simpa using this
      unfold parsePostponed
      simp only [q2, q3, q4, d2, ez]
      have hsg : ((2 : Nat) : Int) = 2 ∧ ((if neg then 45 else 43 : UInt8) = 43 ∨ (if neg then 45 else 43 : UInt8) = 45) := ⟨rfl, by cases neg <;> decide⟩
      rw [if_neg (by decide), if_pos (by decide), if_neg l3, if_pos hsg]
      simp only [Except.bind, setAll0]
      cases setField0 s3.consume .tz _ <;> rfl

/-! ## How long ago -/

theorem addToField_has {st : State} {g : Given} {f : Field} {v : Int} (h : Has st g) (h0 : st.postLen = 0) (hv : inInt (g.tm f + v) = true) :
    ∃ st', addToField st f v = .ok st' ∧ Fresh st' (g.add f (g.tm f + v)) f := by
  unfold addToField
  have e : parsePostponed { st with set := put st.set f .set } = .ok { st with set := put st.set f .set } := parsePostponed_clean h0
  rw [e]
  have hv2 : inInt (st.tm f + v) = true := by rw [h.2]; exact hv
  simp only [Except.bind, hv2, if_true]
  refine ⟨_, rfl, ⟨⟨?_, ?_⟩, h0, rfl, rfl⟩⟩
  · simp only [Given.add, h.1]
  · simp only [Given.add, h.2]

/-- What the text does where no number is postponed. -/
structure Adds (text : Str) (P : Given → Prop) (U : Given → Given) : Prop where
  begins : ∃ c l, text = c :: l ∧ isAlnum c = true
  does : ∀ (st : State) (g : Given) (rest : Str), Has st g → st.postLen = 0 → P g → st.delim ≠ 64 → Stops rest → ∃ st', parse st (text ++ rest) = parse st' rest ∧ Has st' (U g) ∧ st'.postLen = 0

theorem Adds.seq {t1 t2 gap : Str} {P1 P2 : Given → Prop} {U1 U2 : Given → Given} (h1 : Adds t1 P1 U1) (hg : Between gap) (h2 : Adds t2 P2 U2) :
    Adds (t1 ++ (gap ++ t2)) (fun g => P1 g ∧ P2 (U1 g)) (fun g => U2 (U1 g)) := by
  constructor
  · obtain ⟨c, l, e, hc⟩ := h1.begins
    exact ⟨c, l ++ (gap ++ t2), by rw [e]; rfl, hc⟩
  · intro st g rest hm h0 hp hd hs
    obtain ⟨s1, e1, m1, p1⟩ := h1.does st g (gap ++ (t2 ++ rest)) hm h0 hp.1 hd (between_stops gap _ hg)
    have hne := hg.2.1
    rcases List.eq_nil_or_concat gap with h | ⟨l, c, h⟩
    · exact absurd h hne
    · rw [List.concat_eq_append] at h
      have hc : c ≠ 64 := by
        apply hg.1.2
        rw [h]
        simp
      have e2 : parse s1 (gap ++ (t2 ++ rest)) = parse { s1 with delim := c } (t2 ++ rest) := by
        rw [h, parse_delim s1 l (t2 ++ rest) c (by rw [← h]; exact hg.1.1) (alnum_head h2.begins)]
      obtain ⟨s2, e3, m2⟩ := h2.does { s1 with delim := c } (U1 g) rest m1 p1 hp.2 hc hs
      exact ⟨s2, by rw [List.append_assoc, List.append_assoc, e1, e2, e3], m2⟩

theorem Adds.parse {text : Str} {P : Given → Prop} {U : Given → Given} (h : Adds text P U) (hp : P Given.none) : ∃ st, parse .init text = .ok st ∧ Has st (U Given.none) ∧ st.postLen = 0 := by
  obtain ⟨s1, e, m1, m2⟩ := h.does .init Given.none [] ⟨rfl, rfl⟩ rfl hp (by decide) stops_nil
  rw [List.append_nil, parse_nil, parsePostponed_clean m2] at e
  exact ⟨s1, e, m1, m2⟩

/-- An amount is added. -/
def addAmount (g : Given) (p : Nat × TimeUnit) : Given := g.add (unitField p.2) (g.tm (unitField p.2) + p.1)

theorem apply_rel {st : State} {k : Keyword} {g : Given} {n : Nat} {u : TimeUnit} (h : Has st g) (hl : st.postLen ≠ 0) (hv : st.postVal = n) (kf : k.field = unitField u) (kv : k.value = 1) (ks : k.set = .rel)
    (hi : inInt (g.tm (unitField u) + n) = true) : ∃ st', applyKeyword st k = .ok st' ∧ Fresh st' (addAmount g (n, u)) (unitField u) := by
  obtain ⟨st', e, f⟩ := addToField_has (st := st.consume) (g := g) (f := unitField u) (v := n) h rfl hi
  refine ⟨st', ?_, f⟩
  unfold applyKeyword
  rw [ks, kf, kv, hv]
  simp only
  rw [if_neg hl, Int.mul_one]
  exact e

theorem apply_alone {st : State} {k : Keyword} {g : Given} {u : TimeUnit} (h : Has st g) (hl : st.postLen = 0) (kf : k.field = unitField u) (kv : k.value = 1) (ks : k.set = .rel)
    (hi : inInt (g.tm (unitField u) + (1 : Nat)) = true) : ∃ st', applyKeyword st k = .ok st' ∧ Fresh st' (addAmount g (1, u)) (unitField u) := by
  obtain ⟨st', e, f⟩ := addToField_has (st := st.consume) (g := g) (f := unitField u) (v := (1 : Nat)) h rfl hi
  refine ⟨st', ?_, f⟩
  unfold applyKeyword
  rw [ks, kf, kv]
  simp only
  rw [if_pos hl]
  exact e

theorem alone_does {u : TimeUnit} {w : Str} (kw : IsKeyword w (unitField u) 1 .rel) : Adds w (fun g => inInt (g.tm (unitField u) + (1 : Nat)) = true) (fun g => addAmount g (1, u)) := by
  constructor
  · have := word_begin (t := []) kw.ne kw.alpha
    simpa using this
  · intro st g rest hr h0 hp hdl hst
    obtain ⟨k, kf, kv, ks, e3⟩ := parse_word kw st rest hst.alpha
    obtain ⟨s2, e4, f2⟩ := apply_alone hr h0 kf kv ks hp
    refine ⟨s2, ?_, f2.has, f2.post⟩
    rw [e3, e4]
    rfl

theorem amount_does {n : Nat} {u : TimeUnit} {s : Str} (h : AmountText n u s) : Adds s (fun g => inInt (g.tm (unitField u) + n) = true) (fun g => addAmount g (n, u)) := by
  cases h with
  | digits a gp w ha hd hv hn hg hu =>
    have kw := unitWord_keyword hu
    constructor
    · exact digits_begin ha hd
    · intro st g rest hr h0 hp hdl hst
      have wn := word_next (rest := rest) kw
      obtain ⟨s1, e1, r1, r2, r3, _, _, r6⟩ := singleNumber_means st g n a.length (hr.means h0) hdl hn
      have e0 : strtoul a = n := by rw [strtoul_eq a (by rw [hv]; omega), hv]
      obtain ⟨c1, _, e2⟩ := parse_gap s1 gp (w ++ rest) hg r6 (alnum_head (by
        have := word_begin (t := []) kw.ne kw.alpha
        simpa using this))
      obtain ⟨k, kf, kv, ks, e3⟩ := parse_word kw { s1 with delim := c1 } rest hst.alpha
      have hlen : a.length ≠ 0 := by
        intro e
        exact ha (List.length_eq_zero_iff.1 e)
      obtain ⟨s2, e4, f2⟩ := apply_rel (st := { s1 with delim := c1 }) (k := k) (g := g) (n := n) (u := u) r1 (by show s1.postLen ≠ 0; omega) r3 kf kv ks hp
      refine ⟨s2, ?_, f2.has, f2.post⟩
      have ea : a ++ (gp ++ w) ++ rest = a ++ (gp ++ (w ++ rest)) := by simp
      rw [ea, parse_single st a _ ha hd (noDigit_gap gp _ hg.1 wn.1) (noGroup_gap gp _ hg.1 wn.1 wn.2), e0, e1]
      show parse s1 _ = _
      rw [e2, e3, e4]
      rfl
  | word a gp w ha hg hne hu =>
    have kw := unitWord_keyword hu
    obtain ⟨nf, kn⟩ := numberWord_keyword ha
    constructor
    · exact word_begin kn.ne kn.alpha
    · intro st g rest hr h0 hp hdl hst
      have hgna : NoAlpha (gp ++ (w ++ rest)) := by
        obtain ⟨x, l, rfl⟩ := List.exists_cons_of_ne_nil hne
        intro z hz
        simp at hz
        rw [← hz]
        exact (not_alnum x (hg.1 x (by simp))).1
      obtain ⟨k0, _, kv0, ks0, e0⟩ := parse_word kn st (gp ++ (w ++ rest)) hgna
      obtain ⟨s1, e1, r1, r2, r3, _, _, r6⟩ := postpone_means (n : Int) (-1) (hr.means h0)
      obtain ⟨c1, _, e2⟩ := parse_gap s1 gp (w ++ rest) hg (r6 hdl) (alnum_head (by
        have := word_begin (t := []) kw.ne kw.alpha
        simpa using this))
      obtain ⟨k, kf, kv, ks, e3⟩ := parse_word kw { s1 with delim := c1 } rest hst.alpha
      obtain ⟨s2, e4, f2⟩ := apply_rel (st := { s1 with delim := c1 }) (k := k) (g := g) (n := n) (u := u) r1 (by show s1.postLen ≠ 0; omega) r3 kf kv ks hp
      refine ⟨s2, ?_, f2.has, f2.post⟩
      have ea : a ++ (gp ++ w) ++ rest = a ++ (gp ++ (w ++ rest)) := by simp
      have eap : applyKeyword st k0 = .ok s1 := by
        unfold applyKeyword
        rw [ks0, kv0]
        exact e1
      rw [ea, e0, eap]
      show parse s1 _ = _
      rw [e2, e3, e4]
      rfl
  | alone _ hn hu =>
    subst hn
    exact alone_does (unitWord_keyword hu)
  | yesterday _ hn hu hw =>
    subst hn hu
    exact alone_does (yesterdayWord_keyword hw)

theorem ago_does {s : Str} (h : s.map toLower = bs "ago") : Adds s (fun _ => True) (fun g => g) := by
  have kw := agoWord_keyword h
  constructor
  · have := word_begin (t := []) kw.ne kw.alpha
    simpa using this
  · intro st g rest hr h0 _ _ hst
    obtain ⟨k, _, _, ks, e⟩ := parse_word kw st rest hst.alpha
    refine ⟨st, ?_, hr, h0⟩
    have : applyKeyword st k = .ok st := by
      unfold applyKeyword
      rw [ks]
    rw [e, this]
    rfl

/-- All amounts are added. -/
def addAmounts (l : List (Nat × TimeUnit)) (g : Given) : Given := l.foldl addAmount g

/-- None of the sums is too large. -/
def SmallSums (l : List (Nat × TimeUnit)) (g : Given) : Prop := ∀ u, 0 ≤ g.tm (unitField u) ∧ g.tm (unitField u) + total l u < 2 ^ 31

theorem unitField_inj {u v : TimeUnit} (h : unitField u = unitField v) : u = v := by
  cases u <;> cases v <;> first | rfl | cases h

theorem total_append (l : List (Nat × TimeUnit)) (n : Nat) (u v : TimeUnit) : total (l ++ [(n, u)]) v = total l v + if u = v then n else 0 := by
  have key : ∀ (a b : List Nat), (a ++ b).foldr (· + ·) 0 = a.foldr (· + ·) 0 + b.foldr (· + ·) 0 := by
    intro a b
    induction a with
    | nil => simp
    | cons x a ih => simp [ih]; omega
  unfold total
  rw [List.filter_append, List.map_append, key]
  by_cases h : u = v
  · simp [h]
  · have : (u == v) = false := by simp [h]
    simp [this, h]

theorem addAmounts_tm (l : List (Nat × TimeUnit)) (u : TimeUnit) : ∀ g : Given, (addAmounts l g).tm (unitField u) = g.tm (unitField u) + total l u := by
  induction l with
  | nil => intro g; simp [addAmounts, total]
  | cons p l ih =>
    intro g
    obtain ⟨n, v⟩ := p
    show (addAmounts l (addAmount g (n, v))).tm (unitField u) = _
    rw [ih]
    have ht : total ((n, v) :: l) u = (if v = u then n else 0) + total l u := by
      unfold total
      by_cases h : v = u
      · simp [h]
      · have : (v == u) = false := by simp [h]
        simp [this, h]
    rw [ht]
    by_cases h : v = u
    · rw [if_pos h, ← h]
      simp only [addAmount, Given.add, put_same]
      omega
    · rw [if_neg h]
      have hne : unitField u ≠ unitField v := fun e => h (unitField_inj e).symm
      simp only [addAmount, Given.add, put_other _ _ _ _ hne]
      omega

theorem addAmounts_set (l : List (Nat × TimeUnit)) (f : Field) : ∀ g : Given, (addAmounts l g).set f = if f ∈ l.map (fun p => unitField p.2) then .set else g.set f := by
  induction l with
  | nil => intro g; simp [addAmounts]
  | cons p l ih =>
    intro g
    show (addAmounts l (addAmount g p)).set f = _
    rw [ih]
    by_cases h1 : f ∈ l.map (fun p => unitField p.2)
    · rw [if_pos h1, if_pos (by simp only [List.map_cons, List.mem_cons]; exact Or.inr h1)]
    · rw [if_neg h1]
      by_cases h2 : f = unitField p.2
      · rw [if_pos (by simp [h2]), h2]
        exact put_same _ _ _
      · rw [if_neg (by simp only [List.map_cons, List.mem_cons, not_or]; exact ⟨h2, h1⟩)]
        exact put_other _ _ _ _ h2

theorem addAmounts_other (l : List (Nat × TimeUnit)) (f : Field) (h : ∀ u, f ≠ unitField u) : ∀ g : Given, (addAmounts l g).tm f = g.tm f := by
  induction l with
  | nil => intro g; rfl
  | cons p l ih =>
    intro g
    show (addAmounts l (addAmount g p)).tm f = _
    rw [ih]
    exact put_other _ _ _ _ (h p.2)

theorem amounts_does {l : List (Nat × TimeUnit)} {s : Str} (h : AmountsText l s) : Adds s (SmallSums l) (addAmounts l) := by
  induction h with
  | one n u s h =>
    have d := amount_does h
    refine ⟨d.begins, ?_⟩
    intro st g rest hr h0 hp hdl hst
    refine d.does st g rest hr h0 ?_ hdl hst
    have := hp u
    have e := total_append [] n u u
    rw [List.nil_append, if_pos rfl, show total [] u = 0 from rfl] at e
    rw [e] at this
    simp [inInt]
    omega
  | more l n u s g t hs hg ht ih =>
    have d := Adds.seq ih hg (amount_does ht)
    refine ⟨d.begins, ?_⟩
    intro st gv rest hr h0 hp hdl hst
    have hsm : SmallSums l gv := by
      intro v
      have := hp v
      rw [total_append] at this
      omega
    have hin : inInt ((addAmounts l gv).tm (unitField u) + n) = true := by
      have := hp u
      rw [total_append, if_pos rfl] at this
      rw [addAmounts_tm]
      simp [inInt]
      omega
    obtain ⟨st', e, r⟩ := d.does st gv rest hr h0 ⟨hsm, hin⟩ hdl hst
    refine ⟨st', e, ?_⟩
    have : addAmounts (l ++ [(n, u)]) gv = addAmount (addAmounts l gv) (n, u) := by simp [addAmounts, List.foldl_append]
    rw [this]
    exact r
  | ago l s g t hs hg ht ih =>
    have d := Adds.seq ih hg (ago_does ht)
    refine ⟨d.begins, ?_⟩
    intro st gv rest hr h0 hp hdl hst
    exact d.does st gv rest hr h0 ⟨hp, trivial⟩ hdl hst

theorem dayWord_does {n : Nat} {w : Str} (h : DayWord n w) : Does w (fun g => g.set .wday = .unset) (fun g => g.add .wday n) := by
  obtain ⟨_, kw⟩ := dayWord_keyword h
  constructor
  · have := word_begin (t := []) kw.ne kw.alpha
    simpa using this
  · intro st g rest hr hp _ hst
    obtain ⟨k, kf, kv, ks, e⟩ := parse_word kw st rest hst.alpha
    obtain ⟨s1, e1, f1⟩ := setField_means (f := .wday) (n : Int) hr.means hp
    refine ⟨s1, ?_, f1.ready⟩
    have : applyKeyword st k = .ok s1 := by
      unfold applyKeyword
      rw [ks, kf, kv]
      exact e1
    rw [e, this]
    rfl

end Notmuch.Time
