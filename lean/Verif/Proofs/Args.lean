import Verif.Spec.Args

/-! # Proofs: command line options (C53) -/

namespace Notmuch.Args

theorem findKeyword_iff (k : Keywords) (s : Str) (i : Int) : findKeyword k s = some i ↔ First k.list s i := by
  unfold findKeyword First
  rw [Option.map_eq_some_iff]
  constructor
  · rintro ⟨p, hp, rfl⟩
    rw [List.find?_eq_some_iff_append] at hp
    obtain ⟨h1, a, b, h2, h3⟩ := hp
    have h1 : p.1 = s := by simpa using h1
    subst h1
    exact ⟨a, b, h2, fun q hq => by simpa using h3 q hq⟩
  · rintro ⟨a, b, h1, h2⟩
    refine ⟨(s, i), ?_, rfl⟩
    rw [List.find?_eq_some_iff_append]
    exact ⟨by simp, a, b, h1, fun q hq => by simpa using h2 q hq⟩

theorem findKeyword_none (k : Keywords) (s : Str) : findKeyword k s = none ↔ ∀ i, (s, i) ∉ k.list := by
  unfold findKeyword
  rw [Option.map_eq_none_iff, List.find?_eq_none]
  constructor
  · intro h i hi
    simpa using h _ hi
  · rintro h ⟨a, i⟩ hi heq
    have heq : a = s := by simpa using heq
    subst heq
    exact h i hi

theorem toInt_iff (n i : Int) : i = toInt n ↔ -2 ^ 31 ≤ i ∧ i < 2 ^ 31 ∧ (2 ^ 32 : Int) ∣ n - i := by
  unfold toInt
  show i = (n + 2147483648) % 4294967296 - 2147483648 ↔ -2147483648 ≤ i ∧ i < 2147483648 ∧ (4294967296 : Int) ∣ n - i
  omega

theorem space_not_digit : ∀ c : UInt8, isDigit c = true → isSpace c = false ∧ c ≠ 45 ∧ c ≠ 43 := by
  apply forall_byte
  decide +kernel

theorem dropWhile_all {p : UInt8 → Bool} {a b : Str} (ha : ∀ c ∈ a, p c = true) (hb : ∀ c ∈ b.head?, p c = false) : (a ++ b).dropWhile p = b := by
  rw [List.dropWhile_append_of_pos ha]
  cases b with
  | nil => rfl
  | cons x b => rw [List.dropWhile_cons, if_neg (by simp [hb x rfl])]

theorem takeWhile_all' {p : UInt8 → Bool} {a : Str} (ha : ∀ c ∈ a, p c = true) : a.takeWhile p = a ∧ a.dropWhile p = [] := by
  constructor
  · have := List.takeWhile_append_of_pos (l₂ := []) ha
    simpa using this
  · have := List.dropWhile_append_of_pos (l₂ := []) ha
    simpa using this

/-- The parts of a numeral. -/
theorem strtol_eq {blanks sign digits : Str} (hb : ∀ c ∈ blanks, isSpace c = true) (hs : sign ∈ [[], bs "+", bs "-"]) (hd : ∀ c ∈ digits, isDigit c = true) (h0 : digits ≠ []) :
    strtol (blanks ++ sign ++ digits) = (max (-2 ^ 63) (min (2 ^ 63 - 1) (if sign = bs "-" then -(decVal digits : Int) else decVal digits)), []) := by
  obtain ⟨d, l, rfl⟩ := List.exists_cons_of_ne_nil h0
  have hd0 := space_not_digit d (hd d (by simp))
  have htw := takeWhile_all' hd
  have hskip : skipSpace (blanks ++ sign ++ d :: l) = sign ++ d :: l := by
    unfold skipSpace
    rw [List.append_assoc]
    apply dropWhile_all hb
    simp only [List.mem_cons, List.not_mem_nil, or_false] at hs
    rcases hs with rfl | rfl | rfl
    · intro c hc
      injection hc with hc
      subst hc
      exact hd0.1
    · intro c hc
      injection hc with hc
      subst hc
      rfl
    · intro c hc
      injection hc with hc
      subst hc
      rfl
  unfold strtol
  simp only [hskip]
  simp only [List.mem_cons, List.not_mem_nil, or_false] at hs
  have hne : ¬(([] : Str) = bs "-") := by decide +kernel
  have hne2 : ¬(bs "+" = bs "-") := by decide +kernel
  rcases hs with rfl | rfl | rfl
  · have h1 : ¬(([] ++ d :: l : Str).head? = some 45 ∨ ([] ++ d :: l : Str).head? = some 43) := by
      simp [hd0.2.1, hd0.2.2]
    have h2 : ¬(([] ++ d :: l : Str).head? = some 45) := fun h => h1 (Or.inl h)
    rw [if_neg h1, if_neg h2, List.nil_append, htw.1, if_neg (by simp), htw.2, if_neg hne]
    rfl
  · have h1 : ((bs "+" ++ d :: l : Str).head? = some 45 ∨ (bs "+" ++ d :: l : Str).head? = some 43) := Or.inr rfl
    have h2 : ¬((bs "+" ++ d :: l : Str).head? = some 45) := by
      show ¬(some 43 = some 45)
      decide
    have h3 : (bs "+" ++ d :: l : Str).tail = d :: l := rfl
    rw [if_pos h1, if_neg h2, h3, htw.1, if_neg (by simp), htw.2, if_neg hne2]
    rfl
  · have h1 : ((bs "-" ++ d :: l : Str).head? = some 45 ∨ (bs "-" ++ d :: l : Str).head? = some 43) := Or.inl rfl
    have h2 : ((bs "-" ++ d :: l : Str).head? = some 45) := rfl
    have h3 : (bs "-" ++ d :: l : Str).tail = d :: l := rfl
    rw [if_pos h1, if_pos h2, h3, htw.1, if_neg (by simp), htw.2, if_pos rfl]
    rfl

theorem number_iff (s : Str) (i : Int) : Number s i ↔ (s ≠ [] ∧ (strtol s).2 = [] ∧ i = toInt (strtol s).1) := by
  constructor
  · rintro ⟨bl, sg, ds, rfl, hb, hs, h0, hd, h1, h2, n, hn, h3⟩
    rw [strtol_eq hb hs hd h0]
    refine ⟨by simp [h0], rfl, ?_⟩
    rw [toInt_iff]
    rw [← hn]
    exact ⟨h1, h2, h3⟩
  · rintro ⟨hs, hr, hi⟩
    have key : ∃ blanks sign digits : Str, s = blanks ++ sign ++ digits ∧ (∀ c ∈ blanks, isSpace c = true) ∧ sign ∈ [[], bs "+", bs "-"] ∧ digits ≠ [] ∧ (∀ c ∈ digits, isDigit c = true) := by
      let t := skipSpace s
      let u := if t.head? = some 45 ∨ t.head? = some 43 then t.tail else t
      have hr' : (if u.takeWhile isDigit = [] then ((0 : Int), s) else (max (-2 ^ 63) (min (2 ^ 63 - 1) (if t.head? = some 45 then -((u.takeWhile isDigit).foldl (fun (n : Nat) c => 10 * n + (c.toNat - 48)) 0 : Nat) else ((u.takeWhile isDigit).foldl (fun (n : Nat) c => 10 * n + (c.toNat - 48)) 0 : Nat))), u.dropWhile isDigit)).2 = [] := hr
      have hst : s = s.takeWhile isSpace ++ t := (List.takeWhile_append_dropWhile).symm
      have hut : ∃ sg ∈ [[], bs "+", bs "-"], t = sg ++ u := by
        show ∃ sg ∈ [[], bs "+", bs "-"], t = sg ++ (if t.head? = some 45 ∨ t.head? = some 43 then t.tail else t)
        by_cases h : t.head? = some 45 ∨ t.head? = some 43
        · rw [if_pos h]
          cases ht : t with
          | nil => rw [ht] at h; simp at h
          | cons c l =>
            rw [ht] at h
            rcases h with h | h
            · injection h with h
              subst h
              exact ⟨bs "-", by simp, rfl⟩
            · injection h with h
              subst h
              exact ⟨bs "+", by simp, rfl⟩
        · rw [if_neg h]
          exact ⟨[], by simp, rfl⟩
      by_cases hds : u.takeWhile isDigit = []
      · rw [if_pos hds] at hr'
        exact absurd hr' hs
      · rw [if_neg hds] at hr'
        have hu : u = u.takeWhile isDigit := by
          have h := List.takeWhile_append_dropWhile (p := isDigit) (l := u)
          rw [show u.dropWhile isDigit = [] from hr', List.append_nil] at h
          exact h.symm
        obtain ⟨sg, hsg, htu⟩ := hut
        refine ⟨s.takeWhile isSpace, sg, u.takeWhile isDigit, ?_, ?_, hsg, hds, ?_⟩
        · rw [← hu, List.append_assoc, ← htu]
          exact hst
        · intro c hc
          exact List.all_eq_true.1 (List.all_takeWhile (p := _) (l := _)) c hc
        · intro c hc
          exact List.all_eq_true.1 (List.all_takeWhile (p := _) (l := _)) c hc
    obtain ⟨bl, sg, ds, rfl, hb, hsg, h0, hd⟩ := key
    rw [strtol_eq hb hsg hd h0] at hi
    obtain ⟨h1, h2, h3⟩ := (toInt_iff _ _).1 hi
    exact ⟨bl, sg, ds, rfl, hb, hsg, h0, hd, h1, h2, _, rfl, h3⟩

/-- Arguments that have a value. -/
theorem process_ok {e : Entry} {next : Next} (hn : next ≠ .none) (v : Str) (neg : Bool) (ws : List Write) :
    process e next v neg = (.ok, ws) ↔ ∃ w, ws = [w] ∧ Sets e neg (some v) w := by
  unfold process
  cases hk : e.kind with
  | bool =>
    show processBool e.var next v neg = _ ↔ _
    unfold processBool
    constructor
    · intro h
      split at h
      · rename_i hc
        rcases hc with hc | hc
        · exact absurd hc hn
        · injection h with _ h
          subst hc h
          exact ⟨_, rfl, .isTrue hk⟩
      · split at h
        · rename_i hc
          injection h with _ h
          subst hc h
          exact ⟨_, rfl, .isFalse hk⟩
        · injection h with h _
          cases h
    · rintro ⟨w, rfl, hw⟩
      cases hw with
      | isTrue _ => rw [if_pos (Or.inr rfl)]
      | isFalse _ =>
        rw [if_neg, if_pos rfl]
        rintro (h | h)
        · exact hn h
        · exact absurd h (by decide +kernel)
      | int h => rw [hk] at h; cases h
      | string h => rw [hk] at h; cases h
      | keyword h => rw [hk] at h; cases h
      | flag h => rw [hk] at h; cases h
      | noFlag h => rw [hk] at h; cases h
  | int =>
    show processInt e.var next v = _ ↔ _
    unfold processInt
    constructor
    · intro h
      split at h
      · injection h with h _
        cases h
      · rename_i h0
        split at h
        · rename_i h1
          injection h with _ h
          subst h
          exact ⟨_, rfl, .int hk ((number_iff _ _).2 ⟨fun hv => h0 (Or.inr hv), h1, rfl⟩)⟩
        · injection h with h _
          cases h
    · rintro ⟨w, rfl, hw⟩
      cases hw with
      | int _ h =>
        obtain ⟨h1, h2, h3⟩ := (number_iff _ _).1 h
        rw [if_neg (fun h => h.elim hn h1), if_pos h2, ← h3]
      | isTrue h => rw [hk] at h; cases h
      | isFalse h => rw [hk] at h; cases h
      | string h => rw [hk] at h; cases h
      | keyword h => rw [hk] at h; cases h
      | flag h => rw [hk] at h; cases h
      | noFlag h => rw [hk] at h; cases h
  | string a =>
    show processString a e.var next v = _ ↔ _
    unfold processString
    rw [if_neg hn]
    constructor
    · intro h
      split at h
      · injection h with h _
        cases h
      · rename_i h0
        injection h with _ h
        subst h
        refine ⟨_, rfl, .string hk ?_⟩
        cases a with
        | true => exact Or.inl rfl
        | false => exact Or.inr (fun hv => h0 ⟨hv, rfl⟩)
    · rintro ⟨w, rfl, hw⟩
      cases hw with
      | string h hs =>
        rw [hk] at h
        injection h with h
        subst h
        rw [if_neg]
        rintro ⟨h1, h2⟩
        rcases hs with hs | hs
        · subst hs
          cases h2
        · exact hs h1
      | isTrue h => rw [hk] at h; cases h
      | isFalse h => rw [hk] at h; cases h
      | int h => rw [hk] at h; cases h
      | keyword h => rw [hk] at h; cases h
      | flag h => rw [hk] at h; cases h
      | noFlag h => rw [hk] at h; cases h
  | keyword k d =>
    show processKeyword k d false e.var next v neg = _ ↔ _
    unfold processKeyword
    rw [if_neg hn]
    cases hf : findKeyword k v with
    | some i =>
      have hF := (findKeyword_iff _ _ _).1 hf
      constructor
      · intro h
        injection h with _ h
        subst h
        exact ⟨_, rfl, .keyword hk hF⟩
      · rintro ⟨w, rfl, hw⟩
        cases hw with
        | @keyword k' d' _ i' _ h h' =>
          rw [hk] at h
          injection h with h1 h2
          subst h1
          have := (findKeyword_iff _ _ _).2 h'
          rw [hf] at this
          injection this with this
          subst this
          rfl
        | isTrue h => rw [hk] at h; cases h
        | isFalse h => rw [hk] at h; cases h
        | int h => rw [hk] at h; cases h
        | string h => rw [hk] at h; cases h
        | flag h => rw [hk] at h; cases h
        | noFlag h => rw [hk] at h; cases h
    | none =>
      constructor
      · intro h
        exfalso
        revert h
        cases k.ended <;> cases d <;> simp
        rename_i d
        split <;> (try split) <;> simp
      · rintro ⟨w, rfl, hw⟩
        cases hw with
        | @keyword k' d' _ i' _ h h' =>
          rw [hk] at h
          injection h with h1 h2
          subst h1
          have := (findKeyword_iff _ _ _).2 h'
          rw [hf] at this
          cases this
        | isTrue h => rw [hk] at h; cases h
        | isFalse h => rw [hk] at h; cases h
        | int h => rw [hk] at h; cases h
        | string h => rw [hk] at h; cases h
        | flag h => rw [hk] at h; cases h
        | noFlag h => rw [hk] at h; cases h
  | flags k =>
    show processKeyword k none true e.var next v neg = _ ↔ _
    unfold processKeyword
    rw [if_neg hn]
    cases hf : findKeyword k v with
    | some i =>
      have hF := (findKeyword_iff _ _ _).1 hf
      constructor
      · intro h
        injection h with _ h
        subst h
        cases neg with
        | false => exact ⟨_, rfl, .flag hk hF⟩
        | true => exact ⟨_, rfl, .noFlag hk hF⟩
      · rintro ⟨w, rfl, hw⟩
        cases hw with
        | @flag k' _ i' h h' =>
          rw [hk] at h
          injection h with h1
          subst h1
          have := (findKeyword_iff _ _ _).2 h'
          rw [hf] at this
          injection this with this
          subst this
          rfl
        | @noFlag k' _ i' h h' =>
          rw [hk] at h
          injection h with h1
          subst h1
          have := (findKeyword_iff _ _ _).2 h'
          rw [hf] at this
          injection this with this
          subst this
          rfl
        | isTrue h => rw [hk] at h; cases h
        | isFalse h => rw [hk] at h; cases h
        | int h => rw [hk] at h; cases h
        | string h => rw [hk] at h; cases h
        | keyword h => rw [hk] at h; cases h
    | none =>
      constructor
      · intro h
        exfalso
        revert h
        cases k.ended <;> simp
      · rintro ⟨w, rfl, hw⟩
        cases hw with
        | @flag k' _ i' h h' =>
          rw [hk] at h
          injection h with h1
          subst h1
          have := (findKeyword_iff _ _ _).2 h'
          rw [hf] at this
          cases this
        | @noFlag k' _ i' h h' =>
          rw [hk] at h
          injection h with h1
          subst h1
          have := (findKeyword_iff _ _ _).2 h'
          rw [hf] at this
          cases this
        | isTrue h => rw [hk] at h; cases h
        | isFalse h => rw [hk] at h; cases h
        | int h => rw [hk] at h; cases h
        | string h => rw [hk] at h; cases h
        | keyword h => rw [hk] at h; cases h
  | position =>
    constructor
    · intro h
      injection h with h _
      cases h
    · rintro ⟨w, rfl, hw⟩
      cases hw with
      | isTrue h => rw [hk] at h; cases h
      | isFalse h => rw [hk] at h; cases h
      | int h => rw [hk] at h; cases h
      | string h => rw [hk] at h; cases h
      | keyword h => rw [hk] at h; cases h
      | flag h => rw [hk] at h; cases h
      | noFlag h => rw [hk] at h; cases h

/-- Arguments without a value. -/
theorem process_none (e : Entry) (neg : Bool) (hkw : ∀ p ∈ e.kind.keywords, p.1 ≠ []) (ws : List Write) :
    process e .none [] neg = (.ok, ws) ↔ ∃ w, ws = [w] ∧ Sets e neg none w := by
  have key : ∀ k : Keywords, e.kind.keywords = k.list → findKeyword k [] = none := by
    intro k h
    rw [findKeyword_none]
    intro i hi
    rw [← h] at hi
    exact hkw _ hi rfl
  unfold process
  constructor
  · intro h
    cases hk : e.kind with
    | bool =>
      rw [hk] at h
      have h : processBool e.var .none [] neg = (.ok, ws) := h
      unfold processBool at h
      rw [if_pos (Or.inl rfl)] at h
      injection h with _ h
      subst h
      exact ⟨_, rfl, .bool hk⟩
    | int =>
      rw [hk] at h
      have h : processInt e.var .none [] = (.ok, ws) := h
      unfold processInt at h
      rw [if_pos (Or.inl rfl)] at h
      injection h with h _
      cases h
    | string a =>
      rw [hk] at h
      have h : processString a e.var .none [] = (.ok, ws) := h
      unfold processString at h
      rw [if_pos rfl] at h
      injection h with h _
      cases h
    | keyword k d =>
      have hf := key k (by rw [hk]; rfl)
      rw [hk] at h
      have h : processKeyword k d false e.var .none [] neg = (.ok, ws) := h
      unfold processKeyword at h
      rw [if_pos rfl, hf] at h
      exfalso
      revert h
      cases k.ended <;> cases d <;> simp
      split <;> simp
    | flags k =>
      have hf := key k (by rw [hk]; rfl)
      rw [hk] at h
      have h : processKeyword k none true e.var .none [] neg = (.ok, ws) := h
      unfold processKeyword at h
      rw [if_pos rfl, hf] at h
      exfalso
      revert h
      cases k.ended <;> simp
    | position =>
      rw [hk] at h
      injection h with h _
      cases h
  · rintro ⟨w, rfl, hw⟩
    cases hw with
    | bool h =>
      rw [h]
      show processBool e.var .none [] neg = _
      unfold processBool
      rw [if_pos (Or.inl rfl)]

/-- Arguments that are given back. -/
theorem process_giveback {e : Entry} {next : Next} (v : Str) (neg : Bool) (ws : List Write) :
    process e next v neg = (.giveback, ws) ↔
      next ≠ .delim ∧ ∃ k d i, e.kind = .keyword k (some d) ∧ k.ended = true ∧ findKeyword k (if next = .none then [] else v) = none ∧ First k.list d i ∧ ws = [.keyword e.var i] := by
  unfold process
  cases hk : e.kind with
  | keyword k d =>
    show processKeyword k d false e.var next v neg = _ ↔ _
    unfold processKeyword
    cases hf : findKeyword k (if next = .none then [] else v) with
    | some i =>
      constructor
      · intro h
        injection h with h _
        cases h
      · rintro ⟨_, k', d', i', h1, _, h2, _⟩
        injection h1 with h1
        subst h1
        rw [hf] at h2
        cases h2
    | none =>
      show (if k.ended = true then _ else _) = _ ↔ _
      cases he : k.ended with
      | false =>
        constructor
        · intro h
          injection h with h _
          cases h
        · rintro ⟨_, k', d', i', h1, h2, _⟩
          injection h1 with h1
          subst h1
          rw [he] at h2
          cases h2
      | true =>
        rw [if_pos rfl]
        cases d with
        | none =>
          constructor
          · intro h
            injection h with h _
            cases h
          · rintro ⟨_, k', d', i', h1, _⟩
            injection h1 with _ h1
            cases h1
        | some d =>
          show (if !false && decide (next ≠ .delim) then _ else _) = _ ↔ _
          by_cases hd : next = .delim
          · subst hd
            constructor
            · intro h
              injection h with h _
              cases h
            · rintro ⟨h, _⟩
              exact absurd rfl h
          · rw [if_pos (by simp [hd])]
            cases hfd : findKeyword k d with
            | some i =>
              constructor
              · intro h
                injection h with _ h
                subst h
                exact ⟨hd, k, d, i, rfl, he, hf, (findKeyword_iff _ _ _).1 hfd, rfl⟩
              · rintro ⟨_, k', d', i', h1, _, _, h2, rfl⟩
                injection h1 with h1 h3
                injection h3 with h3
                subst h1 h3
                have := (findKeyword_iff _ _ _).2 h2
                rw [hfd] at this
                injection this with this
                subst this
                rfl
            | none =>
              constructor
              · intro h
                injection h with h _
                cases h
              · rintro ⟨_, k', d', i', h1, _, _, h2, rfl⟩
                injection h1 with h1 h3
                injection h3 with h3
                subst h1 h3
                have := (findKeyword_iff _ _ _).2 h2
                rw [hfd] at this
                cases this
  | bool =>
    constructor
    · intro h
      have h : processBool e.var next v neg = _ := h
      unfold processBool at h
      exfalso
      revert h
      repeat' split
      all_goals simp
    · rintro ⟨_, k', d', i', h1, _⟩
      cases h1
  | int =>
    constructor
    · intro h
      have h : processInt e.var next v = _ := h
      unfold processInt at h
      exfalso
      revert h
      repeat' split
      all_goals simp
    · rintro ⟨_, k', d', i', h1, _⟩
      cases h1
  | string a =>
    constructor
    · intro h
      have h : processString a e.var next v = _ := h
      unfold processString at h
      exfalso
      revert h
      repeat' split
      all_goals simp
    · rintro ⟨_, k', d', i', h1, _⟩
      cases h1
  | flags k =>
    constructor
    · intro h
      have h : processKeyword k none true e.var next v neg = _ := h
      unfold processKeyword at h
      exfalso
      revert h
      repeat' split
      all_goals simp_all
    · rintro ⟨_, k', d', i', h1, _⟩
      cases h1
  | position =>
    constructor
    · intro h
      injection h with h _
      cases h
    · rintro ⟨_, k', d', i', h1, _⟩
      cases h1

end Notmuch.Args
