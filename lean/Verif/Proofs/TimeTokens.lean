import Verif.Spec.Time

/-! # Proofs: the tokens of a time -/

namespace Notmuch.Time

/-! ## Bytes -/

theorem alpha_not_digit : ∀ c : UInt8, isAlpha c = true → isDigit c = false := by
  apply forall_byte
  decide +kernel

theorem digit_alnum : ∀ c : UInt8, isDigit c = true → isAlnum c = true := by
  apply forall_byte
  decide +kernel

theorem not_alnum : ∀ c : UInt8, isAlnum c = false → isAlpha c = false ∧ isDigit c = false := by
  apply forall_byte
  decide +kernel

theorem sep_not_alpha : ∀ c : UInt8, isSep c = true → isAlpha c = false := by
  apply forall_byte
  decide +kernel

theorem sep_not_digit : ∀ c : UInt8, isSep c = true → isDigit c = false := by
  apply forall_byte
  decide +kernel

/-! ## Matching keywords -/

/-- The next character is not a letter. -/
def NoAlpha (s : Str) : Prop := ∀ c ∈ s.head?, isAlpha c = false

/-- The next character is not a digit. -/
def NoDigit (s : Str) : Prop := ∀ c ∈ s.head?, isDigit c = false

theorem matchGo_append (mc : Bool) (rest : Str) (hr : NoAlpha rest) :
    ∀ (kw w : Str) (pre : Bool) (n : Nat), (∀ c ∈ w, isAlpha c = true) → matchGo mc kw (w ++ rest) pre n = matchGo mc kw w pre n := by
  intro kw
  induction kw with
  | nil =>
    intro w pre n hw
    cases w with
    | nil =>
      cases rest with
      | nil => rfl
      | cons c rest =>
        have h1 : isAlpha c = false := hr c rfl
        simp [matchGo, h1]
    | cons c w => rfl
  | cons k ks ih =>
    intro w pre n hw
    unfold matchGo
    split
    · exact ih w true n hw
    · cases w with
      | nil =>
        cases rest with
        | nil => rfl
        | cons c rest =>
          have h1 : isAlpha c = false := hr c rfl
          simp [h1]
      | cons c w =>
        simp only [List.cons_append]
        rw [ih w pre (n + 1) (fun x hx => hw x (List.mem_cons_of_mem _ hx))]

theorem matchKeyword_append (w rest kw : Str) (hr : NoAlpha rest) (hw : ∀ c ∈ w, isAlpha c = true) : matchKeyword (w ++ rest) kw = matchKeyword w kw := by
  unfold matchKeyword
  split <;> exact matchGo_append _ rest hr _ w _ _ hw

theorem findKeyword_append (w rest : Str) (hr : NoAlpha rest) (hw : ∀ c ∈ w, isAlpha c = true) : ∀ l, findKeyword (w ++ rest) l = findKeyword w l := by
  intro l
  induction l with
  | nil => rfl
  | cons k l ih => rw [findKeyword, findKeyword, matchKeyword_append w rest k.name hr hw, ih]

/-- As many characters of the word as there are. -/
theorem matchGo_length (mc : Bool) : ∀ (kw w : Str) (pre : Bool) (n : Nat), (∀ c ∈ w, isAlpha c = true) → matchGo mc kw w pre n ≠ 0 → matchGo mc kw w pre n = n + w.length := by
  intro kw
  induction kw with
  | nil =>
    intro w pre n hw h
    cases w with
    | nil => rfl
    | cons c w =>
      exfalso
      apply h
      simp [matchGo, hw c List.mem_cons_self]
  | cons k ks ih =>
    intro w pre n hw
    unfold matchGo
    split
    · exact ih w true n hw
    · cases w with
      | nil =>
        simp only
        split
        · intro _
          rfl
        · exact fun h => absurd rfl h
      | cons c w =>
        simp only [hw c List.mem_cons_self, if_true]
        split
        · intro h
          have := ih w pre (n + 1) (fun x hx => hw x (List.mem_cons_of_mem _ hx)) h
          rw [this, List.length_cons]
          omega
        · exact fun h => absurd rfl h

theorem findKeyword_length (w : Str) (hw : ∀ c ∈ w, isAlpha c = true) : ∀ l k n, findKeyword w l = some (k, n) → n = w.length := by
  intro l
  induction l with
  | nil => exact fun k n h => by simp [findKeyword] at h
  | cons x l ih =>
    intro k n h
    rw [findKeyword] at h
    split at h
    · exact ih k n h
    · rename_i hm
      have h2 := (Prod.mk.injEq _ _ _ _ ▸ Option.some.inj h).2
      rw [← h2]
      unfold matchKeyword at hm ⊢
      split at hm
      · have := matchGo_length true _ w false 0 hw hm
        rw [this]
        omega
      · have := matchGo_length false _ w false 0 hw hm
        rw [this]
        omega

theorem findKeyword_pos (s : Str) : ∀ l k n, findKeyword s l = some (k, n) → 0 < n := by
  intro l
  induction l with
  | nil => exact fun k n h => by simp [findKeyword] at h
  | cons x l ih =>
    intro k n h
    rw [findKeyword] at h
    split at h
    · exact ih k n h
    · have h2 := (Prod.mk.injEq _ _ _ _ ▸ Option.some.inj h).2
      omega

/-! ## Steps -/

theorem parseNumber_pos (st : State) (c : UInt8) (s : Str) (hc : isDigit c = true) (p : State × Nat) (h : parseNumber st (c :: s) = .ok p) : 0 < p.2 := by
  unfold parseNumber at h
  have hl : 0 < ((c :: s).takeWhile isDigit).length := by simp [hc]
  simp only at h
  split at h
  · cases hs : singleNumber st (strtoul ((c :: s).takeWhile isDigit)) ((c :: s).takeWhile isDigit).length with
    | error e => rw [hs] at h; simp [Except.bind] at h
    | ok st' =>
      rw [hs] at h
      simp only [Except.bind, Except.ok.injEq] at h
      rw [← h]
      exact hl
  · rename_i sep d2 hg
    split at h
    · cases hs : singleNumber st (strtoul ((c :: s).takeWhile isDigit)) ((c :: s).takeWhile isDigit).length with
      | error e => rw [hs] at h; simp [Except.bind] at h
      | ok st' =>
        rw [hs] at h
        simp only [Except.bind, Except.ok.injEq] at h
        rw [← h]
        exact hl
    · generalize (if isTimeSep sep then parseTime st _ _ _ _ _ _ else parseDate st _ _ _ _ _ _ _) = r at h
      cases r with
      | error e => simp [Except.bind] at h
      | ok st' =>
        simp only [Except.bind, Except.ok.injEq] at h
        rw [← h]
        simp only
        omega

theorem parseNext_pos (st : State) (c : UInt8) (s : Str) (p : State × Nat) (h : parseNext st (c :: s) = .ok p) : 0 < p.2 := by
  unfold parseNext at h
  simp only at h
  split at h
  · unfold parseKeyword at h
    split at h
    · cases h
    · rename_i k n hk
      cases ha : applyKeyword st k with
      | error e => rw [ha] at h; simp [Except.bind] at h
      | ok st' =>
        rw [ha] at h
        simp only [Except.bind, Except.ok.injEq] at h
        rw [← h]
        exact findKeyword_pos _ _ _ _ hk
  · split at h
    · rename_i hd
      exact parseNumber_pos st c s hd p h
    · rename_i ha hd
      simp only [Except.ok.injEq] at h
      rw [← h]
      unfold parseDelim
      have : isAlnum c = false := by simp [isAlnum, ha, hd]
      simp [this]

/-- More fuel than characters changes nothing. -/
theorem parseInput_fuel : ∀ (n : Nat) (st : State) (s : Str), s.length ≤ n → parseInput n st s = parseInput s.length st s := by
  intro n
  induction n using Nat.strongRecOn with
  | ind n ih =>
    intro st s hn
    cases s with
    | nil => cases n <;> rfl
    | cons c s =>
      cases n with
      | zero => simp at hn
      | succ n =>
        simp only [List.length_cons, parseInput]
        cases h : parseNext st (c :: s) with
        | error e => rfl
        | ok p =>
          have hp := parseNext_pos st c s p h
          simp only [Except.bind]
          have hl : ((c :: s).drop p.2).length ≤ s.length := by
            rw [List.length_drop, List.length_cons]
            omega
          simp only [List.length_cons] at hn
          rw [ih n (by omega) p.1 _ (by omega)]
          by_cases hs : s.length < n + 1
          · rw [ih s.length hs p.1 _ hl]
          · omega

/-- What comes out for the rest of the characters. -/
def parse (st : State) (s : Str) : Except Err State := parseInput s.length st s

theorem parse_nil (st : State) : parse st [] = parsePostponed st := rfl

theorem parse_step (st st' : State) (w rest : Str) (hw : w ≠ []) (h : parseNext st (w ++ rest) = .ok (st', w.length)) : parse st (w ++ rest) = parse st' rest := by
  obtain ⟨c, l, rfl⟩ := List.exists_cons_of_ne_nil hw
  unfold parse
  rw [List.cons_append] at h ⊢
  rw [List.length_cons, parseInput, h]
  simp only [Except.bind]
  have e : (c :: (l ++ rest)).drop (c :: l).length = rest := by
    rw [← List.cons_append, List.drop_left]
  rw [e, parseInput_fuel _ _ _ (by rw [List.length_append]; omega)]

theorem parse_error (st : State) (s : Str) (e : Err) (hs : s ≠ []) (h : parseNext st s = .error e) : parse st s = .error e := by
  obtain ⟨c, l, rfl⟩ := List.exists_cons_of_ne_nil hs
  unfold parse
  rw [List.length_cons, parseInput, h]
  rfl

/-! ## Tokens -/

theorem parse_keyword (st : State) (w rest : Str) (k : Keyword) (hw : w ≠ []) (ha : ∀ c ∈ w, isAlpha c = true) (hr : NoAlpha rest) (hk : findKeyword w keywords = some (k, w.length)) :
    parse st (w ++ rest) = (applyKeyword st k).bind (fun st => parse st rest) := by
  have hn : parseNext st (w ++ rest) = (applyKeyword st k).bind (fun st => .ok (st, w.length)) := by
    obtain ⟨c, l, rfl⟩ := List.exists_cons_of_ne_nil hw
    rw [List.cons_append]
    unfold parseNext
    simp only [ha c List.mem_cons_self, if_true]
    rw [← List.cons_append]
    unfold parseKeyword
    rw [findKeyword_append _ rest hr ha, hk]
  cases h : applyKeyword st k with
  | error e =>
    rw [h] at hn
    exact parse_error _ _ e (by simp [hw]) hn
  | ok st' =>
    rw [h] at hn
    exact parse_step st st' w rest hw hn

theorem parse_delim (st : State) (ds rest : Str) (c : UInt8) (ha : ∀ x ∈ ds ++ [c], isAlnum x = false) (hr : ∀ x ∈ rest.head?, isAlnum x = true) :
    parse st ((ds ++ [c]) ++ rest) = parse { st with delim := c } rest := by
  apply parse_step _ _ _ _ (by simp)
  have ht : ((ds ++ [c]) ++ rest).takeWhile (fun c => !isAlnum c) = ds ++ [c] := by
    rw [List.takeWhile_append_of_pos (by intro x hx; simp [ha x hx])]
    cases rest with
    | nil => simp
    | cons x r => simp [hr x rfl]
  have hne : (ds ++ [c]) ++ rest ≠ [] := by simp
  obtain ⟨d, l, hd⟩ := List.exists_cons_of_ne_nil hne
  have hda : isAlnum d = false := by
    apply ha d
    cases ds with
    | nil =>
      simp at hd
      simp [hd.1]
    | cons x ds =>
      simp at hd
      simp [hd.1]
  obtain ⟨h1, h2⟩ := not_alnum d hda
  rw [hd]
  unfold parseNext
  simp only [h1, h2]
  simp only [Bool.false_eq_true, if_false]
  rw [← hd]
  unfold parseDelim
  simp only [ht]
  simp

theorem takeWhile_digits (ds rest : Str) (hd : ∀ c ∈ ds, isDigit c = true) (hr : NoDigit rest) : (ds ++ rest).takeWhile isDigit = ds := by
  rw [List.takeWhile_append_of_pos hd]
  cases rest with
  | nil => simp
  | cons x r =>
    have h1 : isDigit x = false := hr x rfl
    simp [h1]

theorem parseNext_digits (st : State) (ds rest : Str) (hn : ds ≠ []) (hd : ∀ c ∈ ds, isDigit c = true) : parseNext st (ds ++ rest) = parseNumber st (ds ++ rest) := by
  obtain ⟨c, l, rfl⟩ := List.exists_cons_of_ne_nil hn
  rw [List.cons_append]
  unfold parseNext
  have h1 := hd c List.mem_cons_self
  have h2 : isAlpha c = false := by
    cases h : isAlpha c with
    | false => rfl
    | true =>
      have := alpha_not_digit c h
      rw [h1] at this
      cases this
  simp [h1, h2]

theorem strtoul_eq (ds : Str) (h : decVal ds < 2 ^ 64) : strtoul ds = decVal ds := by
  unfold strtoul
  unfold decVal at h ⊢
  omega

theorem group_none_of (s : Str) (h : ∀ c d l, s = c :: d :: l → isDigit d = false) : group s = none := by
  match s with
  | [] => rfl
  | [_] => rfl
  | c :: d :: l =>
    unfold group
    simp [h c d l rfl]

/-- No group of digits follows: not a separator and a digit. -/
def NoGroup (s : Str) : Prop := ∀ c d l, s = c :: d :: l → isSep c = true → isDigit d = false

theorem parse_single (st : State) (ds rest : Str) (hn : ds ≠ []) (hd : ∀ c ∈ ds, isDigit c = true) (hr : NoDigit rest) (hg : NoGroup rest) :
    parse st (ds ++ rest) = (singleNumber st (strtoul ds) ds.length).bind (fun st => parse st rest) := by
  have e : parseNext st (ds ++ rest) = (singleNumber st (strtoul ds) ds.length).bind (fun st => .ok (st, ds.length)) := by
    rw [parseNext_digits st ds rest hn hd]
    unfold parseNumber
    simp only
    rw [takeWhile_digits ds rest hd hr, List.drop_left]
    split
    · rfl
    · rename_i sep d2 hgr
      have hs : isSep sep = false := by
        match hrest : rest with
        | [] => simp [group] at hgr
        | [_] => simp [group] at hgr
        | c :: d :: l =>
          unfold group at hgr
          simp only at hgr
          split at hgr
          · rename_i hdig
            have h1 := (Prod.mk.injEq _ _ _ _ ▸ Option.some.inj hgr).1
            rw [← h1]
            cases hsep : isSep c with
            | false => rfl
            | true =>
              have := hg c d l rfl hsep
              rw [hdig] at this
              cases this
          · cases hgr
      simp [hs]
  cases h : singleNumber st (strtoul ds) ds.length with
  | error x =>
    rw [h] at e
    exact parse_error _ _ x (by simp [hn]) e
  | ok st' =>
    rw [h] at e
    exact parse_step st st' ds rest hn e

theorem group_digits (c : UInt8) (ds rest : Str) (hn : ds ≠ []) (hd : ∀ c ∈ ds, isDigit c = true) (hr : NoDigit rest) : group (c :: (ds ++ rest)) = some (c, ds) := by
  have h := takeWhile_digits ds rest hd hr
  obtain ⟨d, l, rfl⟩ := List.exists_cons_of_ne_nil hn
  rw [List.cons_append] at h ⊢
  unfold group
  simp only [hd d List.mem_cons_self, if_true]
  rw [h]

/-- The groups of a date or a time. -/
def groups (st : State) (sep : UInt8) (d1 d2 d3 : Str) : Except Err State :=
  if isTimeSep sep then parseTime st (strtoul d1) (strtoul d2) (strtoul d3) d1.length d2.length d3.length
  else parseDate st sep (strtoul d1) (strtoul d2) (strtoul d3) d1.length d2.length d3.length

theorem parse_two (st : State) (sep : UInt8) (d1 d2 rest : Str) (hs : isSep sep = true) (h1 : d1 ≠ []) (h2 : d2 ≠ []) (g1 : ∀ c ∈ d1, isDigit c = true) (g2 : ∀ c ∈ d2, isDigit c = true)
    (hr : NoDigit rest) (hg : ∀ d l, rest = sep :: d :: l → isDigit d = false) :
    parse st ((d1 ++ sep :: d2) ++ rest) = (groups st sep d1 d2 []).bind (fun st => parse st rest) := by
  have hsd : NoDigit (sep :: (d2 ++ rest)) := by
    intro c hc
    simp at hc
    rw [← hc]
    exact sep_not_digit sep hs
  have eq : (d1 ++ sep :: d2) ++ rest = d1 ++ (sep :: (d2 ++ rest)) := by simp
  have e : parseNext st ((d1 ++ sep :: d2) ++ rest) = (groups st sep d1 d2 []).bind (fun st => .ok (st, (d1 ++ sep :: d2).length)) := by
    rw [eq, parseNext_digits st d1 _ h1 g1]
    unfold parseNumber
    simp only
    rw [takeWhile_digits d1 _ g1 hsd, List.drop_left, group_digits sep d2 rest h2 g2 hr]
    simp only [hs]
    have edrop : (sep :: (d2 ++ rest)).drop (1 + d2.length) = rest := by
      rw [Nat.add_comm, List.drop_succ_cons, List.drop_left]
    rw [edrop]
    have e3 : thirdGroup sep rest = [] := by
      unfold thirdGroup
      match hrest : rest with
      | [] => rfl
      | [_] => rfl
      | c :: d :: l =>
        unfold group
        by_cases hdig : isDigit d = true
        · simp only [hdig, if_true]
          have : c ≠ sep := by
            intro hc
            have := hg d l (by rw [hc])
            rw [hdig] at this
            cases this
          simp [this]
        · simp [hdig]
    rw [e3]
    simp only [Bool.not_true, Bool.false_eq_true, if_false, if_true, Nat.add_zero]
    have en : (d1 ++ sep :: d2).length = d1.length + (1 + d2.length) := by simp; omega
    rw [en]
    rfl
  cases h : groups st sep d1 d2 [] with
  | error x =>
    rw [h] at e
    exact parse_error _ _ x (by simp) e
  | ok st' =>
    rw [h] at e
    exact parse_step st st' _ rest (by simp) e

theorem parse_three (st : State) (sep : UInt8) (d1 d2 d3 rest : Str) (hs : isSep sep = true) (h1 : d1 ≠ []) (h2 : d2 ≠ []) (h3 : d3 ≠ []) (g1 : ∀ c ∈ d1, isDigit c = true)
    (g2 : ∀ c ∈ d2, isDigit c = true) (g3 : ∀ c ∈ d3, isDigit c = true) (hr : NoDigit rest) :
    parse st ((d1 ++ sep :: (d2 ++ sep :: d3)) ++ rest) = (groups st sep d1 d2 d3).bind (fun st => parse st rest) := by
  have hsd : ∀ l, NoDigit (sep :: l) := by
    intro l c hc
    simp at hc
    rw [← hc]
    exact sep_not_digit sep hs
  have eq : (d1 ++ sep :: (d2 ++ sep :: d3)) ++ rest = d1 ++ (sep :: (d2 ++ (sep :: (d3 ++ rest)))) := by simp
  have e : parseNext st ((d1 ++ sep :: (d2 ++ sep :: d3)) ++ rest) = (groups st sep d1 d2 d3).bind (fun st => .ok (st, (d1 ++ sep :: (d2 ++ sep :: d3)).length)) := by
    rw [eq, parseNext_digits st d1 _ h1 g1]
    unfold parseNumber
    simp only
    rw [takeWhile_digits d1 _ g1 (hsd _), List.drop_left, group_digits sep d2 _ h2 g2 (hsd _)]
    simp only [hs]
    have edrop : (sep :: (d2 ++ (sep :: (d3 ++ rest)))).drop (1 + d2.length) = sep :: (d3 ++ rest) := by
      rw [Nat.add_comm, List.drop_succ_cons, List.drop_left]
    have e3 : thirdGroup sep (sep :: (d3 ++ rest)) = d3 := by
      unfold thirdGroup
      rw [group_digits sep d3 rest h3 g3 hr]
      simp
    rw [edrop, e3]
    simp only [if_true, h3, if_false, Bool.not_true, Bool.false_eq_true]
    have en : (d1 ++ sep :: (d2 ++ sep :: d3)).length = d1.length + (1 + d2.length) + (1 + d3.length) := by simp; omega
    rw [en]
    rfl
  cases h : groups st sep d1 d2 d3 with
  | error x =>
    rw [h] at e
    exact parse_error _ _ x (by simp) e
  | ok st' =>
    rw [h] at e
    exact parse_step st st' _ rest (by simp) e

end Notmuch.Time
