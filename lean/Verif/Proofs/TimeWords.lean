import Verif.Proofs.TimeState

/-! # Proofs: the words of dates and times -/

namespace Notmuch.Time

theorem toLower_idem : ∀ c : UInt8, toLower (toLower c) = toLower c := by
  apply forall_byte
  decide +kernel

theorem toLower_alpha : ∀ c : UInt8, isAlpha (toLower c) = isAlpha c := by
  apply forall_byte
  decide +kernel

theorem toLower_alnum : ∀ c : UInt8, isAlnum (toLower c) = isAlnum c := by
  apply forall_byte
  decide +kernel

theorem matchGo_lower : ∀ (kw w : Str) (pre : Bool) (n : Nat), matchGo false kw (w.map toLower) pre n = matchGo false kw w pre n := by
  intro kw
  induction kw with
  | nil =>
    intro w pre n
    cases w with
    | nil => rfl
    | cons c w =>
      cases h : isAlpha c <;> simp [matchGo, toLower_alpha, h]
  | cons k ks ih =>
    intro w pre n
    unfold matchGo
    split
    · exact ih w true n
    · cases w with
      | nil => rfl
      | cons c w =>
        have e : sameChar false (toLower c) k = sameChar false c k := by simp [sameChar, toLower_idem]
        simp only [List.map_cons, toLower_alpha, ih, e]

/-- A name of one letter with a star is only that letter. -/
theorem matchGo_one (k : UInt8) (w : Str) (hk : k ≠ 124) (h : matchGo true [k] w false 0 ≠ 0) (hw : ∀ c ∈ w, isAlpha c = true) : w = [k] := by
  unfold matchGo at h
  rw [if_neg hk] at h
  cases w with
  | nil => simp at h
  | cons c w =>
    simp only [hw c List.mem_cons_self, if_true] at h
    split at h
    · rename_i hs
      cases w with
      | nil =>
        simp [sameChar] at hs
        rw [hs]
      | cons d w =>
        simp [matchGo, hw d (by simp)] at h
    · exact absurd rfl h

theorem matchKeyword_lower (w : Str) (hw : ∀ c ∈ w, isAlpha c = true) (h1 : w ≠ bs "M") :
    ∀ k ∈ keywords, matchKeyword (w.map toLower) k.name = matchKeyword w k.name := by
  intro k hk
  have hal : ∀ c ∈ w.map toLower, isAlpha c = true := by
    intro c hc
    obtain ⟨d, hd, rfl⟩ := List.mem_map.1 hc
    rw [toLower_alpha]
    exact hw d hd
  have hc : (∀ l, k.name ≠ 42 :: l) ∨ k.name = bs "*M" ∨ k.name = bs "*m" := by
    have : ∀ k ∈ keywords, k.name.head? ≠ some 42 ∨ k.name = bs "*M" ∨ k.name = bs "*m" := by decide +kernel
    rcases this k hk with h | h
    · left
      intro l e
      rw [e] at h
      exact h rfl
    · exact Or.inr h
  rcases hc with h | h | h
  · have e : ∀ s, matchKeyword s k.name = matchGo false k.name s false 0 := by
      intro s
      unfold matchKeyword
      split
      · rename_i kw e
        exact absurd e (h kw)
      · rfl
    rw [e, e, matchGo_lower]
  · rw [h]
    have z : ∀ s : Str, (∀ c ∈ s, isAlpha c = true) → s ≠ bs "M" → matchKeyword s (bs "*M") = 0 := by
      intro s hs hne
      have e : matchKeyword s (bs "*M") = matchGo true [77] s false 0 := rfl
      rw [e]
      apply Classical.byContradiction
      intro hz
      exact hne (matchGo_one 77 s (by decide) hz hs)
    rw [z w hw h1, z _ hal]
    intro e
    have hb : ∀ c : UInt8, toLower c ≠ 77 := by
      apply forall_byte
      decide +kernel
    match hw' : w with
    | [] => simp [bs] at e
    | c :: l =>
      simp only [List.map_cons] at e
      have : toLower c = 77 := by
        have e2 : bs "M" = [77] := by decide
        rw [e2] at e
        exact (List.cons.injEq _ _ _ _ ▸ e).1
      exact hb c this
  · rw [h]
    have e : ∀ s : Str, matchKeyword s (bs "*m") = matchGo true [109] s false 0 := fun s => rfl
    rw [e, e]
    by_cases hm : w = [109]
    · rw [hm]
      rfl
    · have z : ∀ s : Str, (∀ c ∈ s, isAlpha c = true) → s ≠ [109] → matchGo true [109] s false 0 = 0 := by
        intro s hs hne
        apply Classical.byContradiction
        intro hz
        exact hne (matchGo_one 109 s (by decide) hz hs)
      rw [z w hw hm, z _ hal]
      intro e2
      match hw' : w with
      | [] => simp at e2
      | [c] =>
        have hb : ∀ c : UInt8, toLower c = 109 → c = 109 ∨ c = 77 := by
          apply forall_byte
          decide +kernel
        simp only [List.map_cons, List.map_nil, List.cons.injEq, and_true] at e2
        rcases hb c e2 with k | k
        · exact hm (by rw [k])
        · exact h1 (by rw [k]; decide)
      | c :: d :: l => simp at e2

/-- Upper and lower case are the same, except for the word `M`. -/
theorem findKeyword_lower (w : Str) (hw : ∀ c ∈ w, isAlpha c = true) (h1 : w ≠ bs "M") : findKeyword (w.map toLower) keywords = findKeyword w keywords := by
  have : ∀ l : List Keyword, (∀ k ∈ l, matchKeyword (w.map toLower) k.name = matchKeyword w k.name) → findKeyword (w.map toLower) l = findKeyword w l := by
    intro l
    induction l with
    | nil => exact fun _ => rfl
    | cons k l ih =>
      intro h
      rw [findKeyword, findKeyword, h k List.mem_cons_self, ih (fun x hx => h x (List.mem_cons_of_mem _ hx))]
  exact this keywords (matchKeyword_lower w hw h1)

/-- A word is the keyword. -/
structure IsKeyword (w : Str) (field : Field) (value : Int) (set : Setter) : Prop where
  alpha : ∀ c ∈ w, isAlpha c = true
  ne : w ≠ []
  found : ∃ k, findKeyword w keywords = some (k, w.length) ∧ k.field = field ∧ k.value = value ∧ k.set = set

theorem isKeyword_lower {w l : Str} {field : Field} {value : Int} {set : Setter} (e : w.map toLower = l) (h1 : w ≠ bs "M") (ha : l.all isAlpha = true) (hn : l ≠ [])
    (hf : (findKeyword l keywords).map (fun p => (p.1.field, p.1.value, p.1.set)) = some (field, value, set)) : IsKeyword w field value set := by
  have hw : ∀ c ∈ w, isAlpha c = true := by
    intro c hc
    rw [← toLower_alpha]
    apply List.all_eq_true.1 ha
    rw [← e]
    exact List.mem_map_of_mem hc
  refine ⟨hw, ?_, ?_⟩
  · intro h
    rw [h] at e
    exact hn e.symm
  · rw [← e, findKeyword_lower w hw h1] at hf
    cases hk : findKeyword w keywords with
    | none => rw [hk] at hf; cases hf
    | some p =>
      obtain ⟨k, n⟩ := p
      rw [hk] at hf
      have hl := findKeyword_length w hw keywords k n hk
      simp only [Option.map_some, Option.some.injEq, Prod.mk.injEq] at hf
      exact ⟨k, by rw [hl], hf⟩

theorem lower_ne_M {w l : Str} (e : w.map toLower = l) (h : l ≠ bs "m") : w ≠ bs "M" := by
  intro hw
  rw [hw] at e
  apply h
  rw [← e]
  decide

theorem abbrev_take {full w : Str} {n : Nat} (h : Abbrev full n w) : ∃ i, i < full.length + 1 ∧ n ≤ i ∧ w.map toLower = full.take i := by
  obtain ⟨h1, h2⟩ := h
  refine ⟨w.length, ?_, h1, ?_⟩
  · have := h2.length_le
    rw [List.length_map] at this
    omega
  · rw [List.prefix_iff_eq_take.1 h2, List.length_map]

/-- Every abbreviation of a name is the keyword. -/
theorem isKeyword_abbrev {full w : Str} {n : Nat} {field : Field} {value : Int} {set : Setter} (h : Abbrev full n w) (h1 : w ≠ bs "M")
    (hf : ∀ i, i < full.length + 1 → n ≤ i → ((full.take i).all isAlpha = true ∧ full.take i ≠ [] ∧
      (findKeyword (full.take i) keywords).map (fun p => (p.1.field, p.1.value, p.1.set)) = some (field, value, set))) : IsKeyword w field value set := by
  obtain ⟨i, hi, hni, e⟩ := abbrev_take h
  obtain ⟨a, b, c⟩ := hf i hi hni
  exact isKeyword_lower e h1 a b c

theorem abbrev_ne_M {full w : Str} {n : Nat} (h : Abbrev full n w) (hn : 2 ≤ n ∨ full.head? ≠ some 109) : w ≠ bs "M" := by
  intro hw
  have e2 : bs "M" = [77] := by decide
  rw [e2] at hw
  obtain ⟨h1, h2⟩ := h
  rw [hw] at h1 h2
  rcases hn with hn | hn
  · simp at h1
    omega
  · obtain ⟨t, ht⟩ := h2
    apply hn
    rw [← ht]
    rfl

theorem monthWord_keyword {m : Nat} {w : Str} (h : MonthWord m w) : m ≤ 12 ∧ IsKeyword w .mon m .month := by
  obtain ⟨h0, full, hf, ha⟩ := h
  have hm : m - 1 < 12 := by
    have := (List.getElem?_eq_some_iff.1 hf).1
    exact this
  refine ⟨by omega, ?_⟩
  have key : ∀ m : Fin 12, ∀ i : Fin 10, ∀ full, monthNames[m.val]? = some full → i.val < full.length + 1 → 3 ≤ i.val → ((full.take i.val).all isAlpha = true ∧ full.take i.val ≠ [] ∧
      (findKeyword (full.take i.val) keywords).map (fun p => (p.1.field, p.1.value, p.1.set)) = some (Field.mon, ((m.val : Int) + 1), Setter.month)) := by
    have k2 : ∀ m : Fin 12, ∀ i : Fin 10, (monthNames[m.val]?.map (fun full => decide (i.val < full.length + 1 → 3 ≤ i.val → ((full.take i.val).all isAlpha = true ∧ full.take i.val ≠ [] ∧
      (findKeyword (full.take i.val) keywords).map (fun p => (p.1.field, p.1.value, p.1.set)) = some (Field.mon, ((m.val : Int) + 1), Setter.month))))).getD true = true := by decide +kernel
    intro m i full hfull
    have := k2 m i
    rw [hfull] at this
    simpa only [Option.map_some, Option.getD_some, decide_eq_true_eq] using this
  have hlen : full.length ≤ 9 := by
    have : ∀ f ∈ monthNames, f.length ≤ 9 := by decide +kernel
    exact this full (List.mem_of_getElem? hf)
  have em : ((m - 1 : Nat) : Int) + 1 = m := by omega
  apply isKeyword_abbrev ha (abbrev_ne_M ha (Or.inl (by omega)))
  intro i hi h3
  rw [← em]
  exact key ⟨m - 1, hm⟩ ⟨i, by omega⟩ full hf hi h3

theorem dayWord_keyword {n : Nat} {w : Str} (h : DayWord n w) : n ≤ 6 ∧ IsKeyword w .wday n .plain := by
  obtain ⟨full, hf, ha⟩ := h
  have hm : n < 7 := by
    have := (List.getElem?_eq_some_iff.1 hf).1
    exact this
  refine ⟨by omega, ?_⟩
  have k2 : ∀ m : Fin 7, ∀ i : Fin 10, (dayNames[m.val]?.map (fun full => decide (i.val < full.length + 1 → 3 ≤ i.val → ((full.take i.val).all isAlpha = true ∧ full.take i.val ≠ [] ∧
      (findKeyword (full.take i.val) keywords).map (fun p => (p.1.field, p.1.value, p.1.set)) = some (Field.wday, (m.val : Int), Setter.plain))))).getD true = true := by decide +kernel
  have hlen : full.length ≤ 9 := by
    have : ∀ f ∈ dayNames, f.length ≤ 9 := by decide +kernel
    exact this full (List.mem_of_getElem? hf)
  apply isKeyword_abbrev ha (abbrev_ne_M ha (Or.inl (by omega)))
  intro i hi h3
  have := k2 ⟨n, hm⟩ ⟨i, by omega⟩
  simp only [hf, Option.map_some, Option.getD_some, decide_eq_true_eq] at this
  exact this hi h3

/-- The field of a unit. -/
def unitField : TimeUnit → Field
  | .second => .relSec
  | .minute => .relMin
  | .hour => .relHour
  | .day => .relDay
  | .week => .relWeek
  | .month => .relMon
  | .year => .relYear

theorem unitWord_keyword {u : TimeUnit} {w : Str} (h : UnitWord u w) : IsKeyword w (unitField u) 1 .rel := by
  have abb : ∀ (full : Str) (n : Nat), Abbrev full n w → (2 ≤ n ∨ full.head? ≠ some 109) →
      (∀ i : Fin (full.length + 1), n ≤ i.val → ((full.take i.val).all isAlpha = true ∧ full.take i.val ≠ [] ∧
        (findKeyword (full.take i.val) keywords).map (fun p => (p.1.field, p.1.value, p.1.set)) = some (unitField u, 1, Setter.rel))) → IsKeyword w (unitField u) 1 .rel := by
    intro full n ha h2 hk
    apply isKeyword_abbrev ha (abbrev_ne_M ha h2)
    intro i hi hni
    exact hk ⟨i, hi⟩ hni
  cases u with
  | second =>
    rcases h with h | h
    · exact abb _ 1 h (Or.inr (by decide)) (by decide +kernel)
    · exact isKeyword_lower h (lower_ne_M h (by decide)) (by decide) (by decide) (by decide +kernel)
  | minute =>
    rcases h with h | h | h
    · exact isKeyword_lower (l := bs "m") (by rw [h]; decide) (by rw [h]; decide) (by decide) (by decide) (by decide +kernel)
    · exact abb _ 2 h (Or.inl (by omega)) (by decide +kernel)
    · exact isKeyword_lower h (lower_ne_M h (by decide)) (by decide) (by decide) (by decide +kernel)
  | hour =>
    rcases h with h | h
    · exact abb _ 1 h (Or.inr (by decide)) (by decide +kernel)
    · exact abb _ 2 h (Or.inl (by omega)) (by decide +kernel)
  | day => exact abb _ 1 h (Or.inr (by decide)) (by decide +kernel)
  | week => exact abb _ 1 h (Or.inr (by decide)) (by decide +kernel)
  | year => exact abb _ 1 h (Or.inr (by decide)) (by decide +kernel)
  | month =>
    rcases h with h | ⟨ha, hne⟩
    · rw [h]
      refine ⟨by decide, by decide, ⟨⟨bs "*M", .relMon, 1, .rel⟩, by decide +kernel, rfl, rfl, rfl⟩⟩
    · obtain ⟨i, hi, hni, e⟩ := abbrev_take ha
      have k : ∀ i : Fin ((bs "months").length + 1), 2 ≤ i.val → (bs "months").take i.val ≠ bs "mon" → (((bs "months").take i.val).all isAlpha = true ∧ (bs "months").take i.val ≠ [] ∧
        (findKeyword ((bs "months").take i.val) keywords).map (fun p => (p.1.field, p.1.value, p.1.set)) = some (Field.relMon, 1, Setter.rel)) := by decide +kernel
      obtain ⟨a, b, c⟩ := k ⟨i, hi⟩ hni (by rw [← e]; exact hne)
      exact isKeyword_lower e (abbrev_ne_M ha (Or.inl (by omega))) a b c

theorem numberWord_keyword {n : Nat} {w : Str} (h : (w.map toLower, n) ∈ numberWords) : ∃ f, IsKeyword w f n .number := by
  refine ⟨.sec, ?_⟩
  have k : ∀ p ∈ numberWords, p.1 ≠ bs "m" ∧ p.1.all isAlpha = true ∧ p.1 ≠ [] ∧ (findKeyword p.1 keywords).map (fun q => (q.1.field, q.1.value, q.1.set)) = some (Field.sec, (p.2 : Int), Setter.number) := by
    decide +kernel
  obtain ⟨a, b, c, d⟩ := k _ h
  exact isKeyword_lower rfl (lower_ne_M rfl a) b c d

theorem halfText_keyword {pm : Bool} {w : Str} (h : HalfText pm w) : IsKeyword w .ampm (if pm then 1 else 0) .ampm := by
  cases pm with
  | true => exact isKeyword_lower h (lower_ne_M h (by decide)) (by decide) (by decide) (by decide +kernel)
  | false => exact isKeyword_lower h (lower_ne_M h (by decide)) (by decide) (by decide) (by decide +kernel)

theorem agoWord_keyword {w : Str} (h : w.map toLower = bs "ago") : IsKeyword w .sec 0 .ignore :=
  isKeyword_lower h (lower_ne_M h (by decide)) (by decide) (by decide) (by decide +kernel)

theorem ordinalWord_keyword {d : Nat} {w : Str} (h : OrdinalWord d w) : IsKeyword w .sec 0 .ordinal ∧ ∃ k, findKeyword w keywords = some (k, w.length) ∧ k.name = w.map toLower ∧ k.set = .ordinal := by
  have key : ∀ l : Str, w.map toLower = l → l ∈ [bs "st", bs "nd", bs "rd", bs "th"] → IsKeyword w .sec 0 .ordinal ∧ ∃ k, findKeyword w keywords = some (k, w.length) ∧ k.name = w.map toLower ∧ k.set = .ordinal := by
    intro l e hl
    have k : ∀ l ∈ [bs "st", bs "nd", bs "rd", bs "th"], l ≠ bs "m" ∧ l.all isAlpha = true ∧ l ≠ [] ∧
        (findKeyword l keywords).map (fun p => (p.1.field, p.1.value, p.1.set)) = some (Field.sec, (0 : Int), Setter.ordinal) ∧ (findKeyword l keywords).map (fun p => p.1.name) = some l := by
      decide +kernel
    obtain ⟨a, b, c, d, f⟩ := k l hl
    have hM := lower_ne_M e a
    have kw := isKeyword_lower e hM b c d
    refine ⟨kw, ?_⟩
    obtain ⟨k, h1, h2, h3, h4⟩ := kw.found
    refine ⟨k, h1, ?_, h4⟩
    rw [← e, findKeyword_lower w kw.alpha hM, h1] at f
    exact Option.some.inj f
  unfold OrdinalWord at h
  apply key _ h
  split
  · simp
  · split
    · simp
    · split <;> simp

theorem noonWord_keyword {w : Str} (h : w.map toLower = bs "noon") : IsKeyword w .sec 12 .timeofday :=
  isKeyword_lower h (lower_ne_M h (by decide)) (by decide) (by decide) (by decide +kernel)

theorem midnightWord_keyword {w : Str} (h : w.map toLower = bs "midnight") : IsKeyword w .sec 0 .timeofday :=
  isKeyword_lower h (lower_ne_M h (by decide)) (by decide) (by decide) (by decide +kernel)

theorem todayWord_keyword {w : Str} (h : w.map toLower = bs "today") : IsKeyword w .sec 0 .today :=
  isKeyword_lower h (lower_ne_M h (by decide)) (by decide) (by decide) (by decide +kernel)

theorem nowWord_keyword {w : Str} (h : w.map toLower = bs "now") : IsKeyword w .sec 0 .now :=
  isKeyword_lower h (lower_ne_M h (by decide)) (by decide) (by decide) (by decide +kernel)

theorem yesterdayWord_keyword {w : Str} (h : w.map toLower = bs "yesterday") : IsKeyword w .relDay 1 .rel :=
  isKeyword_lower h (lower_ne_M h (by decide)) (by decide) (by decide) (by decide +kernel)

theorem zoneName_keyword {z : Int} {w : Str} (h : (w.map toLower, z) ∈ zoneNames) : IsKeyword w .tz z .plain := by
  have k : ∀ p ∈ zoneNames, p.1 ≠ bs "m" ∧ p.1.all isAlpha = true ∧ p.1 ≠ [] ∧ (findKeyword p.1 keywords).map (fun q => (q.1.field, q.1.value, q.1.set)) = some (Field.tz, p.2, Setter.plain) := by
    decide +kernel
  obtain ⟨a, b, c, d⟩ := k _ h
  exact isKeyword_lower rfl (lower_ne_M rfl a) b c d

theorem parse_word {w : Str} {field : Field} {value : Int} {set : Setter} (h : IsKeyword w field value set) (st : State) (rest : Str) (hr : NoAlpha rest) :
    ∃ k, k.field = field ∧ k.value = value ∧ k.set = set ∧ parse st (w ++ rest) = (applyKeyword st k).bind (fun st => parse st rest) := by
  obtain ⟨k, h1, h2, h3, h4⟩ := h.found
  exact ⟨k, h2, h3, h4, parse_keyword st w rest k h.ne h.alpha hr h1⟩

end Notmuch.Time
