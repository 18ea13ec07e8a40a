import Verif.Model.MuaSecure

namespace Notmuch.MuaSecure.Proofs
open Notmuch.MuaSecure

theorem lastBefore_spec (fold : Char → Char) (pat text : List Char) : ∀ n,
    match lastBefore fold pat text n with
    | none => ∀ i, i < n → startsWith fold pat (text.drop i) = false
    | some p => p < n ∧ startsWith fold pat (text.drop p) = true ∧ ∀ i, p < i → i < n → startsWith fold pat (text.drop i) = false := by
  intro n
  induction n with
  | zero => simp [lastBefore]
  | succ n ih =>
    rw [lastBefore]
    by_cases h : startsWith fold pat (text.drop n) = true
    · rw [if_pos h]
      exact ⟨by omega, h, fun i h1 h2 => by omega⟩
    · rw [if_neg h]
      have h' : startsWith fold pat (text.drop n) = false := by simpa using h
      cases hl : lastBefore fold pat text n with
      | none =>
        rw [hl] at ih
        intro i hi
        by_cases e : i = n
        · rw [e]; exact h'
        · exact ih i (by omega)
      | some p =>
        rw [hl] at ih
        obtain ⟨a, b, c⟩ := ih
        refine ⟨by omega, b, fun i h1 h2 => ?_⟩
        by_cases e : i = n
        · rw [e]; exact h'
        · exact c i h1 (by omega)

theorem startsWith_iff (fold : Char → Char) : ∀ (pat text : List Char),
    startsWith fold pat text = true ↔ ∃ a b, text = a ++ b ∧ a.map fold = pat.map fold := by
  intro pat
  induction pat with
  | nil => intro text; simp [startsWith]
  | cons p ps ih =>
    intro text
    cases text with
    | nil => simp [startsWith]
    | cons c cs =>
      simp only [startsWith, Bool.and_eq_true, beq_iff_eq, ih]
      constructor
      · rintro ⟨h1, a, b, rfl, h2⟩; exact ⟨c :: a, b, rfl, by simp [h1, h2]⟩
      · rintro ⟨a, b, h1, h2⟩
        cases a with
        | nil => simp at h2
        | cons x a =>
          simp only [List.cons_append, List.cons.injEq] at h1
          simp only [List.map_cons, List.cons.injEq] at h2
          obtain ⟨rfl, rfl⟩ := h1
          exact ⟨h2.1.symm, a, b, rfl, h2.2⟩

theorem startsWith_len {fold : Char → Char} {pat text : List Char} (h : startsWith fold pat text = true) : pat.length ≤ text.length := by
  obtain ⟨a, b, rfl, h2⟩ := (startsWith_iff fold pat text).1 h
  have := congrArg List.length h2
  simp at this
  simp; omega

theorem startsWith_get {fold : Char → Char} {pat text : List Char} (h : startsWith fold pat text = true) (k : Nat) (c : Char) (hk : pat[k]? = some c) :
    ∃ d, text[k]? = some d ∧ fold d = fold c := by
  obtain ⟨a, b, rfl, h2⟩ := (startsWith_iff fold pat text).1 h
  have h3 : (a.map fold)[k]? = (pat.map fold)[k]? := by rw [h2]
  rw [List.getElem?_map, List.getElem?_map, hk] at h3
  cases ha : a[k]? with
  | none => rw [ha] at h3; cases h3
  | some d =>
    rw [ha] at h3
    have hl := (List.getElem?_eq_some_iff.1 ha).1
    exact ⟨d, by rw [List.getElem?_append_left hl]; exact ha, by simpa using h3⟩

/-- Two places with the string are not nearer than its length. -/
theorem apart {fold : Char → Char} (hf : ∀ c, c ∈ "#secure".toList → fold c ≠ fold '<') {text : List Char} {i j : Nat} (hij : i < j)
    (hi : startsWith fold secure (text.drop i) = true) (hj : startsWith fold secure (text.drop j) = true) : i + secure.length ≤ j := by
  by_cases h : i + secure.length ≤ j
  · exact h
  · exfalso
    have hlen : secure.length = 8 := by decide
    obtain ⟨k, rfl⟩ : ∃ k, j = i + (k + 1) := ⟨j - i - 1, by omega⟩
    obtain ⟨d, d1, d2⟩ := startsWith_get hj 0 '<' (by decide)
    have hk : k < "#secure".toList.length := by
      have : "#secure".toList.length = 7 := by decide
      omega
    have e : secure[k + 1]? = some ("#secure".toList[k]) := by
      have : secure = '<' :: "#secure".toList := by decide
      rw [this, List.getElem?_cons_succ]; exact List.getElem?_eq_getElem hk
    obtain ⟨d', d3, d4⟩ := startsWith_get hi (k + 1) _ e
    rw [List.getElem?_drop] at d1 d3
    rw [show i + (k + 1) + 0 = i + (k + 1) by omega] at d1
    rw [d1] at d3
    simp only [Option.some.injEq] at d3
    subst d3
    exact hf _ (List.getElem_mem hk) (by rw [← d4, d2])

theorem search_none {fold : Char → Char} {text : List Char} {n : Nat} :
    searchBackward fold secure text n = none ↔ ∀ i, i + secure.length ≤ n → startsWith fold secure (text.drop i) = false := by
  unfold searchBackward
  split
  · rename_i h
    have hs := lastBefore_spec fold secure text (n - secure.length + 1)
    constructor
    · intro he i hi
      rw [he] at hs
      exact hs i (by omega)
    · intro hh
      cases hl : lastBefore fold secure text (n - secure.length + 1) with
      | none => rfl
      | some p =>
        rw [hl] at hs
        have h2 := hs.2.1
        have h3 := hs.1
        rw [hh p (by omega)] at h2
        cases h2
  · rename_i h
    exact ⟨fun _ i hi => by omega, fun _ => rfl⟩

theorem search_some {fold : Char → Char} {text : List Char} {n p : Nat} (h : searchBackward fold secure text n = some p) :
    p + secure.length ≤ n ∧ startsWith fold secure (text.drop p) = true ∧
    ∀ i, p < i → i + secure.length ≤ n → startsWith fold secure (text.drop i) = false := by
  unfold searchBackward at h
  split at h
  · have hs := lastBefore_spec fold secure text (n - secure.length + 1)
    rw [h] at hs
    exact ⟨by omega, hs.2.1, fun i h1 h2 => hs.2.2 i h1 (by omega)⟩
  · cases h

theorem occurs_le {fold : Char → Char} {text : List Char} {i : Nat} (h : startsWith fold secure (text.drop i) = true) : i + secure.length ≤ text.length := by
  have h1 := startsWith_len h
  have hlen : secure.length = 8 := by decide
  rw [List.length_drop] at h1
  omega

theorem placed_iff {fold : Char → Char} (hf : ∀ c, c ∈ "#secure".toList → fold c ≠ fold '<') (text : List Char) (body : Nat) :
    placed fold text body = true ↔ ∀ i, startsWith fold secure (text.drop i) = true → i = body := by
  unfold placed
  cases hs : searchBackward fold secure text text.length with
  | none =>
    rw [search_none] at hs
    simp only [true_iff]
    intro i hi
    rw [hs i (occurs_le hi)] at hi
    cases hi
  | some p =>
    obtain ⟨a, b, c⟩ := search_some hs
    simp only [Bool.and_eq_true, beq_iff_eq, Option.isNone_iff_eq_none, search_none]
    constructor
    · rintro ⟨rfl, h⟩ i hi
      rcases Nat.lt_trichotomy i p with hlt | he | hgt
      · rw [h i (apart hf hlt hi b)] at hi; cases hi
      · exact he
      · rw [c i hgt (occurs_le hi)] at hi; cases hi
    · intro h
      refine ⟨h p b, fun i hi => ?_⟩
      cases hx : startsWith fold secure (text.drop i) with
      | false => rfl
      | true =>
        have hlen : secure.length = 8 := by decide
        have := h i hx
        have := h p b
        omega

theorem dropWhile_tag (l : List Char) :
    endsLine (l.dropWhile (fun c => c != '\n' && c != '>')) = true ↔
      ∃ attrs rest, l = attrs ++ '>' :: '\n' :: rest ∧ ∀ c, c ∈ attrs → c ≠ '\n' ∧ c ≠ '>' := by
  induction l with
  | nil => simp [endsLine]
  | cons c cs ih =>
    by_cases h : c ≠ '\n' ∧ c ≠ '>'
    · rw [List.dropWhile_cons_of_pos (by simpa using h), ih]
      constructor
      · rintro ⟨attrs, rest, rfl, h2⟩
        refine ⟨c :: attrs, rest, rfl, ?_⟩
        intro d hd
        rcases List.mem_cons.1 hd with rfl | hd
        · exact h
        · exact h2 d hd
      · rintro ⟨attrs, rest, h1, h2⟩
        cases attrs with
        | nil =>
          simp only [List.nil_append, List.cons.injEq] at h1
          exact absurd h1.1 h.2
        | cons a attrs =>
          simp only [List.cons_append, List.cons.injEq] at h1
          exact ⟨attrs, rest, h1.2, fun d hd => h2 d (List.mem_cons_of_mem _ hd)⟩
    · rw [List.dropWhile_cons_of_neg (by simpa using h)]
      constructor
      · intro hm
        cases cs with
        | nil => simp [endsLine] at hm
        | cons d cs =>
          simp only [endsLine, Bool.and_eq_true, beq_iff_eq] at hm
          obtain ⟨rfl, rfl⟩ := hm
          exact ⟨[], cs, rfl, fun d hd => by cases hd⟩
      · rintro ⟨attrs, rest, h1, h2⟩
        cases attrs with
        | nil => simp only [List.nil_append] at h1; rw [h1]; rfl
        | cons a attrs =>
          simp only [List.cons_append, List.cons.injEq] at h1
          exact absurd (h1.1 ▸ h2 a (by simp)) h

theorem hasNewline_iff (fold : Char → Char) (text : List Char) (body : Nat) :
    hasNewline fold text body = true ↔ (startsWith fold secure (text.drop body) = true →
      ∃ attrs rest, text.drop (body + secure.length) = attrs ++ '>' :: '\n' :: rest ∧ ∀ c, c ∈ attrs → c ≠ '\n' ∧ c ≠ '>') := by
  unfold hasNewline
  by_cases h : startsWith fold secure (text.drop body) = true
  · rw [if_pos h, dropWhile_tag]; simp [h]
  · rw [if_neg h]; simp [h]

end Notmuch.MuaSecure.Proofs
