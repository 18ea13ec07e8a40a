import Verif.Proofs.BoolTerm

/-!
# C05, C06, C29, C30: util/string-util.c
-/

namespace Notmuch.Props
open Notmuch.StringUtil Notmuch.BoolTermSpec

/-- **C05**: quoting a term and parsing it back is the identity, for every term. -/
theorem C05_boolean_term_roundtrip (p t : Str) (hp : LegalPrefix p) :
    parseBooleanTerm (makeBooleanTerm (some p) t) = some (p, t) :=
  parse_of_reads (make_reads p t hp)

/-- What `make_boolean_term` writes reads, by the grammar, as that prefix and term. -/
theorem C05_make_reads (p t : Str) (hp : LegalPrefix p) : Reads (makeBooleanTerm (some p) t) p t :=
  make_reads p t hp

/-- The parser accepts exactly the grammar, with exactly that meaning. -/
theorem C05_parse_iff (s p t : Str) : parseBooleanTerm s = some (p, t) ↔ Reads s p t :=
  ⟨reads_of_parse, parse_of_reads⟩

/-- A text has at most one reading. -/
theorem C05_unambiguous (s p t p' t' : Str) (h : Reads s p t) (h' : Reads s p' t') :
    p = p' ∧ t = t' := by
  have a := parse_of_reads h
  have b := parse_of_reads h'
  rw [a] at b; simpa using b

example : LegalPrefix (bs "id") ∧
    makeBooleanTerm (some (bs "id")) (bs "a \"b)") = bs "id:\"a \"\"b)\"" := by
  unfold LegalPrefix; refine ⟨⟨by decide, by decide, ?_⟩, by decide +kernel⟩
  intro c h; have : c = 105 := by simpa [bs] using h.symm
  subst this; decide

/-- **C06** (make): the text plus its NUL is exactly `needed` bytes, and the buffer used,
passed in or reallocated, has at least that size. -/
theorem C06_make_fits (buf : Option Nat) (pre : Option Str) (t : Str) :
    (makeBooleanTerm pre t).length + 1 = makeNeeded pre t ∧
    (makeBooleanTerm pre t).length + 1 ≤ makeBufSize buf pre t := by
  refine ⟨make_length pre t, ?_⟩
  rw [make_length]
  unfold makeBufSize
  cases buf with
  | none => simp only; omega
  | some n => simp only; split <;> omega

/-- **C06** (parse): the de-quoting loop writes at most `strlen (pos)` bytes, the size
allocated (`pos` is the opening quote), counting the NUL when the closing quote is found. -/
theorem C06_dequote_fits (body : Str) :
    (dequote body).1.length ≤ (34 :: body).length ∧
    ((dequote body).2.isSome → (dequote body).1.length + 1 ≤ (34 :: body).length) := by
  have := dequote_length body
  simp only [List.length_cons]
  exact ⟨by omega, fun h => by have := this.2 h; omega⟩

example : makeNeeded (some (bs "id")) (bs "a\"b") = 10 := by decide +kernel

/-- **C29**: a sanitised string has the same length and no control character; text without
control characters is untouched (hence sanitising twice is sanitising once). -/
theorem C29_sanitize (s : Str) :
    (sanitize s).length = s.length ∧ (∀ c ∈ sanitize s, 32 ≤ c) ∧
    ((∀ c ∈ s, 32 ≤ c) → sanitize s = s) ∧ sanitize (sanitize s) = sanitize s := by
  have hid : ∀ s : Str, (∀ c ∈ s, 32 ≤ c) → sanitize s = s := by
    intro s h
    unfold sanitize
    conv => rhs; rw [← List.map_id s]
    apply List.map_congr_left
    intro c hc
    have := h c hc
    clear hc; revert this; revert c
    apply forall_byte; decide +kernel
  have hc : ∀ c ∈ sanitize s, 32 ≤ c := by
    intro c hc
    unfold sanitize at hc
    rw [List.mem_map] at hc
    obtain ⟨a, ha, rfl⟩ := hc
    clear ha; revert a
    apply forall_byte; decide +kernel
  exact ⟨by simp [sanitize], hc, hid s, hid _ hc⟩

/-- **C29** (byte by byte): a tab or newline becomes a blank, any other control character a question
mark, and everything else stays what it is, at the same position. -/
theorem C29_sanitize_bytes (s : Str) (i : Nat) (c : UInt8) (h : s[i]? = some c) :
    ((c = 9 ∨ c = 10) → (sanitize s)[i]? = some 32) ∧
    (c < 32 → c ≠ 9 → c ≠ 10 → (sanitize s)[i]? = some 63) ∧
    (32 ≤ c → (sanitize s)[i]? = some c) := by
  simp only [sanitize, List.getElem?_map, h, Option.map_some, Option.some.injEq]
  clear h
  revert c
  apply forall_byte; decide +kernel

example : sanitize (bs "a\tb\nc" ++ [1]) = bs "a b c?" := by decide +kernel

/-- **C30**: strings equal up to ASCII case have the same hash, so a hash table keyed with
`strcase_equal`/`strcase_hash` finds them. -/
theorem C30_strcase_hash_consistent (a b : Str) (h : strcaseEqual a b = true) :
    strcaseHash a = strcaseHash b := by
  unfold strcaseEqual at h
  have h : a.map toLower = b.map toLower := by simpa using h
  have key : ∀ (s : Str) (n : UInt32),
      s.foldl (fun (h : UInt32) (c : UInt8) => ((h <<< 5) + h) + (toLower c).toNat.toUInt32) n =
      (s.map toLower).foldl (fun (h : UInt32) (c : UInt8) => ((h <<< 5) + h) + c.toNat.toUInt32) n := by
    intro s n; rw [List.foldl_map]
  unfold strcaseHash
  rw [key, key, h]

/-- **C30**: two strings are `strcase_equal` iff they have the same length and at every position the
bytes are equal or are the upper- and lower-case form of the same ASCII letter. -/
theorem C30_strcase_equal_iff (a b : Str) : strcaseEqual a b = true ↔
    a.length = b.length ∧ ∀ (i : Nat) (x y : UInt8), a[i]? = some x → b[i]? = some y →
      x = y ∨ (65 ≤ x ∧ x ≤ 90 ∧ y = x + 32) ∨ (65 ≤ y ∧ y ≤ 90 ∧ x = y + 32) := by
  have hb : ∀ x y : UInt8, toLower x = toLower y ↔
      (x = y ∨ (65 ≤ x ∧ x ≤ 90 ∧ y = x + 32) ∨ (65 ≤ y ∧ y ≤ 90 ∧ x = y + 32)) := by
    have h : ∀ x : UInt8, (toLower x = if 65 ≤ x ∧ x ≤ 90 then x + 32 else x) ∧
        (65 ≤ x → x ≤ 90 → ¬ (65 ≤ x + 32 ∧ x + 32 ≤ 90)) := by
      apply forall_byte; decide +kernel
    intro x y
    rw [(h x).1, (h y).1]
    have hx := (h x).2
    have hy := (h y).2
    by_cases h1 : 65 ≤ x ∧ x ≤ 90 <;> by_cases h2 : 65 ≤ y ∧ y ≤ 90
    · rw [if_pos h1, if_pos h2]
      constructor
      · intro e; left
        have : x + 32 - 32 = y + 32 - 32 := by rw [e]
        simpa using this
      · rintro (rfl | ⟨_, _, rfl⟩ | ⟨_, _, rfl⟩)
        · rfl
        · exact absurd h2 (hx h1.1 h1.2)
        · exact absurd h1 (hy h2.1 h2.2)
    · rw [if_pos h1, if_neg h2]
      constructor
      · intro e; exact Or.inr (Or.inl ⟨h1.1, h1.2, e.symm⟩)
      · rintro (rfl | ⟨_, _, rfl⟩ | ⟨a, b, rfl⟩)
        · exact absurd h1 h2
        · rfl
        · exact absurd ⟨a, b⟩ h2
    · rw [if_neg h1, if_pos h2]
      constructor
      · intro e; exact Or.inr (Or.inr ⟨h2.1, h2.2, e⟩)
      · rintro (rfl | ⟨a, b, rfl⟩ | ⟨_, _, rfl⟩)
        · exact absurd h2 h1
        · exact absurd ⟨a, b⟩ h1
        · rfl
    · rw [if_neg h1, if_neg h2]
      constructor
      · exact Or.inl
      · rintro (h | ⟨a, b, _⟩ | ⟨a, b, _⟩)
        · exact h
        · exact absurd ⟨a, b⟩ h1
        · exact absurd ⟨a, b⟩ h2
  unfold strcaseEqual
  rw [beq_iff_eq]
  induction a generalizing b with
  | nil => cases b <;> simp
  | cons x a ih =>
    cases b with
    | nil => simp
    | cons y b =>
      rw [List.map_cons, List.map_cons, List.cons.injEq]
      refine Iff.trans (and_congr (hb x y) (ih b)) ?_
      constructor
      · rintro ⟨h1, h2, h3⟩
        refine ⟨by simp [h2], ?_⟩
        intro i u v hu hv
        cases i with
        | zero => simp at hu hv; subst hu hv; exact h1
        | succ i => simp at hu hv; exact h3 i u v hu hv
      · rintro ⟨h2, h3⟩
        refine ⟨h3 0 x y rfl rfl, by simpa using h2, ?_⟩
        intro i u v hu hv
        exact h3 (i + 1) u v (by simpa using hu) (by simpa using hv)

/-- `strcase_equal` is an equivalence, as the hash table needs. -/
theorem C30_strcase_equal_equivalence :
    (∀ a, strcaseEqual a a = true) ∧ (∀ a b, strcaseEqual a b = strcaseEqual b a) ∧
    (∀ a b c, strcaseEqual a b = true → strcaseEqual b c = true → strcaseEqual a c = true) := by
  refine ⟨fun a => by simp [strcaseEqual], fun a b => ?_, fun a b c h1 h2 => ?_⟩
  · unfold strcaseEqual; rw [Bool.eq_iff_iff, beq_iff_eq, beq_iff_eq]; exact eq_comm
  · unfold strcaseEqual at *; simp at *; rw [h1, h2]

example : strcaseEqual (bs "FoO@Bar") (bs "fOo@bAR") = true := by decide +kernel

end Notmuch.Props
