import Verif.Model.Git
import Verif.Spec.Git
import Verif.Proofs.Hex
import Verif.Proofs.BoolTerm
import Verif.Proofs.TagOps
import Verif.Base.ListLemmas

/-! # notmuch-git: quoting and the lines of the dump -/

namespace Notmuch.GitProof
open Notmuch.Git Notmuch.StringUtil Notmuch.TagUtil

/-! ## Quoting -/

/-- The code of one byte. -/
def code (safe : UInt8 → Bool) (c : UInt8) : Str := if safe c then [c] else Hex.escapeByte c

/-- The code of a string. -/
def codes (safe : UInt8 → Bool) (s : Str) : Str := s.flatMap (code safe)

theorem upper_ok : ∀ c : UInt8, isUpperHex (upperDigit (c.toNat / 16)) = true ∧ isUpperHex (upperDigit (c.toNat % 16)) = true ∧
    toLower (upperDigit (c.toNat / 16)) = Hex.hexDigit (c.toNat / 16) ∧ toLower (upperDigit (c.toNat % 16)) = Hex.hexDigit (c.toNat % 16) := by
  apply forall_byte; decide +kernel

theorem lowerEscapes_lit {c : UInt8} (h : c ≠ 37) (s : Str) : lowerEscapes (c :: s) = c :: lowerEscapes s := by
  match s with
  | [] => rfl
  | [a] => rfl
  | a :: b :: r => simp [lowerEscapes, h]

theorem hexQuoteSafe_eq (safe : Str) (h : 37 ∉ safe) (s : Str) :
    hexQuoteSafe safe s = codes (fun c => alwaysSafe c || safe.contains c) s := by
  unfold hexQuoteSafe
  induction s with
  | nil => rfl
  | cons c s ih =>
    unfold pyQuote codes
    rw [List.flatMap_cons]
    unfold code
    by_cases hc : (alwaysSafe c || safe.contains c) = true
    · rw [if_pos hc, if_pos hc]
      have h37 : c ≠ 37 := by
        rintro rfl
        simp [h] at hc
        revert hc; decide
      rw [List.singleton_append, lowerEscapes_lit h37, ih]
      rfl
    · rw [if_neg hc, if_neg hc]
      obtain ⟨h1, h2, h3, h4⟩ := upper_ok c
      simp only [List.cons_append, List.nil_append, lowerEscapes]
      rw [if_pos ⟨trivial, h1, h2⟩, h3, h4, ih]
      rfl

theorem unquote_lit {c : UInt8} (h : c ≠ 37) (s : Str) : unquote (c :: s) = c :: unquote s := by
  match s with
  | [] => rfl
  | [a] => rfl
  | a :: b :: r => simp [unquote, h]

theorem unquote_codes (safe : UInt8 → Bool) (h : safe 37 = false) (s r : Str) : unquote (codes safe s ++ r) = s ++ unquote r := by
  induction s with
  | nil => rfl
  | cons c s ih =>
    unfold codes
    rw [List.flatMap_cons, List.append_assoc]
    change unquote (code safe c ++ (codes safe s ++ r)) = _
    unfold code
    by_cases hc : safe c = true
    · rw [if_pos hc]
      have h37 : c ≠ 37 := by rintro rfl; simp [h] at hc
      rw [List.singleton_append, unquote_lit h37, ih]; rfl
    · rw [if_neg hc]
      simp only [Hex.escapeByte, Hex.escapeChar, List.cons_append, List.nil_append, unquote]
      obtain ⟨h1, h2⟩ := Hex.hexDigit_isX c
      rw [if_pos ⟨trivial, h1, h2⟩, ih]
      have := Hex.hexDigit_val c
      simp_all

/-- The safe bytes of file names. -/
def fileSafe (c : UInt8) : Bool := alwaysSafe c || (bs "+@=:,").contains c

theorem hexQuote_eq (s : Str) : hexQuote s = codes fileSafe s := hexQuoteSafe_eq _ (by decide) s

theorem encode_eq (s : Str) : Hex.encode s = codes Hex.isOutput s := by
  induction s with
  | nil => rfl
  | cons c s ih =>
    unfold Hex.encode codes
    rw [List.flatMap_cons]
    change _ = code _ c ++ codes _ s
    rw [← ih]
    unfold code
    split <;> rfl

theorem unquote_hexQuote (s : Str) : unquote (hexQuote s) = s := by
  have := unquote_codes fileSafe (by decide) s []
  rw [List.append_nil] at this
  rw [hexQuote_eq, this]
  simp [unquote]

theorem hexQuote_injective {s t : Str} (h : hexQuote s = hexQuote t) : s = t := by
  rw [← unquote_hexQuote s, h, unquote_hexQuote]

theorem unquote_encode (s r : Str) : unquote (Hex.encode s ++ r) = s ++ unquote r := by
  rw [encode_eq]; exact unquote_codes _ (by decide) s r

theorem encode_append (s t : Str) : Hex.encode (s ++ t) = Hex.encode s ++ Hex.encode t := by
  rw [encode_eq, encode_eq, encode_eq]; unfold codes; exact List.flatMap_append

theorem safe_agree : ∀ c : UInt8, c ≠ 126 → (alwaysSafe c || (bs "+@=,").contains c) = Hex.isOutput c := by
  apply forall_byte; decide +kernel

theorem encodedPrefix_eq (p : Str) (h : 126 ∉ p) : encodedPrefix p = Hex.encode p := by
  unfold encodedPrefix
  rw [hexQuoteSafe_eq _ (by decide), encode_eq]
  induction p with
  | nil => rfl
  | cons c p ih =>
    simp only [List.mem_cons, not_or] at h
    unfold codes
    rw [List.flatMap_cons, List.flatMap_cons]
    change code _ c ++ codes _ p = code _ c ++ codes _ p
    rw [ih h.2]
    congr 1
    unfold code
    simp only [safe_agree c (fun e => h.1 e.symm)]

theorem encode_prefix (p t : Str) : (Hex.encode p).isPrefixOf (Hex.encode t) = p.isPrefixOf t := by
  rw [Bool.eq_iff_iff, List.isPrefixOf_iff_prefix, List.isPrefixOf_iff_prefix]
  constructor
  · rintro ⟨r, hr⟩
    have h1 := unquote_encode t []
    rw [List.append_nil] at h1
    have h2 := unquote_encode p r
    rw [hr, h1] at h2
    exact ⟨_, by rw [← h2]; simp [unquote]⟩
  · rintro ⟨r, rfl⟩
    exact ⟨Hex.encode r, (encode_append p r).symm⟩

/-! ## Doubled quotation marks -/

theorem unDouble_quoteBody (s : Str) : unDouble (quoteBody s) = s := by
  induction s with
  | nil => rfl
  | cons c s ih =>
    unfold quoteBody
    split
    · rename_i h; subst h
      simp [unDouble, ih]
    · rename_i h
      cases e : quoteBody s with
      | nil => rw [e] at ih; simp only [unDouble] at ih; subst ih; rfl
      | cons d r => rw [e] at ih; simp only [unDouble]; rw [if_neg (by simp [h]), ih]

theorem xapianUnquote_quoted (s : Str) : xapianUnquote (34 :: quoteBody s ++ [34]) = s := by
  unfold xapianUnquote
  rw [if_pos ⟨rfl, List.getLast?_concat⟩]
  rw [List.cons_append, List.tail_cons, List.dropLast_concat]
  exact unDouble_quoteBody s

theorem xapianUnquote_term (s : Str) : xapianUnquote (makeBooleanTerm none s) = s := by
  unfold makeBooleanTerm
  simp only [List.nil_append]
  split
  · exact xapianUnquote_quoted s
  · rename_i h
    unfold xapianUnquote
    rw [if_neg]
    rintro ⟨h1, _⟩
    have := needQuoting_bare s (by simpa using h)
    exact this.2 h1

/-! ## Lines -/

theorem pyLines_line {l : Str} (h : ∀ c ∈ l, isBreak c = false) (r : Str) : pyLines (l ++ 10 :: r) = (l ++ [10]) :: pyLines r := by
  induction l with
  | nil => rfl
  | cons c l ih =>
    simp only [List.cons_append]
    rw [pyLines, if_neg (by simp [h c (by simp)]), ih (fun x hx => h x (by simp [hx]))]

theorem pieces_one {p : UInt8 → Bool} {w : Str} (h : ∀ c ∈ w, p c = false) : pieces p w = [w] := by
  induction w with
  | nil => rfl
  | cons c w ih =>
    unfold pieces
    rw [if_neg (by simp [h c (by simp)]), ih (fun x hx => h x (by simp [hx]))]

theorem pieces_cons {p : UInt8 → Bool} {w : Str} (h : ∀ c ∈ w, p c = false) {c : UInt8} (hc : p c = true) (r : Str) :
    pieces p (w ++ c :: r) = w :: pieces p r := by
  induction w with
  | nil => simp [pieces, hc]
  | cons d w ih =>
    simp only [List.cons_append]
    rw [pieces, if_neg (by simp [h d (by simp)]), ih (fun x hx => h x (by simp [hx]))]

theorem splitSep_none : ∀ s : Str, ¬ idSep <:+: s → splitSep s = [s] := by
  intro s
  induction s with
  | nil =>
    intro h
    rw [splitSep, dif_neg]
    decide +kernel
  | cons c s ih =>
    intro h
    rw [splitSep, dif_neg]
    · simp only
      rw [ih (fun hi => h (hi.trans (List.suffix_cons c s).isInfix))]
    · intro hp
      exact h (List.isPrefixOf_iff_prefix.mp hp).isInfix

theorem splitSep_first (T r : Str) (h : ∀ u v, T = u ++ 32 :: v → v.head? = some 43) :
    splitSep (T ++ (idSep ++ r)) = T :: splitSep r := by
  induction T with
  | nil =>
    rw [List.nil_append, splitSep, dif_pos]
    · have e : (idSep ++ r).drop 7 = r := by
        have : idSep.length = 7 := by decide +kernel
        rw [← this, List.drop_left]
      rw [e]
    · exact List.isPrefixOf_iff_prefix.mpr (List.prefix_append _ _)
  | cons c T ih =>
    rw [List.cons_append, splitSep, dif_neg]
    · simp only
      rw [ih (fun u v e => h (c :: u) v (by rw [e]; rfl))]
    · intro hp
      obtain ⟨w, hw⟩ := List.isPrefixOf_iff_prefix.mp hp
      have e7 : idSep = [32, 45, 45, 32, 105, 100, 58] := by decide +kernel
      rw [e7] at hw
      simp only [List.cons_append, List.nil_append, List.cons.injEq] at hw
      obtain ⟨hc, hw⟩ := hw
      have := h [] T (by rw [← hc]; rfl)
      cases T with
      | nil => simp at this
      | cons d T =>
        simp only [List.head?_cons, Option.some.injEq] at this
        subst this
        simp at hw

theorem prefix_quoteBody {p : Str} (hp : 34 ∉ p) : ∀ s : Str, p <+: quoteBody s → p <+: s := by
  induction p with
  | nil => intro s _; exact List.nil_prefix
  | cons a p ih =>
    intro s h
    simp only [List.mem_cons, not_or] at hp
    cases s with
    | nil => simp [quoteBody] at h
    | cons c s =>
      unfold quoteBody at h
      split at h
      · rename_i hc
        rw [List.cons_prefix_cons] at h
        exact absurd h.1.symm hp.1
      · rw [List.cons_prefix_cons] at h ⊢
        exact ⟨h.1, ih hp.2 s h.2⟩

theorem infix_quoteBody {p : Str} (hp : 34 ∉ p) : ∀ s : Str, p <:+: quoteBody s → p <:+: s := by
  intro s
  induction s with
  | nil => exact id
  | cons c s ih =>
    intro h
    have aux : ∀ d (r : Str), p <:+: d :: r → (p <+: d :: r) ∨ p <:+: r := fun d r h => List.infix_cons_iff.mp h
    unfold quoteBody at h
    split at h
    · rename_i hc
      subst hc
      rcases aux _ _ h with h | h
      · cases p with
        | nil => exact List.nil_infix
        | cons a p => rw [List.cons_prefix_cons] at h; exact absurd (by simp [h.1]) hp
      · rcases aux _ _ h with h | h
        · cases p with
          | nil => exact List.nil_infix
          | cons a p => rw [List.cons_prefix_cons] at h; exact absurd (by simp [h.1]) hp
        · exact (ih h).trans (List.suffix_cons _ s).isInfix
    · rename_i hc
      rcases aux _ _ h with h | h
      · have h' : p <+: quoteBody (c :: s) := by unfold quoteBody; rw [if_neg hc]; exact h
        exact (prefix_quoteBody hp _ h').isInfix
      · exact (ih h).trans (List.suffix_cons _ s).isInfix

/-- A character that is not in the pattern cannot be part of an occurrence at the end. -/
theorem infix_concat {p s : Str} {c : UInt8} (hc : c ∉ p) (h : p <:+: s ++ [c]) : p <:+: s := by
  obtain ⟨u, v, e⟩ := h
  rcases List.eq_nil_or_concat v with rfl | ⟨v', d, rfl⟩
  · rw [List.append_nil] at e
    rcases List.eq_nil_or_concat p with rfl | ⟨p', d, rfl⟩
    · exact List.nil_infix
    · rw [List.concat_eq_append, ← List.append_assoc] at e
      have := (List.append_inj_right' e (by simp))
      simp at this
      exact absurd (by simp [this]) hc
  · rw [List.concat_eq_append, ← List.append_assoc] at e
    exact ⟨u, v', List.append_inj_left' e (by simp)⟩

theorem infix_cons' {p s : Str} {c : UInt8} (hc : c ∉ p) (h : p <:+: c :: s) : p <:+: s := by
  rcases List.infix_cons_iff.mp h with h | h
  · cases p with
    | nil => exact List.nil_infix
    | cons a p => rw [List.cons_prefix_cons] at h; exact absurd (by simp [h.1]) hc
  · exact h

theorem sep_term {id : Str} (h : ¬ idSep <:+: id) : ¬ idSep <:+: makeBooleanTerm none id ++ [10] := by
  intro hi
  have hi := infix_concat (by decide +kernel) hi
  unfold makeBooleanTerm at hi
  simp only [List.nil_append] at hi
  split at hi
  · have hi := infix_concat (by decide +kernel) hi
    exact h (infix_quoteBody (by decide +kernel) _ (infix_cons' (by decide +kernel) hi))
  · exact h hi

end Notmuch.GitProof
