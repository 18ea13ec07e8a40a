import Verif.Proofs.Hex

/-!
# C01 – C04: hex escaping (util/hex-escape.c)
-/

namespace Notmuch.Props
open Notmuch.Hex Notmuch.HexSpec

/-- **C01** (fresh buffer): decoding what was encoded gives the original bytes. -/
theorem C01_hex_roundtrip (s : Str) : decode (encode s) = some s := by
  simp [decode, decodeRun_encode]

/-- **C01** (in place): the same when the decoder reads and writes the same buffer. -/
theorem C01_hex_roundtrip_inplace (s : Str) : decodeInplace (encode s) = some s := by
  rw [decodeInplace_eq, C01_hex_roundtrip]
  intro h
  have := encode_safe s 0 h
  revert this
  unfold SafeChar; decide +kernel

/-- In-place decoding of any C string agrees with decoding into a fresh buffer. -/
theorem C01_inplace_eq (s : Str) (h0 : 0 ∉ s) : decodeInplace s = decode s :=
  decodeInplace_eq s h0

example : 0 ∉ bs "a b%(\"" := by decide +kernel
example : encode (bs "a b%(\"") = bs "a%20b%25%28%22" := by decide +kernel

/-- **C02** (alphabet): only letters, digits, `+-_@=.,` and `%` appear in encoded text. -/
theorem C02_hex_alphabet (s : Str) : ∀ b ∈ encode s, SafeChar b := encode_safe s

/-- In particular no blank, parenthesis, double quote, slash or `#`. -/
theorem C02_hex_no_separator (s : Str) : ∀ b ∈ encode s, isSpace b = false ∧ b ≠ 40 ∧ b ≠ 41 ∧
    b ≠ 34 ∧ b ≠ 47 ∧ b ≠ 35 ∧ b ≠ 0 := by
  intro b hb
  have := encode_safe s b hb
  clear hb
  revert this
  revert b
  apply forall_byte; unfold SafeChar; decide +kernel

theorem encode_grows (s : Str) : s.length ≤ (encode s).length := by
  induction s with
  | nil => simp
  | cons c s ih =>
    simp only [encode]
    split
    · simp; omega
    · simp [escapeByte]; omega

/-- **C02** (readability): text of safe characters other than `%` is left as it is, and one that
is changed contains another character. -/
theorem C02_hex_identity (s : Str) : encode s = s ↔ ∀ b ∈ s, SafeChar b ∧ b ≠ 37 := by
  have hb : ∀ c : UInt8, isOutput c = true ↔ (SafeChar c ∧ c ≠ 37) := by
    apply forall_byte; unfold SafeChar; decide +kernel
  induction s with
  | nil => simp [encode]
  | cons c s ih =>
    simp only [encode, List.mem_cons, forall_eq_or_imp]
    cases h : isOutput c with
    | true =>
      simp only [if_true, List.cons.injEq, true_and, ih]
      exact ⟨fun h' => ⟨(hb c).1 h, h'⟩, fun h' => h'.2⟩
    | false =>
      have hn : ¬ (SafeChar c ∧ c ≠ 37) := by rw [← hb, h]; simp
      simp only [Bool.false_eq_true, if_false]
      constructor
      · intro e
        have hl := congrArg List.length e
        have hle : s.length ≤ (encode s).length := by
          have := encode_grows s
          exact this
        simp [escapeByte] at hl
        omega
      · intro h'; exact absurd h'.1 hn

/-- **C02** (injectivity). -/
theorem C02_hex_injective (s t : Str) (h : encode s = encode t) : s = t := by
  have := C01_hex_roundtrip s
  rw [h, C01_hex_roundtrip] at this
  exact (Option.some.inj this).symm

/-- **C03** (encoder): the size asked for is exactly text plus NUL. -/
theorem C03_encode_size (s : Str) : encodeNeeded s = (encode s).length + 1 :=
  (encode_length s).symm

/-- **C03** (decoder): whatever is written, including the partial output of a failed run,
fits the size asked for; for well-formed input the size is exact. `Int` arithmetic: the
running value of the C `size_t` never goes below the initial 1 in total, so it is no
wrap-around artefact. -/
theorem C03_decode_size (s : Str) : ((decodeRun s).1.length : Int) + 1 ≤ decodeNeeded s ∧
    (∀ t, decode s = some t → decodeNeeded s = t.length + 1) := by
  have h := decodeNeededLoop_run s 1
  refine ⟨by unfold decodeNeeded; omega, fun t ht => ?_⟩
  unfold decode at ht
  split at ht
  · rename_i hb
    have := h.2 hb
    simp at ht; subst ht
    unfold decodeNeeded; omega
  · simp at ht

/-- **C04** (success): decoding gives `t` iff `t` is `s` with every escape replaced. -/
theorem C04_decode_iff (s t : Str) : decode s = some t ↔ Unescapes s t := by
  unfold decode
  constructor
  · intro h
    split at h
    · rename_i hb
      simp at h; subst h
      exact decodeRun_sound s hb
    · simp at h
  · intro h
    rw [decodeRun_complete h]; rfl

/-- **C04** (failure): decoding fails iff some `%` lacks its two hexadecimal digits. -/
theorem C04_decode_none_iff (s : Str) : decode s = none ↔ Malformed s := by
  unfold decode
  constructor
  · intro h
    split at h
    · simp at h
    · rename_i hb
      exact malformed_of_fail s (by simpa using hb)
  · intro h
    split
    · rename_i hb
      exact absurd h (not_malformed_of_unescapes (decodeRun_sound s hb))
    · rfl

/-- **C04** (length): decoding never grows the text, so decoding in place is possible. -/
theorem C04_decode_shrinks (s t : Str) (h : decode s = some t) : t.length ≤ s.length := by
  unfold decode at h
  split at h
  · simp at h; subst h; exact decodeRun_length s
  · simp at h

example : decode (bs "a%2") = none ∧ decode (bs "%41%6a%4A") = some (bs "AjJ") := by decide +kernel
/-- Worth knowing: `%00` is accepted and yields an embedded NUL. -/
example : decode (bs "a%00b") = some [97, 0, 98] := by decide +kernel

end Notmuch.Props
