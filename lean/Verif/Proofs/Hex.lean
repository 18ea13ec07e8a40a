import Verif.Model.Hex
import Verif.Spec.Hex

namespace Notmuch.Hex

theorem hexDigit_isX : ∀ c : UInt8, isXDigit (hexDigit (c.toNat / 16)) = true ∧
    isXDigit (hexDigit (c.toNat % 16)) = true := by
  apply forall_byte; decide +kernel

theorem hexDigit_val : ∀ c : UInt8,
    UInt8.ofNat (16 * xval (hexDigit (c.toNat / 16)) + xval (hexDigit (c.toNat % 16))) = c := by
  apply forall_byte; decide +kernel

theorem isOutput_escape : isOutput escapeChar = false := by decide

theorem encode_length (s : Str) : (encode s).length + 1 = encodeNeeded s := by
  induction s with
  | nil => rfl
  | cons c s ih =>
    unfold encode encodeNeeded
    split <;> simp [escapeByte] <;> omega

theorem xdigit_val : ∀ h : UInt8, isXDigit h = true → HexSpec.HexVal h (xval h) := by
  intro h hx
  simp only [isXDigit, Bool.or_eq_true, Bool.and_eq_true, decide_eq_true_eq,
    UInt8.le_iff_toNat_le, UInt8.reduceToNat] at hx
  unfold xval
  simp only [UInt8.le_iff_toNat_le, UInt8.reduceToNat]
  rcases hx with (hx | hx) | hx
  · rw [if_pos hx]
    have := HexSpec.HexVal.digit (h.toNat - 48) (by omega)
    rwa [show 48 + (h.toNat - 48) = h.toNat by omega, UInt8.ofNat_toNat] at this
  · rw [if_neg (by omega), if_pos hx]
    have := HexSpec.HexVal.upper (h.toNat - 65) (by omega)
    rw [show 65 + (h.toNat - 65) = h.toNat by omega, UInt8.ofNat_toNat] at this
    rwa [show h.toNat - 55 = 10 + (h.toNat - 65) by omega]
  · rw [if_neg (by omega), if_neg (by omega), if_pos hx]
    have := HexSpec.HexVal.lower (h.toNat - 97) (by omega)
    rw [show 97 + (h.toNat - 97) = h.toNat by omega, UInt8.ofNat_toNat] at this
    rwa [show h.toNat - 87 = 10 + (h.toNat - 97) by omega]

theorem val_xdigit {h : UInt8} {v : Nat} (hv : HexSpec.HexVal h v) :
    isXDigit h = true ∧ xval h = v := by
  cases hv with
  | digit _ h => exact (by decide : ∀ n < 10, isXDigit (UInt8.ofNat (48 + n)) = true ∧
      xval (UInt8.ofNat (48 + n)) = n) _ h
  | upper n h => exact (by decide : ∀ n < 6, isXDigit (UInt8.ofNat (65 + n)) = true ∧
      xval (UInt8.ofNat (65 + n)) = 10 + n) _ h
  | lower n h => exact (by decide : ∀ n < 6, isXDigit (UInt8.ofNat (97 + n)) = true ∧
      xval (UInt8.ofNat (97 + n)) = 10 + n) _ h

theorem decodeRun_lit {c : UInt8} (hc : c ≠ escapeChar) (s : Str) :
    decodeRun (c :: s) = (c :: (decodeRun s).1, (decodeRun s).2) := by
  rw [decodeRun.eq_def]; simp [hc]

theorem decodeRun_esc {h1 h2 : UInt8} (x1 : isXDigit h1 = true) (x2 : isXDigit h2 = true)
    (s : Str) : decodeRun (escapeChar :: h1 :: h2 :: s) =
      (UInt8.ofNat (16 * xval h1 + xval h2) :: (decodeRun s).1, (decodeRun s).2) := by
  rw [decodeRun.eq_def]
  simp only [if_true, x1, x2, Bool.not_true, Bool.or_self, Bool.false_eq_true, if_false]

theorem decodeRun_encode (s : Str) : decodeRun (encode s) = (s, true) := by
  induction s with
  | nil => rfl
  | cons c s ih =>
    unfold encode
    split
    · rename_i h
      have hc : c ≠ escapeChar := by
        intro hc; subst hc; simp [isOutput_escape] at h
      rw [decodeRun_lit hc, ih]
    · show decodeRun (escapeChar :: hexDigit _ :: hexDigit _ :: encode s) = _
      rw [decodeRun_esc (hexDigit_isX c).1 (hexDigit_isX c).2, ih, hexDigit_val]

theorem decodeRun_sound (s : Str) (h : (decodeRun s).2 = true) :
    HexSpec.Unescapes s (decodeRun s).1 := by
  induction s using decodeRun.induct with
  | case1 => exact .nil
  | case2 h1 h2 s' hx => simp [decodeRun, hx] at h
  | case3 h1 h2 s' hx ih =>
    simp only [decodeRun, if_true, hx, if_false, Bool.false_eq_true] at h ⊢
    simp only [Bool.or_eq_true, Bool.not_eq_true', not_or, Bool.not_eq_false] at hx
    exact .esc (xdigit_val _ hx.1) (xdigit_val _ hx.2) (ih h)
  | case4 s hs =>
    rcases s with _ | ⟨a, _ | ⟨b, s⟩⟩
    · simp [decodeRun] at h
    · simp [decodeRun] at h
    · exact absurd rfl (hs a b s)
  | case5 c s hc ih =>
    rw [decodeRun_lit hc] at h ⊢
    exact .lit hc (ih h)

theorem decodeRun_complete {s t : Str} (h : HexSpec.Unescapes s t) : decodeRun s = (t, true) := by
  induction h with
  | nil => rfl
  | lit hc _ ih => rw [decodeRun_lit hc, ih]
  | esc h1 h2 _ ih =>
    have a := val_xdigit h1
    have b := val_xdigit h2
    simp [decodeRun, show (37 : UInt8) = escapeChar from rfl, a.1, a.2, b.1, b.2, ih]

theorem pct_not_x {v} : ¬ HexSpec.HexVal 37 v := by
  intro h
  have := (val_xdigit h).1
  revert this; decide

theorem not_malformed_of_unescapes {s t : Str} (h : HexSpec.Unescapes s t) :
    ¬ HexSpec.Malformed s := by
  induction h with
  | nil => rintro ⟨p, q, h, _⟩; simp at h
  | lit hc _ ih =>
    rintro ⟨p, q, he, hq⟩
    cases p with
    | nil => simp at he; exact hc he.1
    | cons a p => simp at he; exact ih ⟨p, q, he.2, hq⟩
  | esc h1 h2 _ ih =>
    rintro ⟨p, q, he, hq⟩
    rcases p with _ | ⟨a, _ | ⟨b, _ | ⟨c, p⟩⟩⟩
    · simp at he; subst he; exact hq ⟨_, _, _, _, _, rfl, h1, h2⟩
    · simp at he; obtain ⟨_, e, _⟩ := he; subst e; exact pct_not_x h1
    · simp at he; obtain ⟨_, _, e, _⟩ := he; subst e; exact pct_not_x h2
    · simp at he; exact ih ⟨p, q, he.2.2.2, hq⟩

theorem malformed_cons {c s} (h : HexSpec.Malformed s) : HexSpec.Malformed (c :: s) := by
  obtain ⟨p, q, e, hq⟩ := h
  exact ⟨c :: p, q, by simp [e], hq⟩

theorem malformed_of_fail (s : Str) (h : (decodeRun s).2 = false) : HexSpec.Malformed s := by
  induction s using decodeRun.induct with
  | case1 => simp [decodeRun] at h
  | case2 h1 h2 s' hx =>
    refine ⟨[], h1 :: h2 :: s', rfl, ?_⟩
    rintro ⟨a, b, v1, v2, r, e, ha, hb⟩
    simp at e
    obtain ⟨rfl, rfl, rfl⟩ := e
    simp [(val_xdigit ha).1, (val_xdigit hb).1] at hx
  | case3 h1 h2 s' hx ih =>
    simp only [decodeRun, if_true, hx, if_false, Bool.false_eq_true] at h
    exact malformed_cons (malformed_cons (malformed_cons (ih h)))
  | case4 s hs =>
    refine ⟨[], s, rfl, ?_⟩
    rintro ⟨a, b, v1, v2, r, e, ha, hb⟩
    exact hs _ _ _ e
  | case5 c s hc ih =>
    rw [decodeRun_lit hc] at h
    exact malformed_cons (ih h)

theorem xdigit_ne {h : UInt8} (hx : isXDigit h = true) : h ≠ escapeChar := by
  intro e; subst e; revert hx; decide

theorem decodeRun_length (s : Str) : (decodeRun s).1.length ≤ s.length := by
  induction s using decodeRun.induct with
  | case1 => simp [decodeRun]
  | case2 h1 h2 s' hx => simp [decodeRun, hx]
  | case3 h1 h2 s' hx ih =>
    simp only [decodeRun, if_true, hx, if_false, Bool.false_eq_true, List.length_cons]; omega
  | case4 s hs => 
    rcases s with _ | ⟨a, _ | ⟨b, s⟩⟩
    · simp [decodeRun]
    · simp [decodeRun]
    · exact absurd rfl (hs a b s)
  | case5 c s hc ih => rw [decodeRun_lit hc]; simp only [List.length_cons]; omega

/-- The loop never loses more than what is written by the decoder. -/
theorem decodeNeededLoop_add (s : Str) : ∀ n k : Int,
    decodeNeededLoop s (n + k) = decodeNeededLoop s n + k := by
  induction s with
  | nil => intro n k; simp [decodeNeededLoop]
  | cons c s ih =>
    intro n k
    unfold decodeNeededLoop
    split
    · split
      · rw [show n + k - 1 = (n - 1) + k by omega, ih]
      · rw [show n + k + 1 = (n + 1) + k by omega, ih]
    · rw [show n + k + 1 = (n + 1) + k by omega, ih]

theorem decodeNeededLoop_lit {c : UInt8} (hc : c ≠ escapeChar) (s : Str) (n : Int) :
    decodeNeededLoop (c :: s) n = decodeNeededLoop s (n + 1) := by
  rcases s with _ | ⟨a, _ | ⟨b, s⟩⟩ <;> simp [decodeNeededLoop, hc]

theorem decodeNeededLoop_esc {h1 h2 : UInt8} (x1 : isXDigit h1 = true) (x2 : isXDigit h2 = true)
    (s : Str) (n : Int) :
    decodeNeededLoop (escapeChar :: h1 :: h2 :: s) n = decodeNeededLoop s (n + 1) := by
  rw [decodeNeededLoop]
  simp only [x1, x2, Bool.and_true, decide_true, if_true]
  rw [decodeNeededLoop_lit (xdigit_ne x1), decodeNeededLoop_lit (xdigit_ne x2)]
  congr 1; omega

theorem decodeNeededLoop_bad {s : Str}
    (h : ∀ h1 h2 r, s = h1 :: h2 :: r → ¬ (isXDigit h1 = true ∧ isXDigit h2 = true)) (n : Int) :
    decodeNeededLoop (escapeChar :: s) n = decodeNeededLoop s (n + 1) := by
  rcases s with _ | ⟨a, _ | ⟨b, s⟩⟩
  · simp [decodeNeededLoop]
  · simp [decodeNeededLoop]
  · rw [decodeNeededLoop]
    have := h a b s rfl
    rw [if_neg (by simpa using this)]

theorem decodeNeededLoop_ge (s : Str) : ∀ n : Int, n ≤ decodeNeededLoop s n := by
  generalize hl : s.length = l
  induction l using Nat.strongRecOn generalizing s with
  | _ l ih =>
    intro n
    rcases s with _ | ⟨c, s⟩
    · simp [decodeNeededLoop]
    by_cases hc : c = escapeChar
    · subst hc
      by_cases hx : ∃ h1 h2 r, s = h1 :: h2 :: r ∧ isXDigit h1 = true ∧ isXDigit h2 = true
      · obtain ⟨h1, h2, r, rfl, x1, x2⟩ := hx
        rw [decodeNeededLoop_esc x1 x2]
        have := ih r.length (by simp at hl; omega) r rfl (n + 1)
        omega
      · rw [decodeNeededLoop_bad (fun h1 h2 r e x => hx ⟨h1, h2, r, e, x.1, x.2⟩)]
        have := ih s.length (by simp at hl; omega) s rfl (n + 1)
        omega
    · rw [decodeNeededLoop_lit hc]
      have := ih s.length (by simp at hl; omega) s rfl (n + 1)
      omega

theorem decodeNeededLoop_run (s : Str) : ∀ n : Int,
    n + (decodeRun s).1.length ≤ decodeNeededLoop s n ∧
    ((decodeRun s).2 = true → decodeNeededLoop s n = n + (decodeRun s).1.length) := by
  induction s using decodeRun.induct with
  | case1 => intro n; simp [decodeRun, decodeNeededLoop]
  | case2 h1 h2 s' hx =>
    intro n
    have := decodeNeededLoop_ge (escapeChar :: h1 :: h2 :: s') n
    simp [decodeRun, hx, this]
  | case3 h1 h2 s' hx ih =>
    intro n
    have hx' := hx
    simp only [Bool.or_eq_true, Bool.not_eq_true', not_or, Bool.not_eq_false] at hx'
    rw [decodeNeededLoop_esc hx'.1 hx'.2]
    simp only [decodeRun, if_true, hx, if_false, Bool.false_eq_true, List.length_cons]
    have := ih (n + 1)
    refine ⟨?_, fun h => ?_⟩
    · have := this.1; push_cast; omega
    · have := this.2 h; push_cast; omega
  | case4 s hs =>
    intro n
    have := decodeNeededLoop_ge (escapeChar :: s) n
    rcases s with _ | ⟨a, _ | ⟨b, s⟩⟩
    · simp [decodeRun, this]
    · simp [decodeRun, this]
    · exact absurd rfl (hs a b s)
  | case5 c s hc ih =>
    intro n
    rw [decodeNeededLoop_lit hc, decodeRun_lit hc]
    have := ih (n + 1)
    simp only [List.length_cons]
    refine ⟨?_, fun h => ?_⟩
    · have := this.1; push_cast; omega
    · have := this.2 h; push_cast; omega

/-! ### Encoding alphabet -/

theorem encByte_safe : ∀ c : UInt8, (isOutput c = true → HexSpec.SafeChar c) ∧
    HexSpec.SafeChar (hexDigit (c.toNat / 16)) ∧ HexSpec.SafeChar (hexDigit (c.toNat % 16)) := by
  apply forall_byte; unfold HexSpec.SafeChar; decide +kernel

theorem encode_safe (s : Str) : ∀ b ∈ encode s, HexSpec.SafeChar b := by
  induction s with
  | nil => simp [encode]
  | cons c s ih =>
    intro b hb
    unfold encode at hb
    split at hb
    · rename_i hc
      simp at hb
      rcases hb with rfl | hb
      · exact (encByte_safe _).1 hc
      · exact ih b hb
    · simp [escapeByte] at hb
      rcases hb with rfl | rfl | rfl | hb
      · simp [HexSpec.SafeChar, escapeChar]
      · exact (encByte_safe c).2.1
      · exact (encByte_safe c).2.2
      · exact ih b hb

/-! ### In-place decoding -/

theorem getD_append_cons (p : List UInt8) (c : UInt8) (q : List UInt8) :
    (p ++ c :: q).getD p.length 0 = c := by
  simp [List.getD_eq_getElem?_getD]

/-- The buffer after `o` bytes were written and `i` read: `w` written, `g` garbage, `s` unread. -/
theorem decodeInplaceRun_spec (s : Str) (hs : 0 ∉ s) : ∀ w g : List UInt8,
    ∃ tail, decodeInplaceRun (w ++ (g ++ (s ++ [0]))) (w.length + g.length) w.length =
      (w ++ (decodeRun s).1 ++ tail, w.length + (decodeRun s).1.length, (decodeRun s).2) ∧
      ((decodeRun s).2 = true → tail.head? = some 0) := by
  induction s using decodeRun.induct with
  | case1 =>
    intro w g
    unfold decodeInplaceRun
    have hget : (w ++ (g ++ ([] ++ [0]))).getD (w.length + g.length) 0 = 0 := by
      have := getD_append_cons (w ++ g) 0 []
      simpa using this
    simp only [List.nil_append] at hget ⊢
    simp only [List.length_append, List.length_cons, List.length_nil, hget]
    rw [if_pos (by omega)]
    simp only [if_true, decodeRun]
    refine ⟨(g ++ [0]).set 0 0, ?_, ?_⟩
    · simp
    · cases g <;> simp
  | case2 h1 h2 s' hx =>
    intro w g
    refine ⟨g ++ (escapeChar :: h1 :: h2 :: s' ++ [0]), ?_, ?_⟩
    · unfold decodeInplaceRun
      have g0 := getD_append_cons (w ++ g) escapeChar (h1 :: h2 :: s' ++ [0])
      have g1 := getD_append_cons (w ++ g ++ [escapeChar]) h1 (h2 :: s' ++ [0])
      have g2 := getD_append_cons (w ++ g ++ [escapeChar, h1]) h2 (s' ++ [0])
      simp only [List.append_assoc, List.length_append, List.cons_append, List.nil_append,
        List.length_cons, List.length_nil] at g0 g1 g2
      simp only [List.cons_append, g0]
      rw [show w.length + g.length + 1 = w.length + (g.length + (0 + 1)) by omega,
        show w.length + g.length + 2 = w.length + (g.length + (0 + 1 + 1)) by omega]
      rw [g1, g2]
      rw [if_pos (by simp)]
      simp [decodeRun, hx, escapeChar]
    · simp [decodeRun, hx]
  | case3 h1 h2 s' hx ih =>
    intro w g
    have hs' : 0 ∉ s' := by simp at hs; exact hs.2.2.2
    obtain ⟨g', hg'⟩ : ∃ g', g ++ (escapeChar :: h1 :: h2 :: (s' ++ [0])) =
        g ++ [escapeChar, h1, h2] ++ (s' ++ [0]) := ⟨g, by simp⟩
    let v := UInt8.ofNat (16 * xval h1 + xval h2)
    -- garbage after the write: the first garbage byte was overwritten
    obtain ⟨b, gt, hgt⟩ : ∃ b gt, g ++ [escapeChar, h1, h2] = b :: gt := by
      cases g with
      | nil => exact ⟨_, _, rfl⟩
      | cons b gt => exact ⟨b, gt ++ [escapeChar, h1, h2], rfl⟩
    have hlen : gt.length = g.length + 2 := by
      have := congrArg List.length hgt; simp at this; omega
    obtain ⟨tail, ht, ht0⟩ := ih hs' (w ++ [v]) gt
    refine ⟨tail, ?_, ?_⟩
    · unfold decodeInplaceRun
      have g0 := getD_append_cons (w ++ g) escapeChar (h1 :: h2 :: s' ++ [0])
      have g1 := getD_append_cons (w ++ g ++ [escapeChar]) h1 (h2 :: s' ++ [0])
      have g2 := getD_append_cons (w ++ g ++ [escapeChar, h1]) h2 (s' ++ [0])
      simp only [List.append_assoc, List.length_append, List.cons_append, List.nil_append,
        List.length_cons, List.length_nil] at g0 g1 g2
      simp only [List.cons_append, g0]
      rw [show w.length + g.length + 1 = w.length + (g.length + (0 + 1)) by omega,
        show w.length + g.length + 2 = w.length + (g.length + (0 + 1 + 1)) by omega]
      rw [g1, g2]
      rw [if_pos (by simp)]
      rw [if_neg (by decide), if_pos trivial, if_neg (by simpa using hx)]
      have hbuf : (w ++ (g ++ escapeChar :: h1 :: h2 :: (s' ++ [0]))).set w.length v =
          (w ++ [v]) ++ (gt ++ (s' ++ [0])) := by
        rw [hg', hgt]
        simp [List.set_append]
      have : w.length + g.length + 3 = (w ++ [v]).length + gt.length := by simp [hlen]; omega
      rw [show (UInt8.ofNat (16 * xval h1 + xval h2)) = v from rfl, hbuf, this]
      rw [show w.length + 1 = (w ++ [v]).length by simp, ht]
      simp only [decodeRun, if_true, hx, if_false, Bool.false_eq_true]
      simp [v]; omega
    · simpa [decodeRun, hx] using ht0
  | case4 s hns =>
    intro w g
    refine ⟨g ++ (escapeChar :: s ++ [0]), ?_, ?_⟩
    · unfold decodeInplaceRun
      have g0 := getD_append_cons (w ++ g) escapeChar (s ++ [0])
      simp only [List.append_assoc, List.length_append] at g0
      simp only [List.cons_append, g0]
      rw [if_pos (by simp), if_neg (by decide), if_pos trivial]
      rcases s with _ | ⟨a, _ | ⟨b, s⟩⟩
      · have g1 := getD_append_cons (w ++ g ++ [escapeChar]) 0 []
        simp only [List.append_assoc, List.length_append, List.cons_append, List.nil_append,
          List.length_cons, List.length_nil] at g1
        rw [show w.length + g.length + 1 = w.length + (g.length + (0 + 1)) by omega]
        simp only [List.nil_append]
        rw [g1]
        simp [decodeRun, isXDigit]
      · have g2 := getD_append_cons (w ++ g ++ [escapeChar, a]) 0 []
        simp only [List.append_assoc, List.length_append, List.cons_append, List.nil_append,
          List.length_cons, List.length_nil] at g2
        rw [show w.length + g.length + 2 = w.length + (g.length + (0 + 1 + 1)) by omega]
        simp only [List.cons_append, List.nil_append]
        rw [g2, if_pos]
        · simp [decodeRun]
        · rw [Bool.or_eq_true]; right; decide
      · exact absurd rfl (hns a b s)
    · rcases s with _ | ⟨a, _ | ⟨b, s⟩⟩
      · simp [decodeRun]
      · simp [decodeRun]
      · exact absurd rfl (hns a b s)
  | case5 c s hc ih =>
    intro w g
    have hs' : 0 ∉ s := by simp at hs; exact hs.2
    have hc0 : c ≠ 0 := by simp at hs; exact fun h => hs.1 h.symm
    obtain ⟨b, gt, hgt⟩ : ∃ b gt, g ++ [c] = b :: gt := by
      cases g with
      | nil => exact ⟨_, _, rfl⟩
      | cons b gt => exact ⟨b, gt ++ [c], rfl⟩
    have hlen : gt.length = g.length := by
      have := congrArg List.length hgt; simp at this; omega
    obtain ⟨tail, ht, ht0⟩ := ih hs' (w ++ [c]) gt
    refine ⟨tail, ?_, ?_⟩
    · unfold decodeInplaceRun
      have g0 := getD_append_cons (w ++ g) c (s ++ [0])
      simp only [List.append_assoc, List.length_append] at g0
      simp only [List.cons_append, g0]
      rw [if_pos (by simp), if_neg hc0, if_neg hc]
      have hbuf : (w ++ (g ++ c :: (s ++ [0]))).set w.length c =
          (w ++ [c]) ++ (gt ++ (s ++ [0])) := by
        rw [show g ++ c :: (s ++ [0]) = (g ++ [c]) ++ (s ++ [0]) by simp, hgt]
        simp [List.set_append]
      rw [hbuf, show w.length + g.length + 1 = (w ++ [c]).length + gt.length by simp [hlen]; omega,
        show w.length + 1 = (w ++ [c]).length by simp, ht, decodeRun_lit hc]
      simp; omega
    · rw [decodeRun_lit hc]; exact ht0

theorem decodeInplace_eq (s : Str) (hs : 0 ∉ s) : decodeInplace s = decode s := by
  obtain ⟨tail, h, _⟩ := decodeInplaceRun_spec s hs [] []
  simp only [List.nil_append, List.length_nil, Nat.add_zero, Nat.zero_add] at h
  unfold decodeInplace decode
  rw [h]
  simp

end Notmuch.Hex
