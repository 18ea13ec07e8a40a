import Verif.Proofs.ConfigCmd
import Verif.Spec.Utf8

/-! # `g_utf8_validate` accepts exactly UTF-8 -/

namespace Notmuch.ConfigCmd
open Notmuch.Utf8Spec

theorem stepNat (q : Utf8) (n : Nat) (h : n < 256) :
    utf8Step q (UInt8.ofNat n) = match q with
  | .start =>
    if n = 0 then none else if n < 0x80 then some .start else if n < 0xC2 then none else if n < 0xE0 then some .c1 else if n = 0xE0 then some .e0
    else if n = 0xED then some .ed else if n < 0xF0 then some .c2 else if n = 0xF0 then some .f0 else if n < 0xF4 then some .c3 else if n = 0xF4 then some .f4 else none
  | .c1 => if 0x80 ≤ n ∧ n < 0xC0 then some .start else none
  | .c2 => if 0x80 ≤ n ∧ n < 0xC0 then some .c1 else none
  | .c3 => if 0x80 ≤ n ∧ n < 0xC0 then some .c2 else none
  | .e0 => if 0xA0 ≤ n ∧ n < 0xC0 then some .c1 else none
  | .ed => if 0x80 ≤ n ∧ n < 0xA0 then some .c1 else none
  | .f0 => if 0x90 ≤ n ∧ n < 0xC0 then some .c2 else none
  | .f4 => if 0x80 ≤ n ∧ n < 0x90 then some .c2 else none := by
  have hN : (UInt8.ofNat n).toNat = n := by
    rw [UInt8.toNat_ofNat']; exact Nat.mod_eq_of_lt h
  cases q <;> simp only [utf8Step, UInt8.lt_iff_toNat_lt, UInt8.le_iff_toNat_le, ← UInt8.toNat_inj, hN] <;> rfl

theorem ofNat_toNat (c : UInt8) : c = UInt8.ofNat c.toNat := by simp

theorem utf8_encode (u : Nat) (h : Scalar u) (r : Str) : utf8From .start (encode u ++ r) = utf8From .start r := by
  obtain ⟨h0, h1, h2⟩ := h
  unfold encode
  split
  · rw [List.cons_append, utf8From_cons, stepNat _ _ (by omega)]
    simp only [show ¬ u = 0 by omega, if_false, if_pos ‹u < 0x80›]
    rfl
  · split
    · simp only [List.cons_append, utf8From_cons, List.nil_append]
      rw [stepNat _ _ (by omega)]
      simp only [show ¬ (0xC0 + u / 64 = 0) by omega, show ¬ (0xC0 + u / 64 < 0x80) by omega, show ¬ (0xC0 + u / 64 < 0xC2) by omega,
        show (0xC0 + u / 64 < 0xE0) by omega, if_false, if_true]
      rw [stepNat _ _ (by omega)]
      simp only [show (0x80 ≤ 0x80 + u % 64 ∧ 0x80 + u % 64 < 0xC0) by omega, if_true, and_self]
    · split
      · simp only [List.cons_append, utf8From_cons, List.nil_append]
        rw [stepNat _ _ (by omega)]
        simp only [show ¬ (0xE0 + u / 4096 = 0) by omega, show ¬ (0xE0 + u / 4096 < 0x80) by omega, show ¬ (0xE0 + u / 4096 < 0xC2) by omega,
          show ¬ (0xE0 + u / 4096 < 0xE0) by omega, show (0xE0 + u / 4096 < 0xF0) by omega, if_false, if_true]
        have hb : u / 64 % 64 < 64 := by omega
        have hc : u % 64 < 64 := by omega
        by_cases e1 : 0xE0 + u / 4096 = 0xE0
        · simp only [e1, if_true]
          rw [stepNat _ _ (by omega)]
          simp only [show (0xA0 ≤ 0x80 + u / 64 % 64 ∧ 0x80 + u / 64 % 64 < 0xC0) by omega, if_true, and_self]
          rw [stepNat _ _ (by omega)]
          simp only [show (0x80 ≤ 0x80 + u % 64 ∧ 0x80 + u % 64 < 0xC0) by omega, if_true, and_self]
        · simp only [e1, if_false]
          by_cases e2 : 0xE0 + u / 4096 = 0xED
          · simp only [e2, if_true]
            rw [stepNat _ _ (by omega)]
            simp only [show (0x80 ≤ 0x80 + u / 64 % 64 ∧ 0x80 + u / 64 % 64 < 0xA0) by omega, if_true, and_self]
            rw [stepNat _ _ (by omega)]
            simp only [show (0x80 ≤ 0x80 + u % 64 ∧ 0x80 + u % 64 < 0xC0) by omega, if_true, and_self]
          · simp only [e2, if_false]
            rw [stepNat _ _ (by omega)]
            simp only [show (0x80 ≤ 0x80 + u / 64 % 64 ∧ 0x80 + u / 64 % 64 < 0xC0) by omega, if_true, and_self]
            rw [stepNat _ _ (by omega)]
            simp only [show (0x80 ≤ 0x80 + u % 64 ∧ 0x80 + u % 64 < 0xC0) by omega, if_true, and_self]
      · simp only [List.cons_append, utf8From_cons, List.nil_append]
        have ha : u / 4096 % 64 < 64 := by omega
        have hb : u / 64 % 64 < 64 := by omega
        have hc : u % 64 < 64 := by omega
        rw [stepNat _ _ (by omega)]
        simp only [show ¬ (0xF0 + u / 262144 = 0) by omega, show ¬ (0xF0 + u / 262144 < 0x80) by omega, show ¬ (0xF0 + u / 262144 < 0xC2) by omega,
          show ¬ (0xF0 + u / 262144 < 0xE0) by omega, show ¬ (0xF0 + u / 262144 = 0xE0) by omega, show ¬ (0xF0 + u / 262144 = 0xED) by omega,
          show ¬ (0xF0 + u / 262144 < 0xF0) by omega, if_false]
        by_cases e1 : 0xF0 + u / 262144 = 0xF0
        · simp only [e1, if_true]
          rw [stepNat _ _ (by omega)]
          simp only [show (0x90 ≤ 0x80 + u / 4096 % 64 ∧ 0x80 + u / 4096 % 64 < 0xC0) by omega, if_true, and_self]
          rw [stepNat _ _ (by omega)]
          simp only [show (0x80 ≤ 0x80 + u / 64 % 64 ∧ 0x80 + u / 64 % 64 < 0xC0) by omega, if_true, and_self]
          rw [stepNat _ _ (by omega)]
          simp only [show (0x80 ≤ 0x80 + u % 64 ∧ 0x80 + u % 64 < 0xC0) by omega, if_true, and_self]
        · simp only [e1, if_false]
          by_cases e2 : 0xF0 + u / 262144 < 0xF4
          · simp only [e2, if_true]
            rw [stepNat _ _ (by omega)]
            simp only [show (0x80 ≤ 0x80 + u / 4096 % 64 ∧ 0x80 + u / 4096 % 64 < 0xC0) by omega, if_true, and_self]
            rw [stepNat _ _ (by omega)]
            simp only [show (0x80 ≤ 0x80 + u / 64 % 64 ∧ 0x80 + u / 64 % 64 < 0xC0) by omega, if_true, and_self]
            rw [stepNat _ _ (by omega)]
            simp only [show (0x80 ≤ 0x80 + u % 64 ∧ 0x80 + u % 64 < 0xC0) by omega, if_true, and_self]
          · simp only [show (0xF0 + u / 262144 = 0xF4) by omega, if_true, Nat.lt_irrefl, if_false]
            rw [stepNat _ _ (by omega)]
            simp only [show (0x80 ≤ 0x80 + u / 4096 % 64 ∧ 0x80 + u / 4096 % 64 < 0x90) by omega, if_true, and_self]
            rw [stepNat _ _ (by omega)]
            simp only [show (0x80 ≤ 0x80 + u / 64 % 64 ∧ 0x80 + u / 64 % 64 < 0xC0) by omega, if_true, and_self]
            rw [stepNat _ _ (by omega)]
            simp only [show (0x80 ≤ 0x80 + u % 64 ∧ 0x80 + u % 64 < 0xC0) by omega, if_true, and_self]

/-- What the next byte of a text can be. -/
def Cont (lo hi : Nat) (q : Utf8) (s : Str) : Prop := ∃ b r, s = UInt8.ofNat (0x80 + b) :: r ∧ lo ≤ b ∧ b < hi ∧ utf8From q r = true

theorem contOf (q q' : Utf8) (lo hi : Nat) (hhi : hi ≤ 64) (hq : q ≠ .start)
    (hstep : ∀ n, n < 256 → utf8Step q (UInt8.ofNat n) = if 0x80 + lo ≤ n ∧ n < 0x80 + hi then some q' else none) (s : Str) (h : utf8From q s = true) : Cont lo hi q' s := by
  cases s with
  | nil => exact absurd (by simpa [utf8From] using h) hq
  | cons c s =>
    rw [utf8From_cons, ofNat_toNat c, hstep _ c.toNat_lt] at h
    by_cases hc : 0x80 + lo ≤ c.toNat ∧ c.toNat < 0x80 + hi
    · rw [if_pos hc] at h
      refine ⟨c.toNat - 0x80, s, ?_, by omega, by omega, h⟩
      rw [show 0x80 + (c.toNat - 0x80) = c.toNat by omega, ← ofNat_toNat]
    · rw [if_neg hc] at h; simp at h

theorem cont_c1 {s : Str} (h : utf8From .c1 s = true) : Cont 0 64 .start s := contOf _ _ _ _ (by omega) (by decide) (fun n hn => stepNat _ n hn) s h
theorem cont_c2 {s : Str} (h : utf8From .c2 s = true) : Cont 0 64 .c1 s := contOf _ _ _ _ (by omega) (by decide) (fun n hn => stepNat _ n hn) s h
theorem cont_c3 {s : Str} (h : utf8From .c3 s = true) : Cont 0 64 .c2 s := contOf _ _ _ _ (by omega) (by decide) (fun n hn => stepNat _ n hn) s h
theorem cont_e0 {s : Str} (h : utf8From .e0 s = true) : Cont 32 64 .c1 s := contOf _ _ _ _ (by omega) (by decide) (fun n hn => stepNat _ n hn) s h
theorem cont_ed {s : Str} (h : utf8From .ed s = true) : Cont 0 32 .c1 s := contOf _ _ _ _ (by omega) (by decide) (fun n hn => stepNat _ n hn) s h
theorem cont_f0 {s : Str} (h : utf8From .f0 s = true) : Cont 16 64 .c2 s := contOf _ _ _ _ (by omega) (by decide) (fun n hn => stepNat _ n hn) s h
theorem cont_f4 {s : Str} (h : utf8From .f4 s = true) : Cont 0 16 .c2 s := contOf _ _ _ _ (by omega) (by decide) (fun n hn => stepNat _ n hn) s h

theorem encode2 (n b : Nat) (h : 0xC2 ≤ n) (h' : n < 0xE0) (hb : b < 64) :
    ∃ u, Scalar u ∧ encode u = [UInt8.ofNat n, UInt8.ofNat (0x80 + b)] := by
  refine ⟨(n - 0xC0) * 64 + b, ⟨by omega, by omega, by omega⟩, ?_⟩
  unfold encode
  rw [if_neg (by omega), if_pos (by omega), show 0xC0 + ((n - 0xC0) * 64 + b) / 64 = n by omega, show ((n - 0xC0) * 64 + b) % 64 = b by omega]

theorem encode3 (n a b : Nat) (h : 0xE0 ≤ n) (h' : n < 0xF0) (ha : a < 64) (hb : b < 64) (h0 : n = 0xE0 → 32 ≤ a) (hd : n = 0xED → a < 32) :
    ∃ u, Scalar u ∧ encode u = [UInt8.ofNat n, UInt8.ofNat (0x80 + a), UInt8.ofNat (0x80 + b)] := by
  refine ⟨(n - 0xE0) * 4096 + a * 64 + b, ⟨by omega, by omega, by omega⟩, ?_⟩
  unfold encode
  rw [if_neg (by omega), if_neg (by omega), if_pos (by omega), show 0xE0 + ((n - 0xE0) * 4096 + a * 64 + b) / 4096 = n by omega,
    show ((n - 0xE0) * 4096 + a * 64 + b) / 64 % 64 = a by omega, show ((n - 0xE0) * 4096 + a * 64 + b) % 64 = b by omega]

theorem encode4 (n a b c : Nat) (h : 0xF0 ≤ n) (h' : n < 0xF5) (ha : a < 64) (hb : b < 64) (hc : c < 64) (h0 : n = 0xF0 → 16 ≤ a) (hd : n = 0xF4 → a < 16) :
    ∃ u, Scalar u ∧ encode u = [UInt8.ofNat n, UInt8.ofNat (0x80 + a), UInt8.ofNat (0x80 + b), UInt8.ofNat (0x80 + c)] := by
  refine ⟨(n - 0xF0) * 262144 + a * 4096 + b * 64 + c, ⟨by omega, by omega, by omega⟩, ?_⟩
  unfold encode
  rw [if_neg (by omega), if_neg (by omega), if_neg (by omega), show 0xF0 + ((n - 0xF0) * 262144 + a * 4096 + b * 64 + c) / 262144 = n by omega,
    show ((n - 0xF0) * 262144 + a * 4096 + b * 64 + c) / 4096 % 64 = a by omega,
    show ((n - 0xF0) * 262144 + a * 4096 + b * 64 + c) / 64 % 64 = b by omega, show ((n - 0xF0) * 262144 + a * 4096 + b * 64 + c) % 64 = c by omega]

/-- The first character of a text. -/
theorem utf8_first (c : UInt8) (s : Str) (h : utf8From .start (c :: s) = true) : ∃ u r, Scalar u ∧ c :: s = encode u ++ r ∧ utf8From .start r = true := by
  rw [utf8From_cons, ofNat_toNat c, stepNat _ _ c.toNat_lt] at h
  rw [ofNat_toNat c]
  have hlt := c.toNat_lt
  generalize c.toNat = n at h hlt
  have three : ∀ (a b : Nat) (r : Str), 0xE0 ≤ n → n < 0xF0 → a < 64 → b < 64 → (n = 0xE0 → 32 ≤ a) → (n = 0xED → a < 32) → utf8From .start r = true →
      ∃ u r', Scalar u ∧ UInt8.ofNat n :: UInt8.ofNat (0x80 + a) :: UInt8.ofNat (0x80 + b) :: r = encode u ++ r' ∧ utf8From .start r' = true := by
    intro a b r h1 h2 h3 h4 h5 h6 hr
    obtain ⟨u, hu, he⟩ := encode3 n a b h1 h2 h3 h4 h5 h6
    exact ⟨u, r, hu, by rw [he]; rfl, hr⟩
  have four : ∀ (a b d : Nat) (r : Str), 0xF0 ≤ n → n < 0xF5 → a < 64 → b < 64 → d < 64 → (n = 0xF0 → 16 ≤ a) → (n = 0xF4 → a < 16) → utf8From .start r = true →
      ∃ u r', Scalar u ∧ UInt8.ofNat n :: UInt8.ofNat (0x80 + a) :: UInt8.ofNat (0x80 + b) :: UInt8.ofNat (0x80 + d) :: r = encode u ++ r' ∧ utf8From .start r' = true := by
    intro a b d r h1 h2 h3 h4 h4' h5 h6 hr
    obtain ⟨u, hu, he⟩ := encode4 n a b d h1 h2 h3 h4 h4' h5 h6
    exact ⟨u, r, hu, by rw [he]; rfl, hr⟩
  by_cases e0 : n = 0
  · simp only [e0, if_true] at h; cases h
  by_cases e1 : n < 0x80
  · simp only [e0, e1, if_true, if_false] at h
    exact ⟨n, s, ⟨by omega, by omega, by omega⟩, by simp [encode, e1], h⟩
  by_cases e2 : n < 0xC2
  · simp only [e0, e1, e2, if_true, if_false] at h; cases h
  by_cases e3 : n < 0xE0
  · simp only [e0, e1, e2, e3, if_true, if_false] at h
    obtain ⟨b, r, rfl, _, hb, hr⟩ := cont_c1 h
    obtain ⟨u, hu, he⟩ := encode2 n b (by omega) e3 hb
    exact ⟨u, r, hu, by rw [he]; rfl, hr⟩
  by_cases e4 : n = 0xE0
  · simp only [e0, e1, e2, e3, if_false] at h
    rw [if_pos e4] at h
    obtain ⟨a, r, rfl, ha, ha', h⟩ := cont_e0 h
    obtain ⟨b, r, rfl, _, hb, hr⟩ := cont_c1 h
    exact three a b r (by omega) (by omega) (by omega) hb (by omega) (by omega) hr
  by_cases e5 : n = 0xED
  · simp only [e0, e1, e2, e3, e4, if_false] at h
    rw [if_pos e5] at h
    obtain ⟨a, r, rfl, ha, ha', h⟩ := cont_ed h
    obtain ⟨b, r, rfl, _, hb, hr⟩ := cont_c1 h
    exact three a b r (by omega) (by omega) (by omega) hb (by omega) (by omega) hr
  by_cases e6 : n < 0xF0
  · simp only [e0, e1, e2, e3, e4, e5, if_false] at h
    rw [if_pos e6] at h
    obtain ⟨a, r, rfl, ha, ha', h⟩ := cont_c2 h
    obtain ⟨b, r, rfl, _, hb, hr⟩ := cont_c1 h
    exact three a b r (by omega) (by omega) (by omega) hb (by omega) (by omega) hr
  simp only [e0, e1, e2, e3, e4, e5, e6, if_false] at h
  by_cases e7 : n = 0xF0
  · rw [if_pos e7] at h
    obtain ⟨a, r, rfl, ha, ha', h⟩ := cont_f0 h
    obtain ⟨b, r, rfl, _, hb, h⟩ := cont_c2 h
    obtain ⟨d, r, rfl, _, hd, hr⟩ := cont_c1 h
    exact four a b d r (by omega) (by omega) (by omega) hb hd (by omega) (by omega) hr
  rw [if_neg e7] at h
  by_cases e8 : n < 0xF4
  · rw [if_pos e8] at h
    obtain ⟨a, r, rfl, ha, ha', h⟩ := cont_c3 h
    obtain ⟨b, r, rfl, _, hb, h⟩ := cont_c2 h
    obtain ⟨d, r, rfl, _, hd, hr⟩ := cont_c1 h
    exact four a b d r (by omega) (by omega) (by omega) hb hd (by omega) (by omega) hr
  rw [if_neg e8] at h
  by_cases e9 : n = 0xF4
  · rw [if_pos e9] at h
    obtain ⟨a, r, rfl, ha, ha', h⟩ := cont_f4 h
    obtain ⟨b, r, rfl, _, hb, h⟩ := cont_c2 h
    obtain ⟨d, r, rfl, _, hd, hr⟩ := cont_c1 h
    exact four a b d r (by omega) (by omega) (by omega) hb hd (by omega) (by omega) hr
  · rw [if_neg e9] at h; cases h

theorem encode_ne (u : Nat) : encode u ≠ [] := by
  unfold encode
  split
  · simp
  · split
    · simp
    · split <;> simp

theorem utf8_iff (s : Str) : utf8 s = true ↔ Valid s := by
  constructor
  · suffices H : ∀ n (s : Str), s.length ≤ n → utf8From .start s = true → Valid s from H s.length s (Nat.le_refl _)
    intro n
    induction n with
    | zero => intro s hs _; exact ⟨[], by simp, by simpa using hs⟩
    | succ n ih =>
      intro s hs h
      cases s with
      | nil => exact ⟨[], by simp, rfl⟩
      | cons c s =>
        obtain ⟨u, r, hu, he, hr⟩ := utf8_first c s h
        have hlen : r.length ≤ n := by
          have := congrArg List.length he
          have h1 : 0 < (encode u).length := List.length_pos_iff.2 (encode_ne u)
          simp only [List.length_cons, List.length_append] at this hs
          omega
        obtain ⟨us, h1, h2⟩ := ih r hlen hr
        exact ⟨u :: us, by simpa [hu] using h1, by rw [he, h2]; rfl⟩
  · rintro ⟨us, h, rfl⟩
    show utf8From .start _ = true
    induction us with
    | nil => rfl
    | cons u us ih =>
      rw [List.flatMap_cons, utf8_encode u (h u (by simp))]
      exact ih (fun x hx => h x (by simp [hx]))

end Notmuch.ConfigCmd
