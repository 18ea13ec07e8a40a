import Verif.Spec.ConfigCmd
import Verif.Proofs.Config

namespace Notmuch.ConfigCmd

open Notmuch.Config Notmuch.Cli
open Notmuch.StringMap

/-! ## Escapes -/

theorem unescape_byte (sep leading : Bool) (c : UInt8) (r : Str) :
    unescape false ((escapeByte sep leading c).1 ++ r) = (if sep = true ∧ c = 59 then bs "\\;" else [c]) ++ unescape false r := by
  have b1 : bs "\\s" = [92, 115] := by decide +kernel
  have b2 : bs "\\t" = [92, 116] := by decide +kernel
  have b3 : bs "\\n" = [92, 110] := by decide +kernel
  have b4 : bs "\\r" = [92, 114] := by decide +kernel
  have b5 : bs "\\\\" = [92, 92] := by decide +kernel
  have b6 : bs "\\;" = [92, 59] := by decide +kernel
  unfold escapeByte
  rw [b1, b2, b3, b4, b5, b6]
  by_cases h1 : c = 32
  · subst h1; cases leading <;> simp [unescape, unescapeByte]
  by_cases h2 : c = 9
  · subst h2; cases leading <;> simp [unescape, unescapeByte]
  by_cases h3 : c = 10
  · subst h3; simp [unescape, unescapeByte]
  by_cases h4 : c = 13
  · subst h4; simp [unescape, unescapeByte]
  by_cases h5 : c = 92
  · subst h5; simp [unescape, unescapeByte]
  by_cases h6 : c = 59
  · subst h6; cases sep <;> simp [unescape, unescapeByte]
  · simp [h1, h2, h3, h4, h5, h6, unescape]

theorem unescape_escape (sep : Bool) : ∀ (leading : Bool) (s r : Str),
    unescape false (escape sep leading s ++ r) = s.flatMap (fun c => if sep = true ∧ c = 59 then bs "\\;" else [c]) ++ unescape false r
  | _, [], r => rfl
  | leading, c :: s, r => by
    unfold escape
    rw [List.append_assoc, unescape_byte, unescape_escape sep, List.flatMap_cons, List.append_assoc]

/-- What is written for values. -/
def raw : List Str → Str
  | [v] => escape false true v
  | vs => vs.flatMap (fun v => escape true true v ++ bs ";")

theorem flatMap_single (s : Str) : s.flatMap (fun c => if false = true ∧ c = 59 then bs "\\;" else [c]) = s := by
  induction s with
  | nil => rfl
  | cons c s ih => simp [List.flatMap_cons]

theorem unescape_list : ∀ vs : List Str,
    unescape false (vs.flatMap (fun v => escape true true v ++ bs ";")) = vs.flatMap (fun v => v.flatMap (fun c => if c = 59 then bs "\\;" else [c]) ++ bs ";")
  | [] => rfl
  | v :: vs => by
    rw [List.flatMap_cons, List.flatMap_cons, List.append_assoc, unescape_escape]
    have : unescape false (bs ";" ++ vs.flatMap (fun v => escape true true v ++ bs ";")) = bs ";" ++ unescape false (vs.flatMap (fun v => escape true true v ++ bs ";")) := rfl
    rw [this, unescape_list vs]
    simp

theorem unescape_raw (vs : List Str) : unescape false (raw vs) = stored vs := by
  match vs with
  | [] => rfl
  | [v] =>
    have := unescape_escape false true v []
    rw [List.append_nil] at this
    unfold raw stored
    rw [this, flatMap_single]
    simp [unescape]
  | v :: w :: vs => exact unescape_list _

/-! ## UTF-8 -/

theorem utf8From_cons (q : Utf8) (c : UInt8) (s : Str) : utf8From q (c :: s) = (match utf8Step q c with | none => false | some q => utf8From q s) := rfl

theorem utf8From_append : ∀ (q : Utf8) (a b : Str), utf8From q a = true → utf8From q (a ++ b) = utf8From .start b
  | q, [], b, h => by
    have : q = .start := by simpa [utf8From] using h
    subst this; rfl
  | q, c :: a, b, h => by
    rw [List.cons_append, utf8From_cons]
    rw [utf8From_cons] at h
    cases hs : utf8Step q c with
    | none => rw [hs] at h; cases h
    | some q' =>
      rw [hs] at h
      exact utf8From_append q' a b h

theorem utf8_ascii (q : Utf8) (c : UInt8) (hc : c < 0x80) (h0 : c ≠ 0) : utf8Step q c = if q = .start then some .start else none := by
  have h : ¬(0x80 ≤ c) := UInt8.not_le.2 hc
  have h2 : ¬(0xA0 ≤ c) := fun h' => h (UInt8.le_trans (by decide) h')
  have h3 : ¬(0x90 ≤ c) := fun h' => h (UInt8.le_trans (by decide) h')
  cases q <;> simp [utf8Step, h, h2, h3, h0, hc]

theorem utf8_escapeByte (sep leading : Bool) (c : UInt8) (q : Utf8) (r : Str) (h0 : c ≠ 0) :
    utf8From q ((escapeByte sep leading c).1 ++ r) = match utf8Step q c with | none => false | some q => utf8From q r := by
  by_cases hc : c < 0x80
  · have h1 : ∀ d : UInt8, d < 0x80 → d ≠ 0 → utf8From q ([92, d] ++ r) = if q = .start then utf8From .start r else false := by
      intro d hd hd0
      show utf8From q (92 :: d :: r) = _
      rw [utf8From_cons, utf8_ascii q 92 (by decide) (by decide)]
      by_cases hq : q = .start
      · simp only [hq, if_true]
        rw [utf8From_cons, utf8_ascii .start d hd hd0]
        simp
      · simp [hq]
    have h2 : utf8From q ([c] ++ r) = if q = .start then utf8From .start r else false := by
      show utf8From q (c :: r) = _
      rw [utf8From_cons, utf8_ascii q c hc h0]
      by_cases hq : q = .start <;> simp [hq]
    have h3 : (match utf8Step q c with | none => false | some q => utf8From q r) = if q = .start then utf8From .start r else false := by
      rw [utf8_ascii q c hc h0]
      by_cases hq : q = .start <;> simp [hq]
    rw [h3]
    unfold escapeByte
    split
    · subst_vars; split
      · exact h1 115 (by decide) (by decide)
      · exact h2
    · split
      · subst_vars; split
        · exact h1 116 (by decide) (by decide)
        · exact h2
      · split
        · exact h1 110 (by decide) (by decide)
        · split
          · exact h1 114 (by decide) (by decide)
          · split
            · exact h1 92 (by decide) (by decide)
            · split
              · exact h1 59 (by decide) (by decide)
              · exact h2
  · have e : escapeByte sep leading c = ([c], false) := by
      have hn : ∀ d : UInt8, d < 0x80 → c ≠ d := by
        rintro d hd rfl
        exact hc hd
      simp [escapeByte, hn 32 (by decide), hn 9 (by decide), hn 10 (by decide), hn 13 (by decide), hn 92 (by decide), hn 59 (by decide)]
    rw [e]
    rfl

theorem utf8_escape (sep : Bool) : ∀ (leading : Bool) (q : Utf8) (s : Str), (0 : UInt8) ∉ s → utf8From q (escape sep leading s) = utf8From q s
  | _, q, [], _ => rfl
  | leading, q, c :: s, h => by
    unfold escape
    rw [utf8_escapeByte _ _ _ _ _ (fun h' => h (by simp [h']))]
    conv => rhs; unfold utf8From
    cases utf8Step q c with
    | none => rfl
    | some q' => exact utf8_escape sep _ q' s (fun h' => h (by simp [h']))

theorem utf8_no_nul : ∀ (q : Utf8) (s : Str), utf8From q s = true → (0 : UInt8) ∉ s
  | _, [], _ => by simp
  | q, c :: s, h => by
    unfold utf8From at h
    cases hs : utf8Step q c with
    | none => rw [hs] at h; cases h
    | some q' =>
      rw [hs] at h
      intro hm
      rcases List.mem_cons.1 hm with rfl | hm
      · have : utf8Step q 0 = none := by cases q <;> decide
        rw [this] at hs
        cases hs
      · exact utf8_no_nul q' s h hm

theorem utf8_chug : ∀ s : Str, utf8 s = true → utf8 (chug s) = true
  | [], _ => rfl
  | c :: s, h => by
    unfold chug
    rw [List.dropWhile_cons]
    split
    · rename_i hc
      apply utf8_chug s
      have hcs : c < 0x80 ∧ c ≠ 0 := by
        clear h
        revert hc
        revert c
        apply forall_byte
        decide +kernel
      unfold utf8 utf8From at h
      rw [utf8_ascii .start c hcs.1 hcs.2] at h
      exact h
    · exact h

theorem utf8_raw (vs : List Str) (h : ∀ v ∈ vs, utf8 v = true) : utf8 (raw vs) = true := by
  have key : ∀ ws : List Str, (∀ v ∈ ws, utf8 v = true) → utf8 (ws.flatMap (fun v => escape true true v ++ bs ";")) = true := by
    intro ws hw
    induction ws with
    | nil => rfl
    | cons v ws ih =>
      rw [List.flatMap_cons, List.append_assoc]
      have hv := hw v (by simp)
      unfold utf8
      rw [utf8From_append]
      · exact ih (fun v hv => hw v (by simp [hv]))
      · rw [utf8_escape _ _ _ _ (utf8_no_nul _ _ hv)]
        exact hv
  match vs, h with
  | [], _ => rfl
  | [v], h =>
    have hv := h v (by simp)
    unfold raw utf8
    rw [utf8_escape _ _ _ _ (utf8_no_nul _ _ hv)]
    exact hv
  | v :: w :: vs, h => exact key _ h

end Notmuch.ConfigCmd
