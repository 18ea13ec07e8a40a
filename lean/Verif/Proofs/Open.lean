import Verif.Spec.Open
import Verif.Base.ListLemmas

namespace Notmuch.Open

open Notmuch.StringUtil (strtokLen)
open Notmuch.TagUtil (strtokLen_rest_lt)

/-! ## Features -/

theorem lines_ne (s : Str) : lines s ≠ [] := by
  cases s with
  | nil => simp [lines]
  | cons c s =>
    unfold lines
    split
    · simp
    · split <;> simp

theorem lines_nl (s : Str) : lines (10 :: s) = [] :: lines s := by
  rw [lines]; simp

theorem lines_cons (c : UInt8) (s : Str) (h : c ≠ 10) : ∃ l ls, lines s = l :: ls ∧ lines (c :: s) = (c :: l) :: ls := by
  rw [lines]
  rw [if_neg h]
  cases e : lines s with
  | nil => exact absurd e (lines_ne s)
  | cons l ls => exact ⟨l, ls, rfl, rfl⟩

theorem lines_tok : ∀ (tok : Str), (10 : UInt8) ∉ tok → ∀ s, ∃ l ls, lines s = l :: ls ∧ lines (tok ++ s) = (tok ++ l) :: ls
  | [], _, s => by
    cases e : lines s with
    | nil => exact absurd e (lines_ne s)
    | cons l ls => exact ⟨l, ls, rfl, e⟩
  | c :: tok, h, s => by
    obtain ⟨l, ls, e1, e2⟩ := lines_tok tok (fun hh => h (List.mem_cons_of_mem _ hh)) s
    obtain ⟨l', ls', e3, e4⟩ := lines_cons c (tok ++ s) (fun hh => h (by simp [hh]))
    rw [e2] at e3
    injection e3 with e5 e6
    subst e5; subst e6
    exact ⟨l, ls, e1, e4⟩

theorem parseLine_nil (mode : UInt8) (st : Features × Option Str) : parseLine mode st [] = st := by
  unfold parseLine; simp

theorem fold_dropWhile (mode : UInt8) : ∀ (s : Str) (st : Features × Option Str),
    (lines (s.dropWhile (· == 10))).foldl (parseLine mode) st = (lines s).foldl (parseLine mode) st
  | [], st => rfl
  | c :: s, st => by
    by_cases h : c = 10
    · subst h
      rw [lines_nl, List.foldl_cons, parseLine_nil, ← fold_dropWhile mode s st]
      rfl
    · rw [List.dropWhile_cons_of_neg (by simpa using h)]

theorem parseLoop_eq (mode : UInt8) : ∀ (n : Nat) (s : Str), s.length ≤ n → ∀ (st : Features × Option Str), parseLoop mode st s = (lines s).foldl (parseLine mode) st
  | n, s, hn, st => by
    rw [parseLoop]
    rw [← fold_dropWhile mode s st]
    split
    · rename_i h
      unfold strtokLen at h
      simp only at h
      split at h
      · rename_i hn
        have : s.dropWhile (· == 10) = [] := by
          cases e : s.dropWhile (· == 10) with
          | nil => rfl
          | cons c r =>
            have hc := dropWhile_head _ _ _ _ e
            rw [e] at hn
            simp [hc] at hn
        rw [this]
        simp [lines, parseLine_nil]
      · simp at h
    · rename_i l rest h
      have hlt := strtokLen_rest_lt h
      have hl : l = (s.dropWhile (· == 10)).takeWhile (fun c => !(c == 10)) ∧ rest = (s.dropWhile (· == 10)).dropWhile (fun c => !(c == 10)) := by
        unfold strtokLen at h
        simp only at h
        split at h
        · simp at h
        · injection h with h; injection h with h1 h2; exact ⟨h1.symm, h2.symm⟩
      match n, hn with
      | 0, hn => exact absurd hlt (by omega)
      | n + 1, hn =>
        rw [parseLoop_eq mode n rest (by omega)]
        have hsplit : s.dropWhile (· == 10) = l ++ rest := by
          rw [hl.1, hl.2, List.takeWhile_append_dropWhile]
        have hnl : (10 : UInt8) ∉ l := by
          intro hm
          rw [hl.1] at hm
          have := takeWhile_all _ _ _ hm
          simp at this
        rw [hsplit]
        cases er : rest with
        | nil =>
          obtain ⟨l', ls, e1, e2⟩ := lines_tok l hnl []
          have : l' = [] ∧ ls = [] := by
            have e1' : ([[]] : List Str) = l' :: ls := e1
            injection e1' with a b
            exact ⟨a.symm, b.symm⟩
          rw [e2, this.1, this.2]
          simp [lines, parseLine_nil]
        | cons c r =>
          have hc : c = 10 := by
            have := dropWhile_head _ _ _ _ (hl.2.symm.trans er)
            simpa using this
          subst hc
          obtain ⟨l', ls, e1, e2⟩ := lines_tok l hnl (10 :: r)
          rw [lines_nl] at e1
          injection e1 with a b
          rw [e2, ← a, ← b, lines_nl]
          simp [parseLine_nil]

theorem name_inj : ∀ x y, name x = name y → x = y := by
  intro x y
  cases x <;> cases y <;> decide +kernel

theorem name_notab : ∀ x, (9 : UInt8) ∉ name x ∧ (10 : UInt8) ∉ name x ∧ (10 : UInt8) ∉ flags x := by
  intro x
  cases x <;> decide +kernel

theorem mem_all (x : Feature) : x ∈ all := by
  cases x <;> decide +kernel

theorem findFeature_some {n : Str} {x : Feature} (h : findFeature n = some x) : n = name x := by
  have := List.find?_some h
  exact (of_decide_eq_true this).symm

theorem findFeature_name (x : Feature) : findFeature (name x) = some x := by
  cases e : findFeature (name x) with
  | none =>
    have := List.find?_eq_none.mp e x (mem_all x)
    simp at this
  | some y =>
    have := findFeature_some e
    exact congrArg some (name_inj _ _ this).symm

theorem findFeature_none {n : Str} : findFeature n = none ↔ Unknown n := by
  constructor
  · intro h x hx
    rw [hx, findFeature_name] at h
    cases h
  · intro h
    cases e : findFeature n with
    | none => rfl
    | some x => exact absurd (findFeature_some e) (h x)

/-- A line with a tab, split. -/
theorem split_tab (l : Str) (h : (9 : UInt8) ∈ l) : ∃ fl, l = l.takeWhile (· ≠ 9) ++ 9 :: fl ∧ l.dropWhile (· ≠ 9) = 9 :: fl ∧ 9 ∉ l.takeWhile (· ≠ 9) := by
  cases e : l.dropWhile (· ≠ 9) with
  | nil =>
    have := dropWhile_eq_nil_all _ _ e 9 h
    simp at this
  | cons c r =>
    have hc := dropWhile_head _ _ _ _ e
    have hc : c = 9 := by simpa using hc
    subst hc
    refine ⟨r, ?_, rfl, ?_⟩
    · conv => lhs; rw [← List.takeWhile_append_dropWhile (p := (· ≠ 9)) (l := l)]
      rw [e]
    · intro hm
      have := takeWhile_all _ _ _ hm
      simp at this

theorem split_tab' (n fl : Str) (h : (9 : UInt8) ∉ n) : (n ++ 9 :: fl).takeWhile (· ≠ 9) = n ∧ (n ++ 9 :: fl).dropWhile (· ≠ 9) = 9 :: fl := by
  have hn : ∀ a ∈ n, (decide (a ≠ 9)) = true := fun a ha => by
    simp; rintro rfl; exact h ha
  exact ⟨takeWhile_append_stop _ _ _ _ hn (by simp), dropWhile_append_stop _ _ _ _ hn (by simp)⟩

theorem fold_features (mode : UInt8) : ∀ (ls : List Str) (st : Features × Option Str) (x : Feature),
    ((ls.foldl (parseLine mode) st).1 x = true ↔ st.1 x = true ∨ ∃ fl, name x ++ 9 :: fl ∈ ls)
  | [], st, x => by simp
  | l :: ls, st, x => by
    rw [List.foldl_cons, fold_features mode ls]
    have hl : (parseLine mode st l).1 x = true ↔ st.1 x = true ∨ ∃ fl, name x ++ 9 :: fl = l := by
      unfold parseLine
      by_cases h9 : (9 : UInt8) ∈ l
      · rw [if_pos h9]
        obtain ⟨fl, e1, e2, e3⟩ := split_tab l h9
        cases ef : findFeature (l.takeWhile (· ≠ 9)) with
        | some y =>
          have hy := findFeature_some ef
          simp only [Bool.or_eq_true, decide_eq_true_eq]
          refine or_congr Iff.rfl ?_
          constructor
          · rintro rfl
            exact ⟨fl, by rw [← hy]; exact e1.symm⟩
          · rintro ⟨fl', e⟩
            have := (split_tab' (name x) fl' (name_notab x).1).1
            rw [e] at this
            rw [hy] at this
            exact name_inj _ _ this.symm
        | none =>
          have hu := findFeature_none.mp ef
          simp only
          constructor
          · exact Or.inl
          · rintro (h | ⟨fl', e⟩)
            · exact h
            · have := (split_tab' (name x) fl' (name_notab x).1).1
              rw [e] at this
              exact absurd this (hu x)
      · rw [if_neg h9]
        constructor
        · exact Or.inl
        · rintro (h | ⟨fl', rfl⟩)
          · exact h
          · exact absurd (by simp) h9
    rw [hl]
    constructor
    · rintro ((h | ⟨fl, e⟩) | ⟨fl, e⟩)
      · exact Or.inl h
      · exact Or.inr ⟨fl, by rw [e]; exact List.mem_cons_self⟩
      · exact Or.inr ⟨fl, List.mem_cons_of_mem _ e⟩
    · rintro (h | ⟨fl, e⟩)
      · exact Or.inl (Or.inl h)
      · rcases List.mem_cons.mp e with e | e
        · exact Or.inl (Or.inr ⟨fl, e⟩)
        · exact Or.inr ⟨fl, e⟩

/-- The names of the unknown features that the mode requires, in order. -/
def required (mode : UInt8) (ls : List Str) : List Str :=
  ls.filterMap (fun l => if 9 ∈ l ∧ findFeature (l.takeWhile (· ≠ 9)) = none ∧ mode ∈ l.dropWhile (· ≠ 9) then some (l.takeWhile (· ≠ 9)) else none)

/-- One more name in the message. -/
def pushName (inc : Option Str) (n : Str) : Option Str := some (inc.getD [] ++ (if inc.getD [] = [] then [] else bs ", ") ++ n)

theorem fold_incompat (mode : UInt8) : ∀ (ls : List Str) (st : Features × Option Str),
    (ls.foldl (parseLine mode) st).2 = (required mode ls).foldl pushName st.2
  | [], st => rfl
  | l :: ls, st => by
    rw [List.foldl_cons, fold_incompat mode ls]
    unfold required
    rw [List.filterMap_cons]
    unfold parseLine
    by_cases h9 : (9 : UInt8) ∈ l
    · rw [if_pos h9]
      cases ef : findFeature (l.takeWhile (· ≠ 9)) with
      | some y => simp
      | none =>
        by_cases hm : mode ∈ l.dropWhile (· ≠ 9)
        · rw [if_pos ⟨h9, rfl, hm⟩]
          simp only [List.foldl_cons]
          unfold addIncompat pushName
          rw [if_pos hm]
        · rw [if_neg (fun h => hm h.2.2)]
          simp only
          unfold addIncompat
          rw [if_neg hm]
    · rw [if_neg h9, if_neg (fun h => h9 h.1)]

theorem push_isSome : ∀ (l : List Str) (i : Option Str), (l.foldl pushName i) = none ↔ i = none ∧ l = []
  | [], i => by simp
  | a :: l, i => by
    rw [List.foldl_cons, push_isSome l]
    simp [pushName]

theorem commas_cons (a : Str) (l : List Str) : commas (a :: l) = a ++ l.flatMap (fun b => bs ", " ++ b) := by
  unfold commas
  induction l generalizing a with
  | nil => simp [List.intercalate]
  | cons b l ih =>
    have := ih b
    unfold List.intercalate at this ⊢
    rw [List.intersperse_cons_cons, List.flatten_cons, List.flatten_cons, this]
    simp

theorem push_some : ∀ (l : List Str) (i : Str), i ≠ [] → (∀ n ∈ l, n ≠ []) → l.foldl pushName (some i) = some (i ++ l.flatMap (fun b => bs ", " ++ b))
  | [], i, _, _ => by simp
  | a :: l, i, hi, h => by
    rw [List.foldl_cons]
    have : pushName (some i) a = some (i ++ (bs ", " ++ a)) := by
      unfold pushName
      simp [hi]
    rw [this, push_some l _ (by simp [hi]) (fun n hn => h n (List.mem_cons_of_mem _ hn))]
    simp

theorem push_commas (l : List Str) (h : ∀ n ∈ l, n ≠ []) (hl : l ≠ []) : l.foldl pushName none = some (commas l) := by
  cases l with
  | nil => exact absurd rfl hl
  | cons a l =>
    rw [List.foldl_cons]
    have : pushName none a = some a := by simp [pushName]
    rw [this, push_some l a (h a (by simp)) (fun n hn => h n (List.mem_cons_of_mem _ hn)), commas_cons]

theorem mem_required (mode : UInt8) (hm : mode ≠ 9) (s n : Str) : n ∈ required mode (lines s) ↔ ∃ fl, Declares s n fl ∧ Unknown n ∧ mode ∈ fl := by
  unfold required
  rw [List.mem_filterMap]
  constructor
  · rintro ⟨l, hl, h⟩
    split at h
    · rename_i hh
      obtain ⟨h9, hu, hmem⟩ := hh
      injection h with h
      subst h
      obtain ⟨fl, e1, e2, e3⟩ := split_tab l h9
      refine ⟨fl, ⟨e3, e1 ▸ hl⟩, findFeature_none.mp hu, ?_⟩
      rw [e2] at hmem
      exact (List.mem_cons.mp hmem).resolve_left hm
    · cases h
  · rintro ⟨fl, ⟨h1, h2⟩, h3, h4⟩
    obtain ⟨e1, e2⟩ := split_tab' n fl h1
    refine ⟨_, h2, ?_⟩
    rw [e1, e2, if_pos ⟨by simp, findFeature_none.mpr h3, List.mem_cons_of_mem _ h4⟩]

/-! ## Printing features -/

theorem lines_line (l s : Str) (h : (10 : UInt8) ∉ l) : lines (l ++ 10 :: s) = l :: lines s := by
  obtain ⟨l', ls, e1, e2⟩ := lines_tok l h (10 :: s)
  rw [lines_nl] at e1
  injection e1 with a b
  rw [e2, ← a, ← b]
  simp

def line (x : Feature) : Str := name x ++ 9 :: flags x

theorem line_nl (x : Feature) : (10 : UInt8) ∉ line x := by
  unfold line
  intro h
  rcases List.mem_append.mp h with h | h
  · exact (name_notab x).2.1 h
  · rcases List.mem_cons.mp h with h | h
    · exact absurd h (by decide)
    · exact (name_notab x).2.2 h

theorem lines_print (f : Features) : ∀ (l : List Feature),
    lines (l.flatMap (fun x => if f x then name x ++ bs "\t" ++ flags x ++ bs "\n" else [])) = (l.filter f).map line ++ [[]]
  | [] => rfl
  | x :: l => by
    rw [List.flatMap_cons]
    by_cases h : f x = true
    · rw [if_pos h, List.filter_cons_of_pos h]
      have : (name x ++ bs "\t" ++ flags x ++ bs "\n") ++ (l.flatMap (fun x => if f x then name x ++ bs "\t" ++ flags x ++ bs "\n" else [])) =
          line x ++ 10 :: (l.flatMap (fun x => if f x then name x ++ bs "\t" ++ flags x ++ bs "\n" else [])) := by
        have h1 : bs "\t" = [9] := by decide +kernel
        have h2 : bs "\n" = [10] := by decide +kernel
        rw [h1, h2]
        simp [line]
      rw [this, lines_line _ _ (line_nl x), lines_print f l]
      rfl
    · rw [if_neg h, List.filter_cons_of_neg h, List.nil_append, lines_print f l]

theorem lines_printFeatures (f : Features) : lines (printFeatures f) = (all.filter f).map line ++ [[]] := lines_print f all

theorem parseLoop_print (f : Features) (mode : UInt8) : parseLoop mode (fun _ => false, none) (printFeatures f) = (f, none) := by
  rw [parseLoop_eq mode _ _ (Nat.le_refl _)]
  refine Prod.ext ?_ ?_
  · funext x
    have h := fold_features mode (lines (printFeatures f)) (fun _ => false, none) x
    rw [lines_printFeatures] at h ⊢
    rw [Bool.eq_iff_iff, h]
    constructor
    · rintro (h | ⟨fl, h⟩)
      · cases h
      · rcases List.mem_append.mp h with h | h
        · obtain ⟨y, hy, e⟩ := List.mem_map.mp h
          have := (split_tab' (name x) fl (name_notab x).1).1
          rw [← e] at this
          have h2 := (split_tab' (name y) (flags y) (name_notab y).1).1
          have : name y = name x := h2.symm.trans this
          have := name_inj _ _ this
          subst this
          exact (List.mem_filter.mp hy).2
        · simp at h
    · intro h
      refine Or.inr ⟨flags x, List.mem_append_left _ (List.mem_map.mpr ⟨x, List.mem_filter.mpr ⟨mem_all x, h⟩, rfl⟩)⟩
  · rw [fold_incompat]
    have : required mode (lines (printFeatures f)) = [] := by
      rw [lines_printFeatures]
      unfold required
      rw [List.filterMap_eq_nil_iff]
      intro l hl
      apply if_neg
      rintro ⟨h9, hu, _⟩
      rcases List.mem_append.mp hl with h | h
      · obtain ⟨y, hy, rfl⟩ := List.mem_map.mp h
        have h2 := (split_tab' (name y) (flags y) (name_notab y).1).1
        have h3 : (line y).takeWhile (· ≠ 9) = name y := h2
        rw [h3, findFeature_name] at hu
        cases hu
      · have : l = [] := by simpa using h
        rw [this] at h9
        simp at h9
    rw [this]
    rfl

/-! ## Numbers -/

theorem hexDigit_ok : ∀ n, n < 16 → isXDigit (hexDigit n) = true ∧ xval (hexDigit n) = n := by
  intro n h
  have : ∀ m : Fin 16, isXDigit (hexDigit m) = true ∧ xval (hexDigit m) = m := by decide +kernel
  exact this ⟨n, h⟩

theorem hexDigits_digits : ∀ k n, ∀ c ∈ hexDigits k n, isXDigit c = true
  | 0, _, c, h => by simp [hexDigits] at h
  | k + 1, n, c, h => by
    unfold hexDigits at h
    rcases List.mem_append.mp h with h | h
    · exact hexDigits_digits k _ c h
    · rw [List.mem_singleton.mp h]
      exact (hexDigit_ok _ (Nat.mod_lt _ (by decide))).1

theorem hexVal_digits : ∀ k n, hexVal (hexDigits k n) = n % 16 ^ k
  | 0, n => by simp [hexDigits, hexVal]; omega
  | k + 1, n => by
    have ih := hexVal_digits k (n / 16)
    rw [hexDigits]
    unfold hexVal at ih ⊢
    rw [List.foldl_append, ih]
    simp only [List.foldl_cons, List.foldl_nil]
    rw [(hexDigit_ok _ (Nat.mod_lt _ (by decide))).2]
    rw [Nat.pow_succ, Nat.mul_comm (16 ^ k) 16, Nat.mod_mul]
    omega

theorem hexDigits_length : ∀ k n, (hexDigits k n).length = k
  | 0, _ => rfl
  | k + 1, n => by simp [hexDigits, hexDigits_length k]

theorem hexVal_hex16 (n : Nat) : hexVal (hex16 n) = n % 2 ^ 64 := by
  unfold hex16
  rw [hexVal_digits]
  have : (16 : Nat) ^ 16 = 2 ^ 64 := by decide
  rw [this]
  omega

theorem xdigit_facts : ∀ c : UInt8, isXDigit c = true → isSpace c = false ∧ c ≠ 45 ∧ c ≠ 43 ∧ c ≠ 120 ∧ c ≠ 88 := by
  apply forall_byte; decide +kernel

theorem sign_digit (c : UInt8) (s : Str) (h : isXDigit c = true) : sign (c :: s) = (false, c :: s) := by
  obtain ⟨_, h2, h3, _⟩ := xdigit_facts c h
  unfold sign
  split
  · rename_i e; injection e with e1; exact absurd e1 h2
  · rename_i e; injection e with e1; exact absurd e1 h3
  · rfl

theorem skip0x_digits : ∀ (s : Str), (∀ c ∈ s, isXDigit c = true) → skip0x s = s := by
  intro s h
  unfold skip0x
  split
  · rename_i x d r
    apply if_neg
    rintro ⟨hx, _⟩
    have := xdigit_facts x (h x (by simp))
    rcases hx with hx | hx
    · exact this.2.2.2.1 hx
    · exact this.2.2.2.2 hx
  · rfl

theorem strtoull16_digits (s : Str) (h : ∀ c ∈ s, isXDigit c = true) (hne : s ≠ []) (hv : hexVal s < 2 ^ 64) : strtoull16 s = (hexVal s, []) := by
  cases s with
  | nil => exact absurd rfl hne
  | cons c r =>
    have hc := h c (by simp)
    have h1 : skipSpace (c :: r) = c :: r := by
      unfold skipSpace
      rw [List.dropWhile_cons_of_neg]
      rw [(xdigit_facts c hc).1]
      decide
    unfold strtoull16
    rw [h1, sign_digit c r hc]
    simp only
    rw [skip0x_digits _ h, takeWhile_eq_self_of _ _ h, dropWhile_eq_nil_of _ _ h]
    rw [if_neg (by simp)]
    unfold ulong
    rw [if_neg (by omega)]
    simp

theorem hex16_ne (n : Nat) : hex16 n ≠ [] := by
  intro h
  have := congrArg List.length h
  unfold hex16 at this
  rw [hexDigits_length] at this
  simp at this

theorem loadThread_hex16 (n : Nat) (h : n < 2 ^ 64) : loadThread (hex16 n) = some n := by
  have hv := hexVal_hex16 n
  rw [Nat.mod_eq_of_lt h] at hv
  have hs := strtoull16_digits (hex16 n) (hexDigits_digits _ _) (hex16_ne n) (by omega)
  unfold loadThread
  rw [if_neg (hex16_ne n), hs]
  simp [hv]

theorem hex16_inj {a b : Nat} (ha : a < 2 ^ 64) (hb : b < 2 ^ 64) (h : hex16 a = hex16 b) : a = b := by
  have := congrArg hexVal h
  rw [hexVal_hex16, hexVal_hex16, Nat.mod_eq_of_lt ha, Nat.mod_eq_of_lt hb] at this
  exact this

theorem strtoul10_dec (n : Nat) (h : n < 2 ^ 64) : strtoul10 (dec n) = (n, []) := by
  have hd := dec_digits n
  have hv := decVal_dec n
  cases e : dec n with
  | nil => exact absurd e (dec_ne_nil n)
  | cons c r =>
    rw [e] at hd hv
    have hc := hd c (by simp)
    have hx : ∀ c : UInt8, isDigit c = true → isXDigit c = true := by
      apply forall_byte; decide +kernel
    have h1 : skipSpace (c :: r) = c :: r := by
      unfold skipSpace
      rw [List.dropWhile_cons_of_neg]
      rw [(xdigit_facts c (hx c hc)).1]
      decide
    unfold strtoul10
    rw [h1, sign_digit c r (hx c hc)]
    simp only
    rw [takeWhile_eq_self_of _ _ hd, dropWhile_eq_nil_of _ _ hd]
    rw [if_neg (by simp), hv]
    unfold ulong
    rw [if_neg (by omega)]
    simp

theorem getVersion_dec (n : Nat) (h : n < 2 ^ 32) : getVersion (dec n) = some n := by
  unfold getVersion
  rw [if_neg (dec_ne_nil n), strtoul10_dec n (by omega)]
  simp [Nat.mod_eq_of_lt h]

theorem getVersion_three : getVersion (bs "3") = some 3 := by decide +kernel

end Notmuch.Open
