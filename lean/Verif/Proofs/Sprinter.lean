import Verif.Spec.Sprinter

/-! # The structured printers: printing and reading back -/

namespace Notmuch.Sprinter

theorem skipWs_cons {c : UInt8} (h : isWs c = false) (s : Str) : skipWs (c :: s) = c :: s := by
  unfold skipWs
  rw [List.dropWhile_cons, if_neg (by simp [h])]

theorem skipWs_ws {c : UInt8} (h : isWs c = true) (s : Str) : skipWs (c :: s) = skipWs s := by
  unfold skipWs
  rw [List.dropWhile_cons, if_pos h]

theorem cstr_cstr (k : Str) : cstr (some (cstr (some k))) = cstr (some k) := by
  simp only [cstr]
  have : ∀ l : Str, (l.takeWhile (· ≠ 0)).takeWhile (· ≠ 0) = l.takeWhile (· ≠ 0) := by
    intro l
    induction l with
    | nil => rfl
    | cons a l ih =>
      by_cases h : a = 0
      · simp [h]
      · simp only [List.takeWhile_cons, ne_eq, h, not_false_eq_true, decide_true, if_true, List.cons.injEq, true_and]
        simpa using ih
  exact this k

/-! ## Calls -/

theorem norm_cons_ne (c : Call) (cs : List Call) (h : c ≠ .separator) : ∃ c', norm (c :: cs) = c' :: norm cs ∧ c' ≠ .separator ∧ norm [c] = [c'] := by
  cases c <;> first | exact absurd rfl h | exact ⟨_, rfl, by simp, rfl⟩

theorem norm_append_inv : ∀ (cs : List Call) (a b : List Call), norm cs = a ++ b → ∃ c1 c2, cs = c1 ++ c2 ∧ norm c1 = a ∧ norm c2 = b
  | [], a, b, h => by
    have := List.append_eq_nil_iff.1 h.symm
    exact ⟨[], [], rfl, this.1.symm, this.2.symm⟩
  | c :: cs, a, b, h => by
    by_cases hc : c = .separator
    · subst hc
      obtain ⟨c1, c2, h1, h2, h3⟩ := norm_append_inv cs a b h
      exact ⟨.separator :: c1, c2, by rw [h1]; rfl, h2, h3⟩
    · obtain ⟨c', e1, e2, e3⟩ := norm_cons_ne c cs hc
      rw [e1] at h
      cases a with
      | nil => exact ⟨[], c :: cs, rfl, rfl, by rw [e1]; exact h⟩
      | cons a0 a =>
        rw [List.cons_append, List.cons.injEq] at h
        obtain ⟨c1, c2, h1, h2, h3⟩ := norm_append_inv cs a b h.2
        refine ⟨c :: c1, c2, by rw [h1]; rfl, ?_, h3⟩
        obtain ⟨c'', f1, _, f3⟩ := norm_cons_ne c c1 hc
        rw [f1, h2]
        rw [e3] at f3
        rw [List.cons.injEq] at f3
        rw [← f3.1, h.1]

namespace Json

theorem run_append (a b : List Call) (st : St) : run st (a ++ b) = (run st a).bind (fun st => run st b) := by
  induction a generalizing st with
  | nil => rfl
  | cons c a ih =>
    simp only [List.cons_append, run]
    cases step st c with
    | none => rfl
    | some st => exact ih st

theorem run_seps : ∀ (cs : List Call) (st : St), norm cs = [] → ∃ b, run st cs = some { st with sep := b }
  | [], st, _ => ⟨st.sep, rfl⟩
  | c :: cs, st, h => by
    by_cases hc : c = .separator
    · subst hc
      obtain ⟨b, hb⟩ := run_seps cs { st with sep := true } h
      exact ⟨b, hb⟩
    · obtain ⟨c', e1, _⟩ := norm_cons_ne c cs hc
      rw [e1] at h; cases h

theorem step_norm (st : St) (c c' : Call) (hc : c ≠ .separator) (h : norm [c] = [c']) : step st c = step st c' := by
  cases c with
  | separator => exact absurd rfl hc
  | mapKey k =>
    simp only [norm, List.cons.injEq, and_true] at h
    subst h
    simp only [step, mapKey, cstr_cstr]
  | _ =>
    simp only [norm, List.cons.injEq, and_true] at h
    subst h
    rfl

/-- A call, with separators around it. -/
theorem run_one : ∀ (cs : List Call) (c : Call) (st : St), norm cs = [c] →
    ∃ b, ∀ st1, step { st with sep := b } c = some st1 → ∃ b', run st cs = some { st1 with sep := b' }
  | [], c, st, h => by cases h
  | d :: cs, c, st, h => by
    by_cases hc : d = .separator
    · subst hc
      obtain ⟨b, hb⟩ := run_one cs c { st with sep := true } h
      exact ⟨b, hb⟩
    · obtain ⟨c', e1, _, e3⟩ := norm_cons_ne d cs hc
      rw [e1, List.cons.injEq] at h
      obtain ⟨rfl, h⟩ := h
      refine ⟨st.sep, fun st1 h1 => ?_⟩
      obtain ⟨b', hb⟩ := run_seps cs st1 h
      refine ⟨b', ?_⟩
      rw [run, step_norm st d c' hc e3, show step st c' = some st1 from h1]
      exact hb

/-! ## Strings and numbers -/

theorem readString_plain {c : UInt8} (h1 : c ≠ 34) (h2 : c ≠ 92) (h3 : ¬ c < 32) (s : Str) :
    readString (c :: s) = (readString s).map (fun x => (c :: x.1, x.2)) := by
  rw [readString.eq_def]
  split
  · rename_i h; cases h
  · rename_i h; rw [List.cons.injEq] at h; exact absurd h.1 h1
  · rename_i h; rw [List.cons.injEq] at h; exact absurd h.1 h2
  · rename_i h; rw [List.cons.injEq] at h; exact absurd h.1 h2
  · rename_i h
    rw [List.cons.injEq] at h
    obtain ⟨rfl, rfl⟩ := h
    rw [if_neg h3]
    cases readString s with
    | none => rfl
    | some x => rfl

theorem readString_esc {e c : UInt8} (h : (if e = 34 then some 34 else if e = 92 then some 92 else if e = 47 then some 47 else if e = 98 then some 8
      else if e = 102 then some 12 else if e = 110 then some 10 else if e = 114 then some 13 else if e = 116 then some 9 else none : Option UInt8) = some c)
    (hu : e ≠ 117) (s : Str) : readString (92 :: e :: s) = (readString s).map (fun x => (c :: x.1, x.2)) := by
  rw [readString.eq_def]
  split
  · rename_i h; cases h
  · rename_i h; simp at h
  · rename_i h'; simp only [List.cons.injEq] at h'; exact absurd h'.2.1 hu
  · rename_i h'
    simp only [List.cons.injEq, true_and] at h'
    obtain ⟨rfl, rfl⟩ := h'
    simp only [h]
    cases readString s with
    | none => rfl
    | some x => rfl
  · rename_i h1 h2 h'
    rw [List.cons.injEq] at h'
    exfalso
    exact h2 _ _ h'.1.symm h'.2.symm

theorem readString_u (a b c d : UInt8) (s : Str) : readString (92 :: 117 :: a :: b :: c :: d :: s) =
    if isXDigit a && isXDigit b && isXDigit c && isXDigit d then
      match utf8 (((xval a * 16 + xval b) * 16 + xval c) * 16 + xval d), readString s with
      | some u, some (t, r) => some (u ++ t, r)
      | _, _ => none
    else none := by
  rw [readString.eq_def]
  rfl

theorem hex4_ok : ∀ c : UInt8, c < 32 → (hex4 c).all isXDigit = true ∧
    utf8 (((xval ((hex4 c).getD 0 0) * 16 + xval ((hex4 c).getD 1 0)) * 16 + xval ((hex4 c).getD 2 0)) * 16 + xval ((hex4 c).getD 3 0)) = some [c] := by
  apply forall_byte
  decide +kernel

theorem readString_escape (s rest : Str) : readString (s.flatMap escape ++ 34 :: rest) = some (s, rest) := by
  induction s with
  | nil =>
    rw [readString.eq_def]
    rfl
  | cons c s ih =>
    rw [List.flatMap_cons, List.append_assoc]
    unfold escape
    by_cases h1 : c = 34
    · subst h1; rw [if_pos rfl]
      show readString (92 :: 34 :: (s.flatMap escape ++ 34 :: rest)) = _
      rw [readString_esc (c := 34) (by decide) (by decide), ih]; rfl
    rw [if_neg h1]
    by_cases h2 : c = 92
    · subst h2; rw [if_pos rfl]
      show readString (92 :: 92 :: (s.flatMap escape ++ 34 :: rest)) = _
      rw [readString_esc (c := 92) (by decide) (by decide), ih]; rfl
    rw [if_neg h2]
    by_cases h3 : c = 8
    · subst h3; rw [if_pos rfl]
      show readString (92 :: 98 :: (s.flatMap escape ++ 34 :: rest)) = _
      rw [readString_esc (c := 8) (by decide) (by decide), ih]; rfl
    rw [if_neg h3]
    by_cases h4 : c = 12
    · subst h4; rw [if_pos rfl]
      show readString (92 :: 102 :: (s.flatMap escape ++ 34 :: rest)) = _
      rw [readString_esc (c := 12) (by decide) (by decide), ih]; rfl
    rw [if_neg h4]
    by_cases h5 : c = 10
    · subst h5; rw [if_pos rfl]
      show readString (92 :: 110 :: (s.flatMap escape ++ 34 :: rest)) = _
      rw [readString_esc (c := 10) (by decide) (by decide), ih]; rfl
    rw [if_neg h5]
    by_cases h6 : c = 9
    · subst h6; rw [if_pos rfl]
      show readString (92 :: 116 :: (s.flatMap escape ++ 34 :: rest)) = _
      rw [readString_esc (c := 9) (by decide) (by decide), ih]; rfl
    rw [if_neg h6]
    by_cases h7 : 32 ≤ c
    · rw [if_pos h7]
      show readString (c :: (s.flatMap escape ++ 34 :: rest)) = _
      rw [readString_plain h1 h2 (by rw [UInt8.not_lt]; exact h7), ih]; rfl
    · rw [if_neg h7]
      have hlt : c < 32 := by rw [← UInt8.not_le]; exact h7
      obtain ⟨x1, x2⟩ := hex4_ok c hlt
      have e : ∃ a b d f, hex4 c = [a, b, d, f] := ⟨_, _, _, _, rfl⟩
      obtain ⟨a, b, d, f, e⟩ := e
      rw [e] at x1 x2 ⊢
      show readString (92 :: 117 :: a :: b :: d :: f :: (s.flatMap escape ++ 34 :: rest)) = _
      rw [readString_u, if_pos (by simpa [Bool.and_assoc] using x1), ih]
      simp only [List.getD_cons_zero, List.getD_cons_succ] at x2
      rw [x2]
      rfl

/-- What may follow a number. -/
def Delim (rest : Str) : Prop := ∀ c, rest.head? = some c → isDigit c = false ∧ c ≠ 46 ∧ c ≠ 101 ∧ c ≠ 69

theorem dec_lead (n : Nat) : (dec n).head? = some 48 → dec n = [48] := by
  have key : ∀ fuel n, n < fuel → (decAux fuel n).head? = some 48 → n = 0 := by
    intro fuel
    induction fuel with
    | zero => intro n h; omega
    | succ fuel ih =>
      intro n h hh
      rw [decAux] at hh
      split at hh
      · rename_i hn
        simp only [List.head?_cons, Option.some.injEq] at hh
        have := congrArg UInt8.toNat hh
        rw [digit_val n hn] at this
        have e : (48 : UInt8).toNat = 48 := rfl
        omega
      · rename_i hn
        have hne := (decAux_spec fuel (n / 10) (by omega)).2.2
        have hh' : (decAux fuel (n / 10)).head? = some 48 := by
          cases e : decAux fuel (n / 10) with
          | nil => exact absurd e hne
          | cons a l => rw [e] at hh; exact hh
        have := ih (n / 10) (by omega) hh'
        omega
  intro h
  have := key (n + 1) n (by omega) h
  subst this
  rfl

theorem takeWhile_dec' (n : Nat) {rest : Str} (h : Delim rest) : (dec n ++ rest).takeWhile isDigit = dec n ∧ (dec n ++ rest).dropWhile isDigit = rest := by
  cases rest with
  | nil =>
    rw [List.append_nil]
    refine ⟨?_, ?_⟩
    · have := List.takeWhile_append_of_pos (l₂ := []) (dec_digits n)
      simpa using this
    · have := List.dropWhile_append_of_pos (l₂ := []) (dec_digits n)
      simpa using this
  | cons c r => exact takeWhile_dec n c r (h c rfl).1

theorem readNat_dec (n : Nat) {rest : Str} (h : Delim rest) : readNat (dec n ++ rest) = some (n, rest) := by
  unfold readNat
  obtain ⟨h1, h2⟩ := takeWhile_dec' n h
  simp only [h1, h2]
  rw [if_neg, if_neg, decVal_dec]
  · rintro (h3 | h3 | h3)
    · exact (h _ h3).2.1 rfl
    · exact (h _ h3).2.2.1 rfl
    · exact (h _ h3).2.2.2 rfl
  · rintro (h3 | h3)
    · exact dec_ne_nil n h3
    · exact h3.2 (dec_lead n h3.1)

theorem dec_head (n : Nat) : ∃ c r, dec n = c :: r ∧ isDigit c = true := by
  cases e : dec n with
  | nil => exact absurd e (dec_ne_nil n)
  | cons c r => exact ⟨c, r, rfl, dec_digits n c (by rw [e]; simp)⟩

theorem readInt_print (i : Int) {rest : Str} (h : Delim rest) : readInt (printInt i ++ rest) = some (i, rest) := by
  unfold printInt
  split
  · rename_i hi
    show (readNat (dec i.natAbs ++ rest)).map _ = _
    rw [readNat_dec _ h]
    simp only [Option.map_some, Option.some.injEq, Prod.mk.injEq, and_true]
    omega
  · rename_i hi
    obtain ⟨c, r, e, hc⟩ := dec_head i.natAbs
    have : readInt (dec i.natAbs ++ rest) = (readNat (dec i.natAbs ++ rest)).map (fun x => ((x.1 : Int), x.2)) := by
      rw [e, List.cons_append, readInt.eq_def]
      split
      · rename_i h'
        rw [List.cons.injEq] at h'
        rw [h'.1] at hc
        cases hc
      · rfl
    rw [this, readNat_dec _ h]
    simp only [Option.map_some, Option.some.injEq, Prod.mk.injEq, and_true]
    omega

/-! ## Values -/

/-- What comes before a value. -/
def PreOk (f : Frame) (pre : Str) : Prop := if f.first then pre = [] else ∃ w, isWs w = true ∧ pre = [44, w]

theorem beginValue_ok {st : St} {f : Frame} {fs : List Frame} (h : st.stack = f :: fs) :
    ∃ pre b, beginValue st = ⟨⟨false, f.close⟩ :: fs, b, st.out ++ pre⟩ ∧ PreOk f pre := by
  obtain ⟨stack, sep, out⟩ := st
  obtain ⟨first, close⟩ := f
  simp only at h
  subst h
  cases first <;> cases sep
  · exact ⟨[44, 32], false, rfl, 32, rfl, rfl⟩
  · exact ⟨[44, 10], false, rfl, 10, rfl, rfl⟩
  · exact ⟨[], false, by simp [beginValue], rfl⟩
  · exact ⟨[], true, by simp [beginValue], rfl⟩

/-- The text is read as the value, whatever follows. -/
def Reads (text : Str) (v : Val) : Prop := ∀ rest, Delim rest → ∃ N, ∀ k, N ≤ k → readValue k (text ++ rest) = some (v, rest)

/-- The text does not start with white space or the end of an aggregate. -/
def Good (text : Str) : Prop := ∃ c r, text = c :: r ∧ isWs c = false ∧ c ≠ 93 ∧ c ≠ 125

theorem reads_int (i : Int) : Reads (printInt i) (.int i) ∧ Good (printInt i) := by
  have hd : ∃ c r, printInt i = c :: r ∧ (isDigit c = true ∨ c = 45) := by
    unfold printInt
    split
    · exact ⟨45, _, rfl, .inr rfl⟩
    · obtain ⟨c, r, e, hc⟩ := dec_head i.natAbs
      exact ⟨c, r, e, .inl hc⟩
  obtain ⟨c, r, e, hc⟩ := hd
  have facts : ∀ c : UInt8, isDigit c = true ∨ c = 45 → isWs c = false ∧ c ≠ 93 ∧ c ≠ 125 ∧ c ≠ 91 ∧ c ≠ 123 ∧ c ≠ 34 ∧ c ≠ 116 ∧ c ≠ 102 ∧ c ≠ 110 := by
    apply forall_byte
    decide +kernel
  obtain ⟨f1, f2, f3, f4, f5, f6, f7, f8, f9⟩ := facts c hc
  refine ⟨fun rest hr => ⟨1, fun k hk => ?_⟩, c, r, e, f1, f2, f3⟩
  obtain ⟨k, rfl⟩ : ∃ j, k = j + 1 := ⟨k - 1, by omega⟩
  have := readInt_print i hr
  rw [e, List.cons_append] at *
  rw [readValue, skipWs_cons f1]
  split <;> rename_i h' <;> simp only [List.cons.injEq] at h'
  · exact absurd h'.1 f4
  · exact absurd h'.1 f5
  · exact absurd h'.1 f6
  · exact absurd h'.1 f7
  · exact absurd h'.1 f8
  · exact absurd h'.1 f9
  · rw [this]; rfl

theorem reads_str (s : Str) : Reads ([34] ++ s.flatMap escape ++ [34]) (.str s) ∧ Good ([34] ++ s.flatMap escape ++ [34]) := by
  refine ⟨fun rest _ => ⟨1, fun k hk => ?_⟩, 34, _, rfl, by decide, by decide, by decide⟩
  obtain ⟨k, rfl⟩ : ∃ j, k = j + 1 := ⟨k - 1, by omega⟩
  have e : [34] ++ s.flatMap escape ++ [34] ++ rest = 34 :: (s.flatMap escape ++ 34 :: rest) := by simp
  rw [e, readValue, skipWs_cons (by decide)]
  simp only
  rw [readString_escape]
  rfl

theorem reads_bool (b : Bool) : Reads (if b then bs "true" else bs "false") (.bool b) ∧ Good (if b then bs "true" else bs "false") := by
  cases b
  · exact ⟨fun rest _ => ⟨1, fun k hk => by obtain ⟨k, rfl⟩ : ∃ j, k = j + 1 := ⟨k - 1, by omega⟩; rfl⟩, 102, _, rfl, by decide, by decide, by decide⟩
  · exact ⟨fun rest _ => ⟨1, fun k hk => by obtain ⟨k, rfl⟩ : ∃ j, k = j + 1 := ⟨k - 1, by omega⟩; rfl⟩, 116, _, rfl, by decide, by decide, by decide⟩

theorem reads_null : Reads (bs "null") .null ∧ Good (bs "null") :=
  ⟨fun rest _ => ⟨1, fun k hk => by obtain ⟨k, rfl⟩ : ∃ j, k = j + 1 := ⟨k - 1, by omega⟩; rfl⟩, 110, _, rfl, by decide, by decide, by decide⟩

/-- The text of the rest of an array. -/
def TailReads (T : Str) (l : List Val) : Prop := (T = [] ∨ ∃ r, T = 44 :: r) ∧
  ∀ rest, ∃ N, ∀ k g, N ≤ k → N ≤ g → readElems (readValue k) g (T ++ 93 :: rest) = some (l, rest)

/-- The text of the rest of an object. -/
def MembersRead (T : Str) (l : List (Str × Val)) : Prop := (T = [] ∨ ∃ r, T = 44 :: r) ∧
  ∀ rest, ∃ N, ∀ k g, N ≤ k → N ≤ g → readMembers (readValue k) g (T ++ 125 :: rest) = some (l, rest)

theorem delim_tail {T : Str} (h : T = [] ∨ ∃ r, T = 44 :: r) (c : UInt8) (hc : c = 93 ∨ c = 125) (rest : Str) : Delim (T ++ c :: rest) := by
  intro x hx
  rcases h with rfl | ⟨r, rfl⟩
  · simp only [List.nil_append, List.head?_cons, Option.some.injEq] at hx
    subst hx
    rcases hc with rfl | rfl <;> decide
  · simp only [List.cons_append, List.head?_cons, Option.some.injEq] at hx
    subst hx
    decide

theorem norm_key : ∀ (cs : List Call) (k : Str), norm cs = [.mapKey k] → cstr (some k) = k
  | [], k, h => by cases h
  | c :: cs, k, h => by
    cases c with
    | separator => exact norm_key cs k h
    | mapKey k0 =>
      simp only [norm, List.cons.injEq, Call.mapKey.injEq] at h
      rw [← h.1]; exact cstr_cstr k0
    | _ => simp [norm] at h

theorem readValue_ws {w : UInt8} (h : isWs w = true) (k : Nat) (s : Str) : readValue k (w :: s) = readValue k s := by
  cases k with
  | zero => rfl
  | succ k => rw [readValue, readValue, skipWs_ws h]

theorem skipWs_good {text : Str} (h : Good text) (rest : Str) : skipWs (text ++ rest) = text ++ rest := by
  obtain ⟨c, r, rfl, h1, _⟩ := h
  exact skipWs_cons h1 _

theorem good_head {text : Str} (h : Good text) (rest : Str) : (text ++ rest).head? ≠ some 93 ∧ (text ++ rest).head? ≠ some 125 := by
  obtain ⟨c, r, rfl, _, h2, h3⟩ := h
  simp [h2, h3]

theorem readElems_cons (value : Str → Option (Val × Str)) (g : Nat) (r : Str) : readElems value (g + 1) (44 :: r) =
    match value r with
    | none => none
    | some (v, r) =>
      match readElems value g r with
      | none => none
      | some (vs, r) => some (v :: vs, r) := by
  rw [readElems, skipWs_cons (by decide)]
  rfl

theorem readMembers_cons (value : Str → Option (Val × Str)) (g : Nat) (r : Str) : readMembers value (g + 1) (44 :: r) =
    match readMember value r with
    | none => none
    | some (v, r) =>
      match readMembers value g r with
      | none => none
      | some (vs, r) => some (v :: vs, r) := by
  rw [readMembers, skipWs_cons (by decide)]
  rfl

theorem tail_nil : TailReads [] [] := by
  refine ⟨.inl rfl, fun rest => ⟨1, fun k g _ hg => ?_⟩⟩
  obtain ⟨g, rfl⟩ : ∃ j, g = j + 1 := ⟨g - 1, by omega⟩
  rw [List.nil_append, readElems, skipWs_cons (by decide)]
  rfl

theorem members_nil : MembersRead [] [] := by
  refine ⟨.inl rfl, fun rest => ⟨1, fun k g _ hg => ?_⟩⟩
  obtain ⟨g, rfl⟩ : ∃ j, g = j + 1 := ⟨g - 1, by omega⟩
  rw [List.nil_append, readMembers, skipWs_cons (by decide)]
  rfl

theorem tail_cons {w : UInt8} (hw : isWs w = true) {text T : Str} {v : Val} {l : List Val} (h : Reads text v) (ht : TailReads T l) :
    TailReads ([44, w] ++ text ++ T) (v :: l) := by
  refine ⟨.inr ⟨_, rfl⟩, fun rest => ?_⟩
  obtain ⟨N1, h1⟩ := h (T ++ 93 :: rest) (delim_tail ht.1 93 (.inl rfl) rest)
  obtain ⟨N2, h2⟩ := ht.2 rest
  refine ⟨N1 + N2 + 1, fun k g hk hg => ?_⟩
  obtain ⟨g, rfl⟩ : ∃ j, g = j + 1 := ⟨g - 1, by omega⟩
  have e : [44, w] ++ text ++ T ++ 93 :: rest = 44 :: w :: (text ++ (T ++ 93 :: rest)) := by simp
  rw [e, readElems_cons, readValue_ws hw, h1 k (by omega)]
  simp only
  rw [h2 k g (by omega) (by omega)]

theorem readMember_ok {key text : Str} {v : Val} {k : Nat} {pre rest : Str} (hp : pre = [] ∨ ∃ w, isWs w = true ∧ pre = [w])
    (h : readValue k (text ++ rest) = some (v, rest)) :
    readMember (readValue k) (pre ++ (([34] ++ key.flatMap escape ++ [34]) ++ [58, 32] ++ text) ++ rest) = some ((key, v), rest) := by
  have e : pre ++ (([34] ++ key.flatMap escape ++ [34]) ++ [58, 32] ++ text) ++ rest =
      pre ++ 34 :: (key.flatMap escape ++ 34 :: (58 :: 32 :: (text ++ rest))) := by simp
  rw [e]
  have e2 : skipWs (pre ++ 34 :: (key.flatMap escape ++ 34 :: (58 :: 32 :: (text ++ rest)))) = 34 :: (key.flatMap escape ++ 34 :: (58 :: 32 :: (text ++ rest))) := by
    rcases hp with rfl | ⟨w, hw, rfl⟩
    · exact skipWs_cons (by decide) _
    · rw [List.singleton_append, skipWs_ws hw, skipWs_cons (by decide)]
  unfold readMember
  rw [e2]
  simp only
  rw [readString_escape]
  simp only
  rw [skipWs_cons (by decide)]
  simp only
  rw [readValue_ws (by decide), h]
  rfl

theorem members_cons {w : UInt8} (hw : isWs w = true) {key text T : Str} {v : Val} {l : List (Str × Val)} (h : Reads text v) (ht : MembersRead T l) :
    MembersRead ([44, w] ++ (([34] ++ key.flatMap escape ++ [34]) ++ [58, 32] ++ text) ++ T) ((key, v) :: l) := by
  refine ⟨.inr ⟨_, rfl⟩, fun rest => ?_⟩
  obtain ⟨N1, h1⟩ := h (T ++ 125 :: rest) (delim_tail ht.1 125 (.inr rfl) rest)
  obtain ⟨N2, h2⟩ := ht.2 rest
  refine ⟨N1 + N2 + 1, fun k g hk hg => ?_⟩
  obtain ⟨g, rfl⟩ : ∃ j, g = j + 1 := ⟨g - 1, by omega⟩
  have e : [44, w] ++ (([34] ++ key.flatMap escape ++ [34]) ++ [58, 32] ++ text) ++ T ++ 125 :: rest =
      44 :: ([w] ++ (([34] ++ key.flatMap escape ++ [34]) ++ [58, 32] ++ text) ++ (T ++ 125 :: rest)) := by simp
  rw [e, readMembers_cons, readMember_ok (.inr ⟨w, hw, rfl⟩) (h1 k (by omega))]
  simp only
  rw [h2 k g (by omega) (by omega)]

theorem reads_list_nil : Reads ([91] ++ [] ++ [93]) (.list []) := by
  refine fun rest _ => ⟨1, fun k hk => ?_⟩
  obtain ⟨k, rfl⟩ : ∃ j, k = j + 1 := ⟨k - 1, by omega⟩
  rfl

theorem reads_obj_nil : Reads ([123] ++ [] ++ [125]) (.obj []) := by
  refine fun rest _ => ⟨1, fun k hk => ?_⟩
  obtain ⟨k, rfl⟩ : ∃ j, k = j + 1 := ⟨k - 1, by omega⟩
  rfl

theorem reads_list {text T : Str} {v : Val} {l : List Val} (h : Reads text v) (hg : Good text) (ht : TailReads T l) : Reads ([91] ++ (text ++ T) ++ [93]) (.list (v :: l)) := by
  intro rest _
  obtain ⟨N1, h1⟩ := h (T ++ 93 :: rest) (delim_tail ht.1 93 (.inl rfl) rest)
  obtain ⟨N2, h2⟩ := ht.2 rest
  refine ⟨N1 + N2 + 1, fun k hk => ?_⟩
  obtain ⟨k, rfl⟩ : ∃ j, k = j + 1 := ⟨k - 1, by omega⟩
  have e : [91] ++ (text ++ T) ++ [93] ++ rest = 91 :: (text ++ (T ++ 93 :: rest)) := by simp
  rw [e, readValue, skipWs_cons (by decide)]
  simp only
  rw [skipWs_good hg, if_neg (good_head hg _).1, h1 k (by omega)]
  simp only
  rw [h2 k k (by omega) (by omega)]
  rfl

theorem reads_obj {key text T : Str} {v : Val} {l : List (Str × Val)} (h : Reads text v) (ht : MembersRead T l) :
    Reads ([123] ++ ((([34] ++ key.flatMap escape ++ [34]) ++ [58, 32] ++ text) ++ T) ++ [125]) (.obj ((key, v) :: l)) := by
  intro rest _
  obtain ⟨N1, h1⟩ := h (T ++ 125 :: rest) (delim_tail ht.1 125 (.inr rfl) rest)
  obtain ⟨N2, h2⟩ := ht.2 rest
  refine ⟨N1 + N2 + 1, fun k hk => ?_⟩
  obtain ⟨k, rfl⟩ : ∃ j, k = j + 1 := ⟨k - 1, by omega⟩
  have e : [123] ++ ((([34] ++ key.flatMap escape ++ [34]) ++ [58, 32] ++ text) ++ T) ++ [125] ++ rest =
      123 :: ([] ++ (([34] ++ key.flatMap escape ++ [34]) ++ [58, 32] ++ text) ++ (T ++ 125 :: rest)) := by simp
  rw [e, readValue, skipWs_cons (by decide)]
  simp only
  rw [if_neg, readMember_ok (.inl rfl) (h1 k (by omega))]
  · simp only
    rw [h2 k k (by omega) (by omega)]
    rfl
  · simp [skipWs, isWs]

/-- Printing a value inside an aggregate. -/
def ValueOk (v : Val) : Prop := ∀ cs st f fs, norm cs = v.calls → st.stack = f :: fs →
  ∃ b pre text, run st cs = some ⟨⟨false, f.close⟩ :: fs, b, st.out ++ (pre ++ text)⟩ ∧ PreOk f pre ∧ Reads text v ∧ Good text

/-- Printing the rest of an array. -/
def ListOk (l : List Val) : Prop := ∀ cs st f fs, norm cs = Val.callsList l → st.stack = f :: fs → f.first = false →
  ∃ b T, run st cs = some ⟨f :: fs, b, st.out ++ T⟩ ∧ TailReads T l

/-- Printing a whole array or object up to its end. -/
def BodyOk (cl : UInt8) (calls : List Call) (v : Val) (op : UInt8) : Prop := ∀ cs st fs, norm cs = calls → st.stack = ⟨true, cl⟩ :: fs →
  ∃ b first body, run st cs = some ⟨⟨first, cl⟩ :: fs, b, st.out ++ body⟩ ∧ Reads ([op] ++ body ++ [cl]) v

def ObjOk (l : List (Str × Val)) : Prop := ∀ cs st f fs, norm cs = Val.callsObj l → st.stack = f :: fs → f.first = false →
  ∃ b T, run st cs = some ⟨f :: fs, b, st.out ++ T⟩ ∧ MembersRead T l

theorem scalar_ok {v : Val} {c : Call} {text : Str} (hc : v.calls = [c]) (hs : ∀ st, step st c = some ((beginValue st).put text)) (hr : Reads text v ∧ Good text) :
    ValueOk v := by
  intro cs st f fs h hst
  rw [hc] at h
  obtain ⟨b, hb⟩ := run_one cs c st h
  obtain ⟨pre, b1, e1, e2⟩ := beginValue_ok (st := { st with sep := b }) hst
  obtain ⟨b2, e3⟩ := hb _ (hs _)
  refine ⟨b2, pre, text, ?_, e2, hr.1, hr.2⟩
  rw [e3, e1]
  simp [St.put]

theorem agg_ok {v : Val} {c : Call} {op cl : UInt8} {calls : List Call} (hc : v.calls = c :: (calls ++ [.endAgg]))
    (hs : ∀ st, step st c = some (beginAggregate st op cl)) (hb : BodyOk cl calls v op) (hop : op = 91 ∨ op = 123) : ValueOk v := by
  intro cs st f fs h hst
  rw [hc] at h
  obtain ⟨c1, c23, rfl, h1, h23⟩ := norm_append_inv cs [c] _ h
  obtain ⟨c2, c3, rfl, h2, h3⟩ := norm_append_inv c23 calls _ h23
  obtain ⟨b1, r1⟩ := run_one c1 c st h1
  obtain ⟨pre, b2, e1, e2⟩ := beginValue_ok (st := { st with sep := b1 }) hst
  obtain ⟨b3, r1⟩ := r1 _ (hs _)
  obtain ⟨b4, first, body, r2, hr⟩ := hb c2 { beginAggregate { st with sep := b1 } op cl with sep := b3 } (⟨false, f.close⟩ :: fs) h2 (by simp [beginAggregate, e1])
  obtain ⟨b5, r3⟩ := run_one c3 .endAgg ⟨⟨first, cl⟩ :: ⟨false, f.close⟩ :: fs, b4, { beginAggregate { st with sep := b1 } op cl with sep := b3 }.out ++ body⟩ h3
  obtain ⟨b6, r3⟩ := r3 _ rfl
  refine ⟨b6, pre, [op] ++ body ++ [cl], ?_, e2, hr, ?_⟩
  · rw [run_append, r1]
    simp only [Option.bind_some]
    rw [run_append, r2]
    simp only [Option.bind_some]
    rw [r3]
    simp [beginAggregate, e1]
  · rcases hop with rfl | rfl
    · exact ⟨91, _, rfl, by decide, by decide, by decide⟩
    · exact ⟨123, _, rfl, by decide, by decide, by decide⟩

theorem body_list_nil : BodyOk 93 (Val.callsList []) (.list []) 91 := by
  intro cs st fs h hst
  obtain ⟨b, hb⟩ := run_seps cs st h
  exact ⟨b, true, [], by rw [hb, ← hst]; simp, reads_list_nil⟩

theorem body_obj_nil : BodyOk 125 (Val.callsObj []) (.obj []) 123 := by
  intro cs st fs h hst
  obtain ⟨b, hb⟩ := run_seps cs st h
  exact ⟨b, true, [], by rw [hb, ← hst]; simp, reads_obj_nil⟩

theorem body_list {v : Val} {l : List Val} (hv : ValueOk v) (hl : ListOk l) : BodyOk 93 (Val.callsList (v :: l)) (.list (v :: l)) 91 := by
  intro cs st fs h hst
  obtain ⟨c1, c2, rfl, h1, h2⟩ := norm_append_inv cs v.calls _ h
  obtain ⟨b1, pre, text, r1, p1, t1, g1⟩ := hv c1 st _ fs h1 hst
  have : pre = [] := p1
  subst this
  obtain ⟨b2, T, r2, t2⟩ := hl c2 ⟨⟨false, 93⟩ :: fs, b1, st.out ++ ([] ++ text)⟩ _ fs h2 rfl rfl
  refine ⟨b2, false, text ++ T, ?_, reads_list t1 g1 t2⟩
  rw [run_append, r1]
  simp only [Option.bind_some]
  rw [r2]
  simp

theorem list_cons {v : Val} {l : List Val} (hv : ValueOk v) (hl : ListOk l) : ListOk (v :: l) := by
  intro cs st f fs h hst hf
  obtain ⟨first, close⟩ := f
  simp only at hf
  subst hf
  obtain ⟨c1, c2, rfl, h1, h2⟩ := norm_append_inv cs v.calls _ h
  obtain ⟨b1, pre, text, r1, p1, t1, g1⟩ := hv c1 st _ fs h1 hst
  obtain ⟨w, hw, rfl⟩ : ∃ w, isWs w = true ∧ pre = [44, w] := p1
  obtain ⟨b2, T, r2, t2⟩ := hl c2 ⟨⟨false, close⟩ :: fs, b1, st.out ++ ([44, w] ++ text)⟩ _ fs h2 rfl rfl
  refine ⟨b2, [44, w] ++ text ++ T, ?_, tail_cons hw t1 t2⟩
  rw [run_append, r1]
  simp only [Option.bind_some]
  rw [r2]
  simp

/-- A name and its value. -/
theorem member_ok {key : Str} {v : Val} (hv : ValueOk v) (c1 c2 : List Call) (st : St) (f : Frame) (fs : List Frame) (h1 : norm c1 = [.mapKey key])
    (h2 : norm c2 = v.calls) (hst : st.stack = f :: fs) :
    ∃ b pre text, run st (c1 ++ c2) = some ⟨⟨false, f.close⟩ :: fs, b, st.out ++ (pre ++ (([34] ++ key.flatMap escape ++ [34]) ++ [58, 32] ++ text))⟩ ∧
      PreOk f pre ∧ Reads text v := by
  obtain ⟨b1, r1⟩ := run_one c1 _ st h1
  obtain ⟨pre, b2, e1, e2⟩ := beginValue_ok (st := { st with sep := b1 }) hst
  have hk := norm_key c1 key h1
  have hs : step { st with sep := b1 } (.mapKey key) =
      some ⟨⟨true, f.close⟩ :: fs, b2, st.out ++ pre ++ ([34] ++ key.flatMap escape ++ [34]) ++ [58, 32]⟩ := by
    simp only [step, mapKey, stringLen, e1, hk, St.put]
  obtain ⟨b3, r1⟩ := r1 _ hs
  obtain ⟨b4, pre2, text, r2, p2, t2, _⟩ := hv c2 ⟨⟨true, f.close⟩ :: fs, b3, st.out ++ pre ++ ([34] ++ key.flatMap escape ++ [34]) ++ [58, 32]⟩ ⟨true, f.close⟩ fs h2 rfl
  have : pre2 = [] := p2
  subst this
  refine ⟨b4, pre, text, ?_, e2, t2⟩
  rw [run_append, r1]
  simp only [Option.bind_some]
  rw [r2]
  simp

theorem body_obj {key : Str} {v : Val} {l : List (Str × Val)} (hv : ValueOk v) (hl : ObjOk l) : BodyOk 125 (Val.callsObj ((key, v) :: l)) (.obj ((key, v) :: l)) 123 := by
  intro cs st fs h hst
  have h' : norm cs = ([.mapKey key] ++ v.calls) ++ Val.callsObj l := by rw [h]; simp [Val.callsObj]
  obtain ⟨c12, c3, rfl, h12, h3⟩ := norm_append_inv cs _ _ h'
  obtain ⟨c1, c2, rfl, h1, h2⟩ := norm_append_inv c12 _ _ h12
  obtain ⟨b1, pre, text, r1, p1, t1⟩ := member_ok hv c1 c2 st _ fs h1 h2 hst
  have : pre = [] := p1
  subst this
  obtain ⟨b2, T, r2, t2⟩ := hl c3 ⟨⟨false, 125⟩ :: fs, b1, st.out ++ ([] ++ (([34] ++ key.flatMap escape ++ [34]) ++ [58, 32] ++ text))⟩ _ fs h3 rfl rfl
  refine ⟨b2, false, _, ?_, reads_obj t1 t2⟩
  rw [run_append, r1]
  simp only [Option.bind_some]
  rw [r2]
  simp

theorem obj_cons {key : Str} {v : Val} {l : List (Str × Val)} (hv : ValueOk v) (hl : ObjOk l) : ObjOk ((key, v) :: l) := by
  intro cs st f fs h hst hf
  obtain ⟨first, close⟩ := f
  simp only at hf
  subst hf
  have h' : norm cs = ([.mapKey key] ++ v.calls) ++ Val.callsObj l := by rw [h]; simp [Val.callsObj]
  obtain ⟨c12, c3, rfl, h12, h3⟩ := norm_append_inv cs _ _ h'
  obtain ⟨c1, c2, rfl, h1, h2⟩ := norm_append_inv c12 _ _ h12
  obtain ⟨b1, pre, text, r1, p1, t1⟩ := member_ok hv c1 c2 st _ fs h1 h2 hst
  obtain ⟨w, hw, rfl⟩ : ∃ w, isWs w = true ∧ pre = [44, w] := p1
  obtain ⟨b2, T, r2, t2⟩ := hl c3 ⟨⟨false, close⟩ :: fs, b1, st.out ++ ([44, w] ++ (([34] ++ key.flatMap escape ++ [34]) ++ [58, 32] ++ text))⟩ _ fs h3 rfl rfl
  refine ⟨b2, _, ?_, members_cons hw t1 t2⟩
  rw [run_append, r1]
  simp only [Option.bind_some]
  rw [r2]
  simp

theorem list_nil : ListOk [] := by
  intro cs st f fs h hst _
  obtain ⟨b, hb⟩ := run_seps cs st h
  exact ⟨b, [], by rw [hb, ← hst]; simp, tail_nil⟩

theorem obj_nil : ObjOk [] := by
  intro cs st f fs h hst _
  obtain ⟨b, hb⟩ := run_seps cs st h
  exact ⟨b, [], by rw [hb, ← hst]; simp, members_nil⟩

mutual
theorem value_ok : ∀ v : Val, ValueOk v
  | .null => scalar_ok rfl (fun _ => rfl) reads_null
  | .bool b => scalar_ok rfl (fun _ => rfl) (reads_bool b)
  | .int i => scalar_ok rfl (fun _ => rfl) (reads_int i)
  | .str s => scalar_ok rfl (fun _ => rfl) (reads_str s)
  | .list [] => agg_ok rfl (fun _ => rfl) body_list_nil (.inl rfl)
  | .list (v :: l) => agg_ok rfl (fun _ => rfl) (body_list (value_ok v) (list_ok l)) (.inl rfl)
  | .obj [] => agg_ok rfl (fun _ => rfl) body_obj_nil (.inr rfl)
  | .obj ((_, v) :: l) => agg_ok rfl (fun _ => rfl) (body_obj (value_ok v) (obj_ok l)) (.inr rfl)

theorem list_ok : ∀ l : List Val, ListOk l
  | [] => list_nil
  | v :: l => list_cons (value_ok v) (list_ok l)

theorem obj_ok : ∀ l : List (Str × Val), ObjOk l
  | [] => obj_nil
  | (_, v) :: l => obj_cons (value_ok v) (obj_ok l)
end

end Json

end Notmuch.Sprinter
