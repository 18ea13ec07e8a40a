import Verif.Proofs.Sprinter

/-! # The S-expression printer: printing and reading back -/

namespace Notmuch.Sprinter.Sexp
open Notmuch.Sprinter.Json (norm_key dec_head)

theorem run_append (a b : List Call) (st : St) : run st (a ++ b) = (run st a).bind (fun st => run st b) := by
  induction a generalizing st with
  | nil => rfl
  | cons c a ih =>
    simp only [List.cons_append, run]
    cases step st c with
    | none => rfl
    | some st => exact ih st

theorem run_seps : ∀ (cs : List Call) (st : St), norm cs = [] → ∃ b, run st cs = some { st with sep := b }
  | [], st, _ => ⟨st.sep, rfl⟩
  | c :: cs, st, h => by
    by_cases hc : c = .separator
    · subst hc
      obtain ⟨b, hb⟩ := run_seps cs { st with sep := true } h
      exact ⟨b, hb⟩
    · obtain ⟨c', e1, _⟩ := norm_cons_ne c cs hc
      rw [e1] at h; cases h

theorem step_norm (st : St) (c c' : Call) (hc : c ≠ .separator) (h : norm [c] = [c']) : step st c = step st c' := by
  cases c with
  | separator => exact absurd rfl hc
  | mapKey k =>
    simp only [norm, List.cons.injEq, and_true] at h
    subst h
    simp only [step, keyword, cstr_cstr]
  | _ =>
    simp only [norm, List.cons.injEq, and_true] at h
    subst h
    rfl

/-- A call, with separators around it. -/
theorem run_one : ∀ (cs : List Call) (c : Call) (st : St), norm cs = [c] →
    ∃ b, ∀ st1, step { st with sep := b } c = some st1 → ∃ b', run st cs = some { st1 with sep := b' }
  | [], c, st, h => by cases h
  | d :: cs, c, st, h => by
    by_cases hc : d = .separator
    · subst hc
      obtain ⟨b, hb⟩ := run_one cs c { st with sep := true } h
      exact ⟨b, hb⟩
    · obtain ⟨c', e1, _, e3⟩ := norm_cons_ne d cs hc
      rw [e1, List.cons.injEq] at h
      obtain ⟨rfl, h⟩ := h
      refine ⟨st.sep, fun st1 h1 => ?_⟩
      obtain ⟨b', hb⟩ := run_seps cs st1 h
      refine ⟨b', ?_⟩
      rw [run, step_norm st d c' hc e3, show step st c' = some st1 from h1]
      exact hb

/-! ## Strings and atoms -/

theorem readLispString_plain {c : UInt8} (h1 : c ≠ 34) (h2 : c ≠ 92) (s : Str) : readLispString (c :: s) = (readLispString s).map (fun x => (c :: x.1, x.2)) := by
  rw [readLispString.eq_def]
  split
  · rename_i h; cases h
  · rename_i h; rw [List.cons.injEq] at h; exact absurd h.1 h1
  · rename_i h; rw [List.cons.injEq] at h; exact absurd h.1 h2
  · rename_i h; rw [List.cons.injEq] at h; exact absurd h.1 h2
  · rename_i h
    rw [List.cons.injEq] at h
    obtain ⟨rfl, rfl⟩ := h
    rfl

theorem readLispString_oct {a b c : UInt8} (h : (isOctal a && isOctal b && isOctal c) = true) (s : Str) : readLispString (92 :: a :: b :: c :: s) =
    (readLispString s).map (fun x => (UInt8.ofNat ((a.toNat - 48) * 64 + (b.toNat - 48) * 8 + (c.toNat - 48)) :: x.1, x.2)) := by
  rw [readLispString.eq_def]
  show (if (isOctal a && isOctal b && isOctal c) = true then _ else _) = _
  rw [if_pos h]

theorem readLispString_esc {a : UInt8} (h : isOctal a = false) (s : Str) : readLispString (92 :: a :: s) =
    (readLispString s).map (fun x => ((if a = 110 then 10 else a) :: x.1, x.2)) := by
  match s with
  | [] => rw [readLispString.eq_def]; rfl
  | [b] =>
    rw [readLispString.eq_def]
    show Option.map (fun x => ((if isOctal a = true then _ else if a = 110 then 10 else a) :: x.fst, x.snd)) (readLispString [b]) = _
    rw [if_neg (by simp [h])]
  | b :: c :: s =>
    rw [readLispString.eq_def]
    show (if (isOctal a && isOctal b && isOctal c) = true then _ else _) = _
    rw [if_neg (by simp [h]), if_neg (by simp [h]), if_neg (by simp [h])]

theorem oct3_ok : ∀ c : UInt8, c < 32 → (oct3 c).all isOctal = true ∧
    UInt8.ofNat ((((oct3 c).getD 0 0).toNat - 48) * 64 + (((oct3 c).getD 1 0).toNat - 48) * 8 + (((oct3 c).getD 2 0).toNat - 48)) = c := by
  apply forall_byte
  decide +kernel

theorem readLispString_escape (s rest : Str) : readLispString (s.flatMap escape ++ 34 :: rest) = some (s, rest) := by
  induction s with
  | nil =>
    rw [readLispString.eq_def]
    rfl
  | cons c s ih =>
    rw [List.flatMap_cons, List.append_assoc]
    unfold escape
    by_cases h1 : c = 34
    · subst h1; rw [if_pos rfl]
      show readLispString (92 :: 34 :: (s.flatMap escape ++ 34 :: rest)) = _
      rw [readLispString_esc (by decide), ih]; rfl
    rw [if_neg h1]
    by_cases h2 : c = 92
    · subst h2; rw [if_pos rfl]
      show readLispString (92 :: 92 :: (s.flatMap escape ++ 34 :: rest)) = _
      rw [readLispString_esc (by decide), ih]; rfl
    rw [if_neg h2]
    by_cases h5 : c = 10
    · subst h5; rw [if_pos rfl]
      show readLispString (92 :: 110 :: (s.flatMap escape ++ 34 :: rest)) = _
      rw [readLispString_esc (by decide), ih]; rfl
    rw [if_neg h5]
    by_cases h7 : 32 ≤ c
    · rw [if_pos h7]
      show readLispString (c :: (s.flatMap escape ++ 34 :: rest)) = _
      rw [readLispString_plain h1 h2, ih]; rfl
    · rw [if_neg h7]
      have hlt : c < 32 := by rw [← UInt8.not_le]; exact h7
      obtain ⟨x1, x2⟩ := oct3_ok c hlt
      have e : ∃ a b d, oct3 c = [a, b, d] := ⟨_, _, _, rfl⟩
      obtain ⟨a, b, d, e⟩ := e
      rw [e] at x1 x2 ⊢
      show readLispString (92 :: a :: b :: d :: (s.flatMap escape ++ 34 :: rest)) = _
      rw [readLispString_oct (by simpa [Bool.and_assoc] using x1), ih]
      simp only [List.getD_cons_zero, List.getD_cons_succ] at x2
      rw [x2]
      rfl

/-- What may follow an atom. -/
def Delim (rest : Str) : Prop := ∀ c, rest.head? = some c → isAtomChar c = false

/-- The text is read as the value, whatever follows. -/
def Reads (text : Str) (v : Lisp) : Prop := ∀ rest, Delim rest → ∃ N, ∀ k, N ≤ k → readLisp k (text ++ rest) = some (v, rest)

/-- The text does not start with white space or the end of a list. -/
def Good (text : Str) : Prop := ∃ c r, text = c :: r ∧ isWs c = false ∧ c ≠ 41

theorem reads_atom {a : Str} (hne : a ≠ []) (h : ∀ c ∈ a, isAtomChar c = true) : Reads a (atomOf a) ∧ Good a := by
  cases a with
  | nil => exact absurd rfl hne
  | cons c r =>
    have hc := h c (by simp)
    have facts : ∀ c : UInt8, isAtomChar c = true → isWs c = false ∧ c ≠ 41 ∧ c ≠ 40 ∧ c ≠ 34 := by
      apply forall_byte
      decide +kernel
    obtain ⟨f1, f2, f3, f4⟩ := facts c hc
    refine ⟨fun rest hr => ⟨1, fun k hk => ?_⟩, c, r, rfl, f1, f2⟩
    obtain ⟨k, rfl⟩ : ∃ j, k = j + 1 := ⟨k - 1, by omega⟩
    have t1 : ((c :: r) ++ rest).takeWhile isAtomChar = c :: r ∧ ((c :: r) ++ rest).dropWhile isAtomChar = rest := by
      rw [List.takeWhile_append_of_pos h, List.dropWhile_append_of_pos h]
      cases rest with
      | nil => simp
      | cons x rest =>
        have := hr x rfl
        simp [List.takeWhile_cons, List.dropWhile_cons, this]
    rw [List.cons_append] at t1 ⊢
    rw [readLisp, skipWs_cons f1]
    split <;> rename_i h' <;> simp only [List.cons.injEq, reduceCtorEq] at h'
    · exact absurd h'.1 f3
    · exact absurd h'.1 f4
    · obtain ⟨rfl, rfl⟩ := h'
      rw [if_pos hc, t1.1, t1.2]

theorem digit_atom : ∀ c : UInt8, isDigit c = true → isAtomChar c = true ∧ c ≠ 45 ∧ c ≠ 110 := by
  apply forall_byte
  decide +kernel

theorem reads_int (i : Int) : Reads (printInt i) (.int i) ∧ Good (printInt i) := by
  have h1 : printInt i ≠ [] ∧ (∀ c ∈ printInt i, isAtomChar c = true) ∧ atomOf (printInt i) = .int i := by
    unfold printInt
    split
    · rename_i hi
      refine ⟨by simp, ?_, ?_⟩
      · intro c hc
        rcases List.mem_cons.1 hc with rfl | hc
        · decide
        · exact (digit_atom c (dec_digits _ c hc)).1
      · unfold atomOf
        rw [if_neg (by intro h; rw [show bs "nil" = 110 :: bs "il" from rfl, List.cons.injEq] at h; exact absurd h.1 (by decide))]
        simp only
        rw [if_pos ⟨dec_ne_nil _, List.all_eq_true.2 (dec_digits _)⟩, decVal_dec]
        congr 1
        omega
    · rename_i hi
      refine ⟨dec_ne_nil _, fun c hc => (digit_atom c (dec_digits _ c hc)).1, ?_⟩
      obtain ⟨c, r, e, hc⟩ := dec_head i.natAbs
      have hall : (dec i.natAbs).all isDigit = true := List.all_eq_true.2 (dec_digits _)
      have hval := decVal_dec i.natAbs
      rw [e] at hall hval ⊢
      unfold atomOf
      rw [if_neg (by intro h; rw [show bs "nil" = 110 :: bs "il" from rfl, List.cons.injEq] at h; exact (digit_atom c hc).2.2 h.1)]
      split
      · rename_i h'
        rw [List.cons.injEq] at h'
        exact absurd h'.1 (digit_atom c hc).2.1
      · rw [if_pos hall, hval]
        congr 1
        omega
  obtain ⟨a, b, c⟩ := h1
  rw [← c]
  exact reads_atom a b

theorem reads_str (s : Str) : Reads ([34] ++ s.flatMap escape ++ [34]) (.str s) ∧ Good ([34] ++ s.flatMap escape ++ [34]) := by
  refine ⟨fun rest _ => ⟨1, fun k hk => ?_⟩, 34, _, rfl, by decide, by decide⟩
  obtain ⟨k, rfl⟩ : ∃ j, k = j + 1 := ⟨k - 1, by omega⟩
  have e : [34] ++ s.flatMap escape ++ [34] ++ rest = 34 :: (s.flatMap escape ++ 34 :: rest) := by simp
  rw [e, readLisp, skipWs_cons (by decide)]
  show (readLispString (s.flatMap escape ++ 34 :: rest)).map _ = _
  rw [readLispString_escape]
  rfl

theorem reads_bool (b : Bool) : Reads (if b then bs "t" else bs "nil") (Val.bool b).lisp ∧ Good (if b then bs "t" else bs "nil") := by
  cases b
  · exact reads_atom (a := bs "nil") (by decide) (by decide)
  · exact reads_atom (a := bs "t") (by decide) (by decide)

theorem reads_nil : Reads (bs "nil") Val.null.lisp ∧ Good (bs "nil") := reads_atom (a := bs "nil") (by decide) (by decide)

theorem reads_key {k : Str} (h : ∀ c ∈ k, isAlnum c = true ∨ c = 45 ∨ c = 95) : Reads (58 :: k) (.sym (58 :: k)) ∧ Good (58 :: k) := by
  have e : atomOf (58 :: k) = .sym (58 :: k) := by
    unfold atomOf
    rw [if_neg (by intro h; rw [show bs "nil" = 110 :: bs "il" from rfl, List.cons.injEq] at h; exact absurd h.1 (by decide))]
    simp [isDigit]
  rw [← e]
  refine reads_atom (by simp) ?_
  intro c hc
  rcases List.mem_cons.1 hc with rfl | hc
  · decide
  · unfold isAtomChar
    rcases h c hc with h | h | h <;> simp [h]

/-! ## Lists -/

/-- What comes before a value. -/
def PreOk (f : Frame) (pre : Str) : Prop := if f.first then pre = [] else ∃ w, isWs w = true ∧ pre = [w]

theorem beginValue_ok {st : St} {f : Frame} {fs : List Frame} (h : st.stack = f :: fs) :
    ∃ pre b, beginValue st = ⟨⟨false, f.close⟩ :: fs, b, st.out ++ pre⟩ ∧ PreOk f pre := by
  obtain ⟨stack, sep, out⟩ := st
  obtain ⟨first, close⟩ := f
  simp only at h
  subst h
  cases first <;> cases sep
  · exact ⟨[32], false, rfl, 32, rfl, rfl⟩
  · exact ⟨[10], false, rfl, 10, rfl, rfl⟩
  · exact ⟨[], false, by simp [beginValue], rfl⟩
  · exact ⟨[], true, by simp [beginValue], rfl⟩

/-- The text of the rest of a list. -/
def Elems (T : Str) (l : List Lisp) : Prop := ∀ rest, ∃ N, ∀ k g, N ≤ k → N ≤ g → readLispElems (readLisp k) g (T ++ 41 :: rest) = some (l, rest)

/-- A text after a value: nothing, or white space and something. -/
def After (T : Str) : Prop := T = [] ∨ ∃ w r, isWs w = true ∧ T = w :: r

theorem delim_after {T : Str} (h : After T) (rest : Str) : Delim (T ++ 41 :: rest) := by
  have facts : ∀ c : UInt8, isWs c = true → isAtomChar c = false := by
    apply forall_byte
    decide +kernel
  intro x hx
  rcases h with rfl | ⟨w, r, hw, rfl⟩
  · simp only [List.nil_append, List.head?_cons, Option.some.injEq] at hx
    subst hx
    decide
  · simp only [List.cons_append, List.head?_cons, Option.some.injEq] at hx
    subst hx
    exact facts _ hw

theorem elems_nil : Elems [] [] := by
  refine fun rest => ⟨1, fun k g _ hg => ?_⟩
  obtain ⟨g, rfl⟩ : ∃ j, g = j + 1 := ⟨g - 1, by omega⟩
  rw [List.nil_append, readLispElems, skipWs_cons (by decide)]
  rfl

theorem elems_cons {f : Frame} {pre text T : Str} {v : Lisp} {l : List Lisp} (hp : PreOk f pre) (h : Reads text v) (hg : Good text) (ha : After T) (ht : Elems T l) :
    Elems (pre ++ text ++ T) (v :: l) := by
  intro rest
  obtain ⟨N1, h1⟩ := h (T ++ 41 :: rest) (delim_after ha rest)
  obtain ⟨N2, h2⟩ := ht rest
  refine ⟨N1 + N2 + 1, fun k g hk hg' => ?_⟩
  obtain ⟨g, rfl⟩ : ∃ j, g = j + 1 := ⟨g - 1, by omega⟩
  obtain ⟨c, r, rfl, g1, g2⟩ := hg
  have e : skipWs (pre ++ (c :: r) ++ T ++ 41 :: rest) = c :: (r ++ (T ++ 41 :: rest)) := by
    unfold PreOk at hp
    split at hp
    · subst hp
      rw [List.nil_append, List.cons_append, List.cons_append, skipWs_cons g1]
      simp
    · obtain ⟨w, hw, rfl⟩ := hp
      rw [List.cons_append, List.cons_append, List.cons_append, skipWs_ws hw, List.nil_append, List.cons_append, List.cons_append, skipWs_cons g1]
      simp
  rw [readLispElems, e]
  have h1' := h1 k (by omega)
  rw [List.cons_append] at h1'
  split
  · rename_i h'; cases h'
  · rename_i h'; rw [List.cons.injEq] at h'; exact absurd h'.1 g2
  · rename_i c' r' _ h'
    rw [List.cons.injEq] at h'
    obtain ⟨rfl, rfl⟩ := h'
    rw [h1']
    simp only
    rw [h2 k g (by omega) (by omega)]
    rfl

theorem reads_list {T : Str} {l : List Lisp} (ht : Elems T l) : Reads ([40] ++ T ++ [41]) (.list l) ∧ Good ([40] ++ T ++ [41]) := by
  refine ⟨fun rest _ => ?_, 40, _, rfl, by decide, by decide⟩
  obtain ⟨N2, h2⟩ := ht rest
  refine ⟨N2 + 1, fun k hk => ?_⟩
  obtain ⟨k, rfl⟩ : ∃ j, k = j + 1 := ⟨k - 1, by omega⟩
  have e : [40] ++ T ++ [41] ++ rest = 40 :: (T ++ 41 :: rest) := by simp
  rw [e, readLisp, skipWs_cons (by decide)]
  show (readLispElems (readLisp k) k (T ++ 41 :: rest)).map _ = _
  rw [h2 k k (by omega) (by omega)]
  rfl

/-- Printing a value inside a list. -/
def ValueOk (v : Val) : Prop := v.KeysOk → ∀ cs st f fs, norm cs = v.calls → st.stack = f :: fs →
  ∃ b pre text, run st cs = some ⟨⟨false, f.close⟩ :: fs, b, st.out ++ (pre ++ text)⟩ ∧ PreOk f pre ∧ Reads text v.lisp ∧ Good text

/-- Printing the elements of a list. -/
def ElemsOk (calls : List Call) (l : List Lisp) : Prop := ∀ cs st f fs, norm cs = calls → st.stack = f :: fs →
  ∃ b first T, run st cs = some ⟨⟨first, f.close⟩ :: fs, b, st.out ++ T⟩ ∧ Elems T l ∧ (f.first = false → After T)

theorem scalar_ok {v : Val} {c : Call} {text : Str} (hc : v.calls = [c]) (hs : ∀ st, step st c = some ((beginValue st).put text)) (hr : Reads text v.lisp ∧ Good text) :
    ValueOk v := by
  intro _ cs st f fs h hst
  rw [hc] at h
  obtain ⟨b, hb⟩ := run_one cs c st h
  obtain ⟨pre, b1, e1, e2⟩ := beginValue_ok (st := { st with sep := b }) hst
  obtain ⟨b2, e3⟩ := hb _ (hs _)
  refine ⟨b2, pre, text, ?_, e2, hr.1, hr.2⟩
  rw [e3, e1]
  simp [St.put]

theorem agg_ok {v : Val} {c : Call} {calls : List Call} {l : List Lisp} (hc : v.calls = c :: (calls ++ [.endAgg])) (hl : v.lisp = .list l)
    (hs : ∀ st, step st c = some (beginAggregate st)) (hb : v.KeysOk → ElemsOk calls l) : ValueOk v := by
  intro hk cs st f fs h hst
  rw [hc] at h
  obtain ⟨c1, c23, rfl, h1, h23⟩ := norm_append_inv cs [c] _ h
  obtain ⟨c2, c3, rfl, h2, h3⟩ := norm_append_inv c23 calls _ h23
  obtain ⟨b1, r1⟩ := run_one c1 c st h1
  obtain ⟨pre, b2, e1, e2⟩ := beginValue_ok (st := { st with sep := b1 }) hst
  obtain ⟨b3, r1⟩ := r1 _ (hs _)
  obtain ⟨b4, first, T, r2, hr, _⟩ := hb hk c2 { beginAggregate { st with sep := b1 } with sep := b3 } ⟨true, 41⟩ (⟨false, f.close⟩ :: fs) h2 (by simp [beginAggregate, e1])
  obtain ⟨b5, r3⟩ := run_one c3 .endAgg ⟨⟨first, 41⟩ :: ⟨false, f.close⟩ :: fs, b4, { beginAggregate { st with sep := b1 } with sep := b3 }.out ++ T⟩ h3
  obtain ⟨b6, r3⟩ := r3 _ rfl
  rw [hl]
  refine ⟨b6, pre, [40] ++ T ++ [41], ?_, e2, reads_list hr⟩
  rw [run_append, r1]
  simp only [Option.bind_some]
  rw [run_append, r2]
  simp only [Option.bind_some]
  rw [r3]
  simp [beginAggregate, e1]

theorem elemsOk_nil : ElemsOk [] [] := by
  intro cs st f fs h hst
  obtain ⟨b, hb⟩ := run_seps cs st h
  exact ⟨b, f.first, [], by rw [hb, ← hst]; simp, elems_nil, fun _ => .inl rfl⟩

theorem after_pre {f : Frame} {pre text : Str} (hp : PreOk f pre) (hf : f.first = false) : After (pre ++ text) := by
  unfold PreOk at hp
  rw [hf] at hp
  obtain ⟨w, hw, rfl⟩ := hp
  exact .inr ⟨w, text, hw, rfl⟩

theorem elemsOk_cons {v : Val} {calls : List Call} {l : List Lisp} (hk : v.KeysOk) (hv : ValueOk v) (hl : ElemsOk calls l) : ElemsOk (v.calls ++ calls) (v.lisp :: l) := by
  intro cs st f fs h hst
  obtain ⟨c1, c2, rfl, h1, h2⟩ := norm_append_inv cs v.calls _ h
  obtain ⟨b1, pre, text, r1, p1, t1, g1⟩ := hv hk c1 st _ fs h1 hst
  obtain ⟨b2, first, T, r2, t2, a2⟩ := hl c2 ⟨⟨false, f.close⟩ :: fs, b1, st.out ++ (pre ++ text)⟩ _ fs h2 rfl
  refine ⟨b2, first, pre ++ text ++ T, ?_, elems_cons p1 t1 g1 (a2 rfl) t2, fun hf => ?_⟩
  · rw [run_append, r1]
    simp only [Option.bind_some]
    rw [r2]
    simp
  · rw [List.append_assoc]
    exact after_pre p1 hf

theorem elemsOk_key {k : Str} {calls : List Call} {l : List Lisp} (hk : ∀ c ∈ k, isAlnum c = true ∨ c = 45 ∨ c = 95) (hl : ElemsOk calls l) :
    ElemsOk ([.mapKey k] ++ calls) (.sym (58 :: k) :: l) := by
  intro cs st f fs h hst
  obtain ⟨c1, c2, rfl, h1, h2⟩ := norm_append_inv cs [.mapKey k] _ h
  obtain ⟨b1, r1⟩ := run_one c1 _ st h1
  obtain ⟨pre, b2, e1, p1⟩ := beginValue_ok (st := { st with sep := b1 }) hst
  have hs : step { st with sep := b1 } (.mapKey k) = some ⟨⟨false, f.close⟩ :: fs, b2, st.out ++ pre ++ ([58] ++ k)⟩ := by
    simp only [step, keyword, e1, norm_key c1 k h1, St.put]
    rw [if_pos]
    rw [List.all_eq_true]
    intro c hc
    rcases hk c hc with h | h | h <;> simp [h]
  obtain ⟨b3, r1⟩ := r1 _ hs
  obtain ⟨t1, g1⟩ := reads_key hk
  obtain ⟨b4, first, T, r2, t2, a2⟩ := hl c2 ⟨⟨false, f.close⟩ :: fs, b3, st.out ++ pre ++ ([58] ++ k)⟩ _ fs h2 rfl
  refine ⟨b4, first, pre ++ (58 :: k) ++ T, ?_, elems_cons p1 t1 g1 (a2 rfl) t2, fun hf => ?_⟩
  · rw [run_append, r1]
    simp only [Option.bind_some]
    rw [r2]
    simp
  · rw [List.append_assoc]
    exact after_pre p1 hf

mutual
theorem value_ok : ∀ v : Val, ValueOk v
  | .null => scalar_ok rfl (fun _ => rfl) reads_nil
  | .bool b => scalar_ok rfl (fun _ => rfl) (reads_bool b)
  | .int i => scalar_ok rfl (fun _ => rfl) (reads_int i)
  | .str s => scalar_ok rfl (fun _ => rfl) (reads_str s)
  | .list l => agg_ok rfl rfl (fun _ => rfl) (list_ok l)
  | .obj l => agg_ok rfl rfl (fun _ => rfl) (obj_ok l)

theorem list_ok : ∀ l : List Val, Val.KeysOkList l → ElemsOk (Val.callsList l) (Val.lispList l)
  | [], _ => elemsOk_nil
  | v :: l, h => elemsOk_cons h.1 (value_ok v) (list_ok l h.2)

theorem obj_ok : ∀ l : List (Str × Val), Val.KeysOkObj l → ElemsOk (Val.callsObj l) (Val.lispObj l)
  | [], _ => elemsOk_nil
  | (_, v) :: l, h => elemsOk_key h.1 (elemsOk_cons h.2.1 (value_ok v) (obj_ok l h.2.2))
end

end Notmuch.Sprinter.Sexp
