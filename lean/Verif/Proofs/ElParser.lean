import Verif.Model.ElParser
import Verif.Proofs.SprinterSexp

/-! # Proofs for C75: `read` and `parse-partial-sexp` -/

namespace Notmuch.ElParser
open Notmuch.Sprinter (Lisp isWs skipWs isAtomChar isOctal atomOf)

/-! ## More text does not change what was read -/

theorem readFrom_value : ∀ (s : Str) (r : Reader) (v : Lisp) (rest c : Str), readFrom r s = .value v rest → readFrom r (s ++ c) = .value v (rest ++ c)
  | [], r, v, rest, c, h => by
    unfold readFrom at h
    split at h <;> cases h
  | x :: s, r, v, rest, c, h => by
    rw [List.cons_append]
    unfold readFrom at h ⊢
    cases hs : readStep r x with
    | more r' => rw [hs] at h; exact readFrom_value s r' v rest c h
    | done w => rw [hs] at h; dsimp only at h ⊢; injection h with h1 h2; rw [h1, h2]
    | before w => rw [hs] at h; dsimp only at h ⊢; injection h with h1 h2; rw [h1, ← h2]; rfl
    | bad => rw [hs] at h; cases h

theorem readFrom_invalid : ∀ (s : Str) (r : Reader) (rest c : Str), readFrom r s = .invalid rest → readFrom r (s ++ c) = .invalid (rest ++ c)
  | [], r, rest, c, h => by
    unfold readFrom at h
    split at h <;> cases h
  | x :: s, r, rest, c, h => by
    rw [List.cons_append]
    unfold readFrom at h ⊢
    cases hs : readStep r x with
    | more r' => rw [hs] at h; exact readFrom_invalid s r' rest c h
    | done w => rw [hs] at h; cases h
    | before w => rw [hs] at h; cases h
    | bad => rw [hs] at h; dsimp only at h ⊢; injection h with h2; rw [h2]

/-- What was read is shorter than the text. -/
theorem readFrom_shorter : ∀ (s : Str) (r : Reader) (v : Lisp) (rest : Str), readFrom r s = .value v rest → rest.length ≤ s.length ∧ (r.tok = .none → rest.length < s.length)
  | [], r, v, rest, h => by
    unfold readFrom at h
    split at h <;> cases h
  | x :: s, r, v, rest, h => by
    unfold readFrom at h
    cases hs : readStep r x with
    | more r' =>
      rw [hs] at h
      have := (readFrom_shorter s r' v rest h).1
      simp only [List.length_cons]
      exact ⟨by omega, fun _ => by omega⟩
    | done w => rw [hs] at h; injection h with h1 h2; subst h2; simp
    | before w =>
      rw [hs] at h; injection h with h1 h2; subst h2
      refine ⟨Nat.le_refl _, fun ht => ?_⟩
      exfalso
      unfold readStep at hs
      rw [ht] at hs
      dsimp only at hs
      unfold openStep at hs
      repeat' split at hs
      all_goals first | cases hs | (unfold emit at hs; split at hs <;> cases hs)
    | bad => rw [hs] at h; cases h

/-! ## The two machines agree -/

/-- What `parse-partial-sexp` knows where `read` is. -/
def scanOf (r : Reader) : Scan :=
  ⟨r.stack.length, match r.tok with | .str _ => true | .esc _ => true | .oct _ _ _ => true | _ => false, match r.tok with | .esc _ => true | _ => false⟩

theorem ws_facts : ∀ c : UInt8, isWs c = true → c ≠ 92 ∧ c ≠ 34 ∧ c ≠ 40 ∧ c ≠ 41 ∧ c ≠ 91 ∧ c ≠ 93 ∧ c ≠ 123 ∧ c ≠ 125 := by
  apply forall_byte; decide +kernel

theorem atom_facts : ∀ c : UInt8, isAtomChar c = true → c ≠ 92 ∧ c ≠ 34 ∧ c ≠ 40 ∧ c ≠ 41 ∧ c ≠ 91 ∧ c ≠ 93 ∧ c ≠ 123 ∧ c ≠ 125 := by
  apply forall_byte; decide +kernel

theorem oct_facts : ∀ c : UInt8, isOctal c = true → c ≠ 92 ∧ c ≠ 34 := by
  apply forall_byte; decide +kernel

/-- How a round of one goes with a round of the other. -/
def Agree (σ : Scan) (c : UInt8) : Step → Prop
  | .more r' => r'.stack ≠ [] ∧ (scanStep σ c).1 = scanOf r' ∧ ¬ ((scanStep σ c).2 = true ∧ (scanStep σ c).1.depth = 0)
  | .done _ => scanStep σ c = (Scan.nil, true)
  | .before _ => False
  | .bad => True

theorem scanStep_plain {n : Int} {c : UInt8} (h : c ≠ 92 ∧ c ≠ 34 ∧ c ≠ 40 ∧ c ≠ 41 ∧ c ≠ 91 ∧ c ≠ 93 ∧ c ≠ 123 ∧ c ≠ 125) :
    scanStep ⟨n, false, false⟩ c = (⟨n, false, false⟩, false) := by
  obtain ⟨h1, h2, h3, h4, h5, h6, h7, h8⟩ := h
  simp [scanStep, h1, h2, h3, h4, h5, h6, h7, h8]

theorem agree_open {stack : List (List Lisp)} (hne : stack ≠ []) (c : UInt8) : Agree ⟨stack.length, false, false⟩ c (openStep stack c) := by
  unfold openStep
  by_cases h1 : isWs c = true
  · rw [if_pos h1]
    unfold Agree
    rw [scanStep_plain (ws_facts c h1)]
    exact ⟨hne, rfl, fun h => by cases h.1⟩
  rw [if_neg h1]
  by_cases h2 : c = 40
  · rw [if_pos h2]
    subst h2
    refine ⟨by simp, ?_, ?_⟩
    · simp [scanStep, scanOf]
    · simp only [scanStep]
      simp
      omega
  rw [if_neg h2]
  by_cases h3 : c = 41
  · rw [if_pos h3]
    subst h3
    match stack, hne with
    | [l], _ =>
      show scanStep ⟨1, false, false⟩ 41 = (Scan.nil, true)
      decide
    | l :: m :: st, _ =>
      show Agree _ _ (.more _)
      refine ⟨by simp, ?_, ?_⟩
      · simp [scanStep, scanOf]
      · simp [scanStep]
        omega
  rw [if_neg h3]
  by_cases h4 : c = 34
  · rw [if_pos h4]
    subst h4
    refine ⟨hne, ?_, ?_⟩
    · simp [scanStep, scanOf]
    · simp [scanStep]
  rw [if_neg h4]
  by_cases h5 : isAtomChar c = true
  · rw [if_pos h5]
    unfold Agree
    rw [scanStep_plain (atom_facts c h5)]
    exact ⟨hne, rfl, fun h => by cases h.1⟩
  · rw [if_neg h5]
    trivial

theorem agree_str {stack : List (List Lisp)} (hne : stack ≠ []) (acc : Str) (c : UInt8) : Agree ⟨stack.length, true, false⟩ c (strStep stack acc c) := by
  unfold strStep
  by_cases h1 : c = 34
  · rw [if_pos h1]
    subst h1
    match stack, hne with
    | l :: st, _ =>
      show Agree _ _ (.more _)
      refine ⟨by simp, ?_, ?_⟩
      · simp [scanStep, scanOf]
      · simp [scanStep]
  rw [if_neg h1]
  by_cases h2 : c = 92
  · rw [if_pos h2]
    subst h2
    refine ⟨hne, ?_, ?_⟩
    · simp [scanStep, scanOf]
    · simp [scanStep]
  · rw [if_neg h2]
    refine ⟨hne, ?_, ?_⟩
    · simp [scanStep, scanOf, h1, h2]
    · simp [scanStep, h2]

theorem agree {r : Reader} (hne : r.stack ≠ []) (c : UInt8) : Agree (scanOf r) c (readStep r c) := by
  obtain ⟨stack, tok⟩ := r
  dsimp only at hne
  cases tok with
  | none => exact agree_open hne c
  | atom a =>
    unfold readStep
    dsimp only
    by_cases h1 : isAtomChar c = true
    · rw [if_pos h1]
      unfold Agree
      have := scanStep_plain (n := stack.length) (atom_facts c h1)
      unfold scanOf
      dsimp only
      rw [this]
      exact ⟨hne, rfl, fun h => by cases h.1⟩
    rw [if_neg h1]
    by_cases h2 : (isWs c || c = 40 || c = 41 || c = 34) = true
    · rw [if_pos h2]
      match stack, hne with
      | l :: st, _ => exact agree_open (stack := (atomOf a.reverse :: l) :: st) (by simp) c
    · rw [if_neg h2]
      trivial
  | str acc => exact agree_str hne acc c
  | esc acc =>
    unfold readStep
    dsimp only
    split
    · exact ⟨hne, by simp [scanStep, scanOf], by simp [scanStep, scanOf]⟩
    · exact ⟨hne, by simp [scanStep, scanOf], by simp [scanStep, scanOf]⟩
  | oct acc k n =>
    unfold readStep
    dsimp only
    split
    · rename_i h
      obtain ⟨f1, f2⟩ := oct_facts c h.2
      exact ⟨hne, by simp [scanStep, scanOf, f1, f2], by simp [scanStep, scanOf, f1]⟩
    · exact agree_str hne _ c

/-- Inside a list: where `read` finds the end of the buffer, `parse-partial-sexp` finds an open list, and goes on where it stopped. -/
theorem scan_eof : ∀ (s : Str) (r : Reader), r.stack ≠ [] → readFrom r s = .eof → ∃ σ, scan (scanOf r) s = (σ, []) ∧ 0 < σ.depth ∧
    ∀ c, scan (scanOf r) (s ++ c) = scan σ c
  | [], r, hne, _ => ⟨scanOf r, rfl, by
      have : 0 < r.stack.length := by cases h : r.stack with | nil => exact absurd h hne | cons _ _ => simp
      show (0 : Int) < r.stack.length
      omega, fun c => rfl⟩
  | x :: s, r, hne, h => by
    have ha := agree hne x
    unfold readFrom at h
    cases hs : readStep r x with
    | more r' =>
      rw [hs] at h ha
      obtain ⟨h1, h2, h3⟩ := ha
      obtain ⟨σ, e1, e2, e3⟩ := scan_eof s r' h1 h
      refine ⟨σ, ?_, e2, fun c => ?_⟩
      · rw [scan, if_neg h3, h2]; exact e1
      · rw [List.cons_append, scan, if_neg h3, h2]; exact e3 c
    | done w => rw [hs] at h; cases h
    | before w => rw [hs] at h; cases h
    | bad => rw [hs] at h; cases h

/-- Inside a list: where `read` finds its end, so does `parse-partial-sexp`. -/
theorem scan_value : ∀ (s : Str) (r : Reader) (v : Lisp) (rest : Str), r.stack ≠ [] → readFrom r s = .value v rest → scan (scanOf r) s = (Scan.nil, rest)
  | [], r, v, rest, hne, h => by
    unfold readFrom at h
    split at h <;> cases h
  | x :: s, r, v, rest, hne, h => by
    have ha := agree hne x
    unfold readFrom at h
    cases hs : readStep r x with
    | more r' =>
      rw [hs] at h ha
      obtain ⟨h1, h2, h3⟩ := ha
      rw [scan, if_neg h3, h2]
      exact scan_value s r' v rest h1 h
    | done w =>
      rw [hs] at h ha
      have ha' : scanStep (scanOf r) x = (Scan.nil, true) := ha
      injection h with h1 h2
      rw [scan, ha', if_pos ⟨rfl, rfl⟩, h2]
    | before w => rw [hs] at ha; exact ha.elim
    | bad => rw [hs] at h; cases h

/-- Inside a list no value is ended by the end of the buffer. -/
theorem not_last : ∀ (s : Str) (r : Reader) (v : Lisp), r.stack ≠ [] → readFrom r s ≠ .last v
  | [], r, v, hne => by
    intro h
    unfold readFrom at h
    split at h
    · rename_i h' _; exact hne h'
    · cases h
  | x :: s, r, v, hne => by
    intro h
    have ha := agree hne x
    unfold readFrom at h
    cases hs : readStep r x with
    | more r' => rw [hs] at h ha; exact not_last s r' v ha.1 h
    | done w => rw [hs] at h; cases h
    | before w => rw [hs] at h; cases h
    | bad => rw [hs] at h; cases h

theorem read_list (s : Str) : read (40 :: s) = readFrom ⟨[[]], .none⟩ s := rfl

theorem scan_list (s : Str) : scan .nil (40 :: s) = scan (scanOf ⟨[[]], .none⟩) s := by
  rw [scan, if_neg (by decide)]
  rfl

/-! ## Values that are no lists -/

theorem atom_value : ∀ (s : Str) (a : Str) (v : Lisp) (rest : Str), readFrom ⟨[], .atom a⟩ s = .value v rest → rest ≠ []
  | [], a, v, rest, h => by cases h
  | x :: s, a, v, rest, h => by
    unfold readFrom at h
    have e : readStep ⟨[], .atom a⟩ x = if isAtomChar x then .more ⟨[], .atom (x :: a)⟩
      else if isWs x || x = 40 || x = 41 || x = 34 then .before (atomOf a.reverse) else .bad := rfl
    rw [e] at h
    split at h
    · rename_i r' h'
      split at h'
      · injection h' with h'; subst h'; exact atom_value s _ v rest h
      · split at h' <;> cases h'
    · rename_i h'
      split at h'
      · cases h'
      · split at h' <;> cases h'
    · injection h with _ h2; subst h2; simp
    · cases h

/-- Inside a string. -/
def Tok.stringy : Tok → Bool
  | .str _ => true
  | .esc _ => true
  | .oct _ _ _ => true
  | _ => false

theorem strStep_top (acc : Str) (c : UInt8) : (∃ r', strStep [] acc c = .more r' ∧ r'.stack = [] ∧ r'.tok.stringy = true) ∨ ∃ t, strStep [] acc c = .done (.str t) := by
  unfold strStep
  split
  · exact .inr ⟨_, rfl⟩
  · split
    · exact .inl ⟨_, rfl, rfl, rfl⟩
    · exact .inl ⟨_, rfl, rfl, rfl⟩

theorem str_top {r : Reader} (h1 : r.stack = []) (h2 : r.tok.stringy = true) (c : UInt8) :
    (∃ r', readStep r c = .more r' ∧ r'.stack = [] ∧ r'.tok.stringy = true) ∨ ∃ t, readStep r c = .done (.str t) := by
  obtain ⟨stack, tok⟩ := r
  dsimp only at h1 h2
  subst h1
  cases tok with
  | none => cases h2
  | atom a => cases h2
  | str acc => exact strStep_top acc c
  | esc acc =>
    unfold readStep
    dsimp only
    split
    · exact .inl ⟨_, rfl, rfl, rfl⟩
    · exact .inl ⟨_, rfl, rfl, rfl⟩
  | oct acc k n =>
    unfold readStep
    dsimp only
    split
    · exact .inl ⟨_, rfl, rfl, rfl⟩
    · exact strStep_top _ c

theorem str_value : ∀ (s : Str) (r : Reader) (v : Lisp) (rest : Str), r.stack = [] → r.tok.stringy = true → readFrom r s = .value v rest → stringp v = true
  | [], r, v, rest, h1, h2, h => by
    unfold readFrom at h
    split at h <;> cases h
  | x :: s, r, v, rest, h1, h2, h => by
    unfold readFrom at h
    rcases str_top h1 h2 x with ⟨r', e, e1, e2⟩ | ⟨t, e⟩
    · rw [e] at h; exact str_value s r' v rest e1 e2 h
    · rw [e] at h; injection h with h _; subst h; rfl

theorem str_not_last : ∀ (s : Str) (r : Reader) (v : Lisp), r.stack = [] → r.tok.stringy = true → readFrom r s ≠ .last v
  | [], r, v, h1, h2 => by
    intro h
    unfold readFrom at h
    split at h
    · rename_i h'; rw [h'] at h2; cases h2
    · cases h
  | x :: s, r, v, h1, h2 => by
    intro h
    unfold readFrom at h
    rcases str_top h1 h2 x with ⟨r', e, e1, e2⟩ | ⟨t, e⟩
    · rw [e] at h; exact str_not_last s r' v e1 e2 h
    · rw [e] at h; cases h

theorem atomOf_not_str (a : Str) : stringp (atomOf a) = false := by
  unfold atomOf
  split
  · rfl
  · split
    · split <;> rfl
    · split <;> rfl

theorem atom_last : ∀ (s : Str) (a : Str) (v : Lisp), readFrom ⟨[], .atom a⟩ s = .last v → stringp v = false
  | [], a, v, h => by
    unfold readFrom at h
    dsimp only at h
    injection h with h; subst h
    exact atomOf_not_str _
  | x :: s, a, v, h => by
    unfold readFrom at h
    have e : readStep ⟨[], .atom a⟩ x = if isAtomChar x then .more ⟨[], .atom (x :: a)⟩
      else if isWs x || x = 40 || x = 41 || x = 34 then .before (atomOf a.reverse) else .bad := rfl
    rw [e] at h
    split at h
    · rename_i r' h'
      split at h'
      · injection h' with h'; subst h'; exact atom_last s _ v h
      · split at h' <;> cases h'
    · cases h
    · cases h
    · cases h

/-- At a character that does not open or close a list. -/
theorem read_token {c : UInt8} (hw : isWs c = false) (h1 : c ≠ 40) (h2 : c ≠ 41) (s : Str) :
    (∀ v rest, read (c :: s) = .value v rest → stringp v = true ∨ rest ≠ []) ∧ ∀ v, read (c :: s) = .last v → stringp v = false := by
  by_cases h3 : c = 34
  · have e : read (c :: s) = readFrom ⟨[], .str []⟩ s := by subst h3; rfl
    rw [e]
    exact ⟨fun v rest h => .inl (str_value s _ v rest rfl rfl h), fun v h => absurd h (str_not_last s _ v rfl rfl)⟩
  · by_cases h4 : isAtomChar c = true
    · have e : read (c :: s) = readFrom ⟨[], .atom [c]⟩ s := by
        unfold read
        rw [readFrom]
        simp [readStep, openStep, hw, h1, h2, h3, h4]
      rw [e]
      exact ⟨fun v rest h => .inr (atom_value s _ v rest h), fun v h => atom_last s _ v h⟩
    · have e : read (c :: s) = .invalid s := by
        unfold read
        rw [readFrom]
        simp [readStep, openStep, hw, h1, h2, h3, h4]
      rw [e]
      exact ⟨(fun v rest h => by cases h), (fun v h => by cases h)⟩

end Notmuch.ElParser
