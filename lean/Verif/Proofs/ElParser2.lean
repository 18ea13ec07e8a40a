import Verif.Proofs.ElParser

/-! # Proofs for C75: the loop -/

namespace Notmuch.ElParser
open Notmuch.Sprinter (Lisp isWs skipWs isAtomChar isOctal atomOf)

/-! ## White space -/

theorem skipWs_head {s r : Str} {c : UInt8} (h : skipWs s = c :: r) : isWs c = false := by
  induction s with
  | nil => cases h
  | cons x s ih =>
    by_cases hx : isWs x = true
    · rw [Sprinter.skipWs_ws hx] at h; exact ih h
    · have hx' : isWs x = false := by simpa using hx
      rw [Sprinter.skipWs_cons hx'] at h
      injection h with h _; subst h; exact hx'

theorem skipWs_append (s t : Str) : skipWs (s ++ t) = if skipWs s = [] then skipWs t else skipWs s ++ t := by
  induction s with
  | nil => rfl
  | cons x s ih =>
    rw [List.cons_append]
    by_cases hx : isWs x = true
    · rw [Sprinter.skipWs_ws hx, Sprinter.skipWs_ws hx]; exact ih
    · have hx' : isWs x = false := by simpa using hx
      rw [Sprinter.skipWs_cons hx', Sprinter.skipWs_cons hx', if_neg (by simp)]
      rfl

theorem skipWs_append_nil {s : Str} (h : skipWs s = []) (t : Str) : skipWs (s ++ t) = skipWs t := by rw [skipWs_append, if_pos h]

theorem skipWs_append_cons {s r : Str} {c : UInt8} (h : skipWs s = c :: r) (t : Str) : skipWs (s ++ t) = c :: (r ++ t) := by
  rw [skipWs_append, h, if_neg (by simp)]; rfl

theorem skipWs_self {s r : Str} {c : UInt8} (h : skipWs s = c :: r) : skipWs (c :: r) = c :: r := Sprinter.skipWs_cons (skipWs_head h) r

theorem skipWs_length (s : Str) : (skipWs s).length ≤ s.length := by
  induction s with
  | nil => exact Nat.le_refl _
  | cons x s ih =>
    by_cases hx : isWs x = true
    · rw [Sprinter.skipWs_ws hx]; simp only [List.length_cons]; omega
    · rw [Sprinter.skipWs_cons (by simpa using hx)]; exact Nat.le_refl _

/-! ## One value -/

/-- The partial parse belongs to the text behind point. -/
def Parked (sp : Parser) (s : Str) : Prop :=
  (sp.pos = none ∧ sp.state = none) ∨ ∃ σ r, s = 40 :: r ∧ sp.pos = some s.length ∧ sp.state = some σ ∧ 0 < σ.depth ∧ ∀ c, scan .nil (s ++ c) = scan σ c

/-- The parser that waits for the rest of a value. -/
def park (s : Str) : Parser :=
  if s.head? = some 40 then ⟨1, some s.length, some (scan .nil s).1⟩ else ⟨1, none, none⟩

theorem list_eof {r : Str} (h : read (40 :: r) = .eof) : ∃ σ, scan .nil (40 :: r) = (σ, []) ∧ 0 < σ.depth ∧ ∀ c, scan .nil (40 :: r ++ c) = scan σ c := by
  rw [read_list] at h
  obtain ⟨σ, e1, e2, e3⟩ := scan_eof r _ (by simp) h
  refine ⟨σ, by rw [scan_list]; exact e1, e2, fun c => ?_⟩
  rw [List.cons_append, scan_list]
  exact e3 c

theorem parked_park {s : Str} (h : s = [] ∨ (read s = .eof ∨ ∃ v, read s = .last v)) : Parked (park s) s := by
  unfold park
  split
  · rename_i hs
    cases s with
    | nil => cases hs
    | cons x r =>
      injection hs with hs; subst hs
      rcases h with h | h | ⟨v, h⟩
      · cases h
      · obtain ⟨σ, e1, e2, e3⟩ := list_eof h
        exact .inr ⟨σ, r, rfl, rfl, by simp [e1], e2, e3⟩
      · rw [read_list] at h
        exact absurd h (not_last r _ v (by simp))
  · exact .inl ⟨rfl, rfl⟩

/-- The parser inside the outermost list with nothing pending. -/
def fresh : Parser := ⟨1, none, none⟩

theorem sexpRead_value {s r r' : Str} {c : UInt8} {v : Lisp} (h1 : skipWs s = c :: r) (h2 : c ≠ 41) (h3 : read (c :: r) = .value v r') :
    sexpRead fresh s = (.ok v, fresh, r') := by
  unfold sexpRead
  rw [h1]
  dsimp only
  rw [if_neg h2]
  by_cases h4 : c = 40
  · rw [if_pos h4, if_pos (show fresh.state = none from rfl), h3]
  · rw [if_neg h4, h3]
    dsimp only
    rw [if_pos]
    rcases (read_token (skipWs_head h1) h4 h2 r).1 v r' h3 with h | h <;> simp [h]

theorem sexpRead_wait {s r : Str} {c : UInt8} (h1 : skipWs s = c :: r) (h2 : c ≠ 41) (h3 : read (c :: r) = .eof ∨ ∃ v, read (c :: r) = .last v) :
    sexpRead fresh s = (.ok retry, park (c :: r), c :: r) := by
  unfold sexpRead
  rw [h1]
  dsimp only
  rw [if_neg h2]
  by_cases h4 : c = 40
  · subst h4
    have h5 : read (40 :: r) = .eof := by
      rcases h3 with h | ⟨v, h⟩
      · exact h
      · rw [read_list] at h; exact absurd h (not_last r _ v (by simp))
    rw [if_pos rfl, if_pos (show fresh.state = none from rfl), h5]
    dsimp only
    obtain ⟨σ, e1, e2, e3⟩ := list_eof h5
    unfold extend
    have e : scan ((fresh.state).getD .nil) ((40 :: r).drop (fresh.pos.getD 0)) = (σ, []) := e1
    rw [e]
    dsimp only
    rw [if_neg (by omega), if_neg (by omega)]
    unfold park
    rw [if_pos (show (40 :: r).head? = some 40 from rfl), e1]
    rfl
  · rw [if_neg h4]
    have hp : park (c :: r) = fresh := by
      unfold park
      rw [if_neg (by simp [h4])]
      rfl
    rw [hp]
    rcases h3 with h | ⟨v, h⟩
    · rw [h]
    · rw [h]
      dsimp only
      rw [(read_token (skipWs_head h1) h4 h2 r).2 v h]
      rfl

theorem sexpRead_end {s r : Str} (h1 : skipWs s = 41 :: r) : sexpRead fresh s = (.ok endTok, ⟨0, none, none⟩, r) := by
  unfold sexpRead
  rw [h1]
  rfl

/-- Going on with a partial parse is like starting over. -/
theorem sexpRead_resume {s c : Str} (hs : s = [] ∨ (read s = .eof ∨ ∃ v, read s = .last v)) (hv : ∀ x, read (skipWs (s ++ c)) ≠ .invalid x) :
    sexpRead (park s) (s ++ c) = sexpRead fresh (s ++ c) := by
  rcases Decidable.em (s.head? = some 40) with h | h
  · cases s with
    | nil => cases h
    | cons x r =>
      injection h with h; subst h
      have h5 : read (40 :: r) = .eof := by
        rcases hs with h | h | ⟨v, h⟩
        · cases h
        · exact h
        · rw [read_list] at h; exact absurd h (not_last r _ v (by simp))
      obtain ⟨σ, e1, e2, e3⟩ := list_eof h5
      have hk : skipWs (40 :: r ++ c) = 40 :: (r ++ c) := Sprinter.skipWs_cons (by decide) _
      rw [hk] at hv
      have hp : park (40 :: r) = ⟨1, some (40 :: r).length, some σ⟩ := by unfold park; rw [if_pos (show (40 :: r).head? = some 40 from rfl), e1]
      have hl : sexpRead (park (40 :: r)) (40 :: r ++ c) = extend (park (40 :: r)) (40 :: (r ++ c)) := by
        unfold sexpRead
        rw [hk, hp]
        rfl
      have hd : (40 :: (r ++ c)).drop (40 :: r).length = c := List.drop_left' (l₁ := 40 :: r) rfl
      have he : ∀ y, y = scan .nil (40 :: (r ++ c)) → extend (park (40 :: r)) (40 :: (r ++ c)) =
          if y.1.depth < 0 then (.error .assertion, park (40 :: r), 40 :: (r ++ c))
          else if y.1.depth = 0 then readHere fresh (40 :: (r ++ c))
          else (.ok retry, ⟨1, some ((40 :: (r ++ c)).length - y.2.length), some y.1⟩, 40 :: (r ++ c)) := by
        intro y hy
        have : scan .nil (40 :: (r ++ c)) = scan σ c := e3 c
        rw [this] at hy
        subst hy
        unfold extend
        rw [hp]
        dsimp only [Option.getD_some]
        rw [hd]
        rfl
      rw [hl]
      cases hr : read (40 :: (r ++ c)) with
      | value v r' =>
        have hsc : scan .nil (40 :: (r ++ c)) = (Scan.nil, r') := by
          rw [scan_list]; exact scan_value _ _ v r' (by simp) (by rw [← read_list]; exact hr)
        rw [he _ hsc.symm, if_neg (show ¬ Scan.nil.depth < 0 by decide), if_pos (show Scan.nil.depth = 0 from rfl), sexpRead_value hk (by decide) hr]
        unfold readHere
        rw [hr]
      | last v => rw [read_list] at hr; exact absurd hr (not_last _ _ v (by simp))
      | invalid x => exact absurd hr (hv x)
      | eof =>
        obtain ⟨σ', f1, f2, f3⟩ := list_eof hr
        rw [he _ f1.symm, if_neg (by dsimp only; omega), if_neg (by dsimp only; omega), sexpRead_wait hk (by decide) (.inl hr)]
        unfold park
        rw [if_pos (show (40 :: (r ++ c)).head? = some 40 from rfl), f1]
        rfl
  · have : park s = fresh := by unfold park; rw [if_neg h]; rfl
    rw [this]

/-! ## The elements that can be read -/

/-- From the text behind the opening parenthesis: the elements that are complete, what is left, and whether the list is. -/
inductive Drain : Str → List Lisp → Str → Bool → Prop
  | empty {s : Str} : skipWs s = [] → Drain s [] [] false
  | wait {s r : Str} {c : UInt8} : skipWs s = c :: r → c ≠ 41 → (read (c :: r) = .eof ∨ ∃ v, read (c :: r) = .last v) → Drain s [] (c :: r) false
  | close {s r : Str} : skipWs s = 41 :: r → skipWs r = [] → Drain s [] [] true
  | elem {s r r1 rest : Str} {c : UInt8} {v : Lisp} {vs : List Lisp} {b : Bool} : skipWs s = c :: r → c ≠ 41 → read (c :: r) = .value v r1 →
      isSym (bs "retry") v = false → isSym (bs "end") v = false → Drain r1 vs rest b → Drain s (v :: vs) rest b

theorem Drain.ws {s t : Str} (h : skipWs s = skipWs t) {vs : List Lisp} {r : Str} {b : Bool} (d : Drain s vs r b) : Drain t vs r b := by
  cases d with
  | empty h1 => exact .empty (h ▸ h1)
  | wait h1 h2 h3 => exact .wait (h ▸ h1) h2 h3
  | close h1 h2 => exact .close (h ▸ h1) h2
  | elem h1 h2 h3 h4 h5 h6 => exact .elem (h ▸ h1) h2 h3 h4 h5 h6

/-- The state after that. -/
def settled (vs : List Lisp) (r : Str) (b : Bool) : St :=
  if b then ⟨[], ⟨0, none, none⟩, .fin, vs, []⟩ else ⟨r, park r, .result, vs, []⟩

/-- What is left waits for more. -/
theorem Drain.left {s : Str} {vs : List Lisp} {r : Str} {b : Bool} (d : Drain s vs r b) : r = [] ∨ (read r = .eof ∨ ∃ v, read r = .last v) := by
  induction d with
  | empty h1 => exact .inl rfl
  | wait h1 h2 h3 => exact .inr h3
  | close h1 h2 => exact .inl rfl
  | elem h1 h2 h3 h4 h5 h6 ih => exact ih

theorem loop_drain {s : Str} {vs : List Lisp} {r : Str} {b : Bool} (d : Drain s vs r b) : ∀ (n : Nat) (out : List Lisp), s.length + 2 ≤ n →
    loop n ⟨s, fresh, .result, out, []⟩ = settled (out ++ vs) r b := by
  induction d with
  | @empty s h1 =>
    intro n out hn
    obtain ⟨n, rfl⟩ : ∃ m, n = m + 1 := ⟨n - 1, by omega⟩
    have e : sexpRead fresh s = (.ok retry, fresh, []) := by unfold sexpRead; rw [h1]
    unfold loop
    dsimp only
    rw [e]
    dsimp only
    rw [if_pos (by decide), List.append_nil]
    rfl
  | @wait s r c h1 h2 h3 =>
    intro n out hn
    obtain ⟨n, rfl⟩ : ∃ m, n = m + 1 := ⟨n - 1, by omega⟩
    unfold loop
    dsimp only
    rw [sexpRead_wait h1 h2 h3]
    dsimp only
    rw [if_pos (by decide), List.append_nil]
    rfl
  | @close s r h1 h2 =>
    intro n out hn
    obtain ⟨n, rfl⟩ : ∃ m, n = m + 2 := ⟨n - 2, by omega⟩
    unfold loop
    dsimp only
    rw [sexpRead_end h1]
    dsimp only
    rw [if_neg (by decide), if_pos (by decide), List.append_nil]
    unfold loop
    dsimp only
    rw [if_neg (by simp [h2])]
    rfl
  | @elem s r r1 rest c v vs b h1 h2 h3 h4 h5 h6 ih =>
    intro n out hn
    obtain ⟨n, rfl⟩ : ∃ m, n = m + 1 := ⟨n - 1, by omega⟩
    unfold loop
    dsimp only
    rw [sexpRead_value h1 h2 h3]
    dsimp only
    rw [h4, h5]
    have l1 := (readFrom_shorter _ _ v r1 h3).2 rfl
    have l2 := skipWs_length s
    rw [h1] at l2
    have := ih n (out ++ [v]) (by omega)
    rw [List.append_assoc] at this
    exact this

theorem Drain.valid {s : Str} {vs : List Lisp} {r : Str} {b : Bool} (d : Drain s vs r b) (h : ∀ r, skipWs s ≠ 41 :: r) : ∀ x, read (skipWs s) ≠ .invalid x := by
  intro x hx
  cases d with
  | empty h1 => rw [h1] at hx; cases hx
  | wait h1 h2 h3 => rw [h1] at hx; rcases h3 with h3 | ⟨v, h3⟩ <;> rw [h3] at hx <;> cases hx
  | close h1 h2 => exact h _ h1
  | elem h1 h2 h3 h4 h5 h6 => rw [h1, h3] at hx; cases hx

/-- The parser going on. -/
theorem loop_resume {s c : Str} {vs : List Lisp} {r : Str} {b : Bool} (hs : s = [] ∨ (read s = .eof ∨ ∃ v, read s = .last v))
    (d : Drain (s ++ c) vs r b) (n : Nat) (out : List Lisp) (hn : (s ++ c).length + 2 ≤ n) : loop n ⟨s ++ c, park s, .result, out, []⟩ = settled (out ++ vs) r b := by
  rw [← loop_drain d n out hn]
  obtain ⟨n, rfl⟩ : ∃ m, n = m + 1 := ⟨n - 1, by omega⟩
  have e : sexpRead (park s) (s ++ c) = sexpRead fresh (s ++ c) := by
    rcases Decidable.em (s.head? = some 40) with h | h
    · refine sexpRead_resume hs (d.valid ?_)
      cases s with
      | nil => cases h
      | cons x r =>
        injection h with h; subst h
        intro y hy
        rw [List.cons_append, Sprinter.skipWs_cons (by decide)] at hy
        cases hy
    · have : park s = fresh := by unfold park; rw [if_neg h]; rfl
      rw [this]
  unfold loop
  dsimp only
  rw [e]

/-! ## Beginnings -/

theorem skipWs_nil_left {s c : Str} (h : skipWs (s ++ c) = []) : skipWs s = [] ∧ skipWs c = [] := by
  cases e : skipWs s with
  | nil => exact ⟨rfl, by rw [skipWs_append_nil e] at h; exact h⟩
  | cons x r => rw [skipWs_append_cons e] at h; cases h

theorem Drain.beginning {t : Str} {V : List Lisp} {R : Str} {B : Bool} (d : Drain t V R B) : ∀ s c, t = s ++ c → ∃ vs r b, Drain s vs r b := by
  induction d with
  | @empty t h1 =>
    intro s c e
    subst e
    exact ⟨_, _, _, .empty (skipWs_nil_left h1).1⟩
  | @wait t r x h1 h2 h3 =>
    intro s c e
    subst e
    cases hs : skipWs s with
    | nil => exact ⟨_, _, _, .empty hs⟩
    | cons y r' =>
      rw [skipWs_append_cons hs] at h1
      injection h1 with e1 e2
      subst e1 e2
      refine ⟨_, _, _, .wait hs h2 ?_⟩
      cases hr : read (y :: r') with
      | eof => exact .inl rfl
      | last v => exact .inr ⟨v, rfl⟩
      | value v q =>
        have := readFrom_value _ _ v q c hr
        rcases h3 with h3 | ⟨w, h3⟩ <;> (have h4 := h3.symm.trans this; cases h4)
      | invalid q =>
        have := readFrom_invalid _ _ q c hr
        rcases h3 with h3 | ⟨w, h3⟩ <;> (have h4 := h3.symm.trans this; cases h4)
  | @close t r h1 h2 =>
    intro s c e
    subst e
    cases hs : skipWs s with
    | nil => exact ⟨_, _, _, .empty hs⟩
    | cons y r' =>
      rw [skipWs_append_cons hs] at h1
      injection h1 with e1 e2
      subst e1 e2
      exact ⟨_, _, _, .close hs (skipWs_nil_left h2).1⟩
  | @elem t r r1 rest x v vs b h1 h2 h3 h4 h5 h6 ih =>
    intro s c e
    subst e
    cases hs : skipWs s with
    | nil => exact ⟨_, _, _, .empty hs⟩
    | cons y r' =>
      rw [skipWs_append_cons hs] at h1
      injection h1 with e1 e2
      subst e1 e2
      cases hr : read (y :: r') with
      | eof => exact ⟨_, _, _, .wait hs h2 (.inl hr)⟩
      | last v => exact ⟨_, _, _, .wait hs h2 (.inr ⟨v, hr⟩)⟩
      | value v' q =>
        have := readFrom_value _ _ v' q c hr
        have h7 := h3.symm.trans this
        injection h7 with e3 e4
        subst e3
        obtain ⟨vs', r2, b', d'⟩ := ih q c e4
        exact ⟨_, _, _, .elem hs h2 hr h4 h5 d'⟩
      | invalid q =>
        have := readFrom_invalid _ _ q c hr
        have h7 := h3.symm.trans this
        cases h7

theorem Drain.split {s : Str} {vs : List Lisp} {r : Str} {b : Bool} (d : Drain s vs r b) : ∀ {c : Str} {V : List Lisp} {R : Str} {B : Bool}, Drain (s ++ c) V R B →
    (b = false → ∃ V', V = vs ++ V' ∧ Drain (r ++ c) V' R B) ∧ (b = true → V = vs ∧ R = [] ∧ B = true ∧ skipWs c = []) := by
  induction d with
  | @empty s h1 =>
    intro c V R B D
    refine ⟨fun _ => ⟨V, rfl, D.ws (skipWs_append_nil h1 c)⟩, (fun h => by cases h)⟩
  | @wait s r x h1 h2 h3 =>
    intro c V R B D
    refine ⟨fun _ => ⟨V, rfl, D.ws ?_⟩, (fun h => by cases h)⟩
    rw [skipWs_append_cons h1, List.cons_append, Sprinter.skipWs_cons (skipWs_head h1)]
  | @close s r h1 h2 =>
    intro c V R B D
    refine ⟨(fun h => by cases h), fun _ => ?_⟩
    have h3 := skipWs_append_cons h1 c
    cases D with
    | empty h4 => rw [h3] at h4; cases h4
    | wait h4 h5 _ => rw [h3] at h4; injection h4 with h4 _; exact absurd h4.symm h5
    | close h4 h5 => rw [h3] at h4; injection h4 with _ h4; subst h4; exact ⟨rfl, rfl, rfl, (skipWs_nil_left h5).2⟩
    | elem h4 h5 => rw [h3] at h4; injection h4 with h4 _; exact absurd h4.symm h5
  | @elem s r r1 rest x v vs b h1 h2 h3 h4 h5 h6 ih =>
    intro c V R B D
    have e := skipWs_append_cons h1 c
    have e' : read (x :: (r ++ c)) = .value v (r1 ++ c) := readFrom_value _ _ v r1 c h3
    cases D with
    | empty h7 => rw [e] at h7; cases h7
    | wait h7 h8 h9 =>
      rw [e] at h7; injection h7 with i1 i2; subst i1 i2
      rcases h9 with h9 | ⟨w, h9⟩ <;> rw [e'] at h9 <;> cases h9
    | close h7 h8 => rw [e] at h7; injection h7 with h7 _; exact absurd h7 h2
    | elem h7 h8 h9 h10 h11 h12 =>
      rw [e] at h7; injection h7 with i1 i2; subst i1 i2
      rw [e'] at h9
      injection h9 with j1 j2
      subst j1 j2
      obtain ⟨k1, k2⟩ := ih h12
      refine ⟨fun hb => ?_, fun hb => ?_⟩
      · obtain ⟨V', m1, m2⟩ := k1 hb
        exact ⟨V', by rw [m1]; rfl, m2⟩
      · obtain ⟨m1, m2⟩ := k2 hb
        exact ⟨by rw [m1], m2⟩

/-! ## The filter -/

/-- The state after a text. -/
def Top (t : Str) (st : St) : Prop :=
  (skipWs t = [] ∧ st = .start) ∨ ∃ r vs r' b, skipWs t = 40 :: r ∧ Drain r vs r' b ∧ st = settled vs r' b

theorem feed_start {t : Str} {st : St} (h : Top t st) : feed .start t = st := by
  unfold feed
  show loop (t.length + 3) ⟨t, .new, .begin, [], []⟩ = st
  rcases h with ⟨h1, rfl⟩ | ⟨r, vs, r', b, h1, h2, rfl⟩
  · unfold loop
    dsimp only
    have e : beginList .new t = (.ok false, .new, []) := by unfold beginList; rw [h1]
    rw [e]
    rfl
  · unfold loop
    dsimp only
    have e : beginList .new t = (.ok true, fresh, r) := by unfold beginList; rw [h1]; rfl
    rw [e]
    dsimp only
    have l := skipWs_length t
    rw [h1, List.length_cons] at l
    exact loop_drain h2 _ [] (by omega)

theorem feed_step {t c : Str} {st st' : St} (h : Top t st) (h' : Top (t ++ c) st') : feed st c = st' := by
  rcases h with ⟨h1, rfl⟩ | ⟨r, vs, r', b, h1, h2, rfl⟩
  · refine feed_start ?_
    unfold Top at h' ⊢
    rw [skipWs_append_nil h1] at h'
    exact h'
  · have e := skipWs_append_cons h1 c
    rcases h' with ⟨h3, _⟩ | ⟨q, V, R, B, h3, h4, rfl⟩
    · rw [e] at h3; cases h3
    · rw [e] at h3
      injection h3 with _ h3
      subst h3
      obtain ⟨k1, k2⟩ := h2.split h4
      cases b with
      | false =>
        obtain ⟨V', rfl, d⟩ := k1 rfl
        unfold feed
        show loop ((r' ++ c).length + 3) ⟨r' ++ c, park r', .result, vs, []⟩ = _
        exact loop_resume h2.left d _ vs (by omega)
      | true =>
        obtain ⟨rfl, rfl, rfl, hc⟩ := k2 rfl
        unfold feed settled
        rw [if_pos rfl]
        unfold loop
        dsimp only
        rw [if_neg (by simp [hc])]
        rfl

theorem Top.beginning {t c : Str} {st : St} (h : Top (t ++ c) st) : ∃ st', Top t st' := by
  cases e : skipWs t with
  | nil => exact ⟨.start, .inl ⟨e, rfl⟩⟩
  | cons x r =>
    rcases h with ⟨h1, _⟩ | ⟨q, V, R, B, h3, h4, rfl⟩
    · rw [skipWs_append_cons e] at h1; cases h1
    · rw [skipWs_append_cons e] at h3
      injection h3 with i1 i2
      subst i1 i2
      obtain ⟨vs, r', b, d⟩ := h4.beginning r c rfl
      exact ⟨_, .inr ⟨r, vs, r', b, e, d, rfl⟩⟩

theorem run_top (chunks : List Str) : ∀ (t : Str) (st0 : St) (st : St), Top t st0 → Top (t ++ chunks.flatten) st → chunks.foldl feed st0 = st := by
  induction chunks with
  | nil =>
    intro t st0 st h0 h
    rw [List.flatten_nil, List.append_nil] at h
    exact (feed_start h0).symm.trans (feed_start h)
  | cons c cs ih =>
    intro t st0 st h0 h
    rw [List.flatten_cons, ← List.append_assoc] at h
    obtain ⟨st1, h1⟩ := h.beginning
    rw [List.foldl_cons, feed_step h0 h1]
    exact ih _ _ _ h1 h

theorem run_eq {chunks : List Str} {st : St} (h : Top chunks.flatten st) : run chunks = st :=
  run_top chunks [] .start st (.inl ⟨rfl, rfl⟩) h

end Notmuch.ElParser
