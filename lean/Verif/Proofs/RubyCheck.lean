import Verif.Proofs.Ruby5

/-! A check that a program is careful, to show that there are such programs. -/

namespace Notmuch.Ruby

def chain (s : State) : Nat → Nat → List Nat
  | 0, _ => []
  | n + 1, r => match (s.vals[r]?).bind (·.origin) with
    | none => []
    | some a => a :: chain s n a

def ordered (s : State) : Bool := (List.range s.vals.length).all (fun r => match (s.vals[r]?).bind (·.origin) with | none => true | some a => a < r)

theorem origin_lt {s : State} (h : ordered s = true) {r a : Nat} {v : Val} (hv : s.vals[r]? = some v) (ho : v.origin = some a) : a < r := by
  unfold ordered at h
  have := List.all_eq_true.1 h r (List.mem_range.2 (lt_of_get hv))
  rw [hv] at this
  simp only [Option.bind_some, ho] at this
  simpa using this

theorem chain_trans {s : State} (h : ordered s = true) {b a : Nat} (ha : a ∈ chain s b b) : ∀ (n r : Nat), r ≤ n → b ∈ chain s n r → a ∈ chain s n r := by
  have more : ∀ (n m x : Nat), x ≤ n → n ≤ m → ∀ y ∈ chain s n x, y ∈ chain s m x := by
    intro n
    induction n with
    | zero => intro m x h1 h2 y hy; cases hy
    | succ n ih =>
      intro m x h1 h2 y hy
      obtain ⟨m', rfl⟩ := Nat.exists_eq_add_of_le' (Nat.le_trans (Nat.succ_le_succ (Nat.zero_le n)) h2)
      unfold chain at hy ⊢
      cases hx : s.vals[x]? with
      | none => rw [hx] at hy; cases hy
      | some v =>
        rw [hx] at hy
        simp only [Option.bind_some] at hy ⊢
        cases ho : v.origin with
        | none => rw [ho] at hy; cases hy
        | some z =>
          rw [ho] at hy
          have hz := origin_lt h hx ho
          rcases List.mem_cons.1 hy with hy | hy
          · exact List.mem_cons.2 (.inl hy)
          · exact List.mem_cons_of_mem _ (ih m' z (by omega) (by omega) y hy)
  intro n
  induction n with
  | zero => intro r h1 hb; cases hb
  | succ n ih =>
    intro r h1 hb
    unfold chain at hb ⊢
    cases hx : s.vals[r]? with
    | none => rw [hx] at hb; cases hb
    | some v =>
      rw [hx] at hb
      simp only [Option.bind_some] at hb ⊢
      cases ho : v.origin with
      | none => rw [ho] at hb; cases hb
      | some z =>
        rw [ho] at hb
        have hz := origin_lt h hx ho
        refine List.mem_cons_of_mem _ ?_
        rcases List.mem_cons.1 hb with hb | hb
        · subst hb
          exact more b n b (Nat.le_refl _) (by omega) a ha
        · exact ih z (by omega) hb

theorem chain_of {s : State} (h : ordered s = true) {a r : Nat} (f : From s a r) : a ∈ chain s r r := by
  induction f with
  | @one r a v hv ho =>
    have := origin_lt h hv ho
    obtain ⟨k, rfl⟩ := Nat.exists_eq_succ_of_ne_zero (Nat.ne_of_gt (Nat.lt_of_le_of_lt (Nat.zero_le _) this))
    unfold chain
    rw [hv]
    simp only [Option.bind_some, ho]
    exact List.mem_cons.2 (.inl rfl)
  | more _ _ ih1 ih2 => exact chain_trans h ih2 _ _ (Nat.le_refl _) ih1

def has (s : State) (a : Nat) : Bool := s.held.contains a && (s.vals[a]?).any (fun v => v.data != none)

def keptB (s : State) (r : Nat) : Bool :=
  ordered s && (chain s r r).all (fun a => match s.vals[r]?, s.vals[a]? with
    | some v, some va => if needs v.kind va.kind || (v.origin == some a && v.kind == .messages && va.kind == .message) then has s a else true
    | _, _ => true)

theorem kept_of {s : State} {r : Nat} (h : keptB s r = true) : Kept s r := by
  unfold keptB at h
  simp only [Bool.and_eq_true] at h
  obtain ⟨h1, h2⟩ := h
  rintro a ⟨v, va, hv, hva, hn⟩
  have hmem : a ∈ chain s r r := by
    rcases hn with hn | hn
    · exact chain_of h1 hn.1
    · exact chain_of h1 (.one hv hn.1)
  have h3 := List.all_eq_true.1 h2 a hmem
  rw [hv, hva] at h3
  dsimp only at h3
  rw [if_pos] at h3
  · unfold has at h3
    simp only [Bool.and_eq_true, List.contains_iff_mem, hva, Option.any_some, bne_iff_ne] at h3
    exact ⟨h3.1, va, hva, h3.2⟩
  · rcases hn with hn | ⟨g1, g2, g3⟩
    · rw [hn.2]; rfl
    · rw [g1, g2, g3]; simp

def unseenB (s : State) (m : Nat) : Bool := s.vals.all (fun v => v.made != some m)

theorem unseenB_of {s : State} {m : Nat} (h : unseenB s m = true) : Unseen s m := by
  intro v hv
  have := List.all_eq_true.1 h v hv
  simpa using this

def carefulB1 (s : State) : Event → Bool
  | .open _ => true
  | .leave => true
  | .drop _ => true
  | .gc _ => true
  | .destroy _ => true
  | .query r => keptB s r
  | .directory r => keptB s r
  | .findMessage r => keptB s r
  | .searchThreads r => keptB s r
  | .searchMessages r => keptB s r
  | .listOf r _ => keptB s r
  | .replies r => keptB s r
  | .call r => keptB s r
  | .each r => keptB s r
  | .close r => keptB s r
  | .tags r => keptB s r && (match s.vals[r]? with
    | some v => (match v.data with | some (some c) => (restOf s c).all (unseenB s) | _ => true)
    | none => true)
  | .next _ => match s.loops with
    | [] => true
    | lp :: _ => keptB s lp.val && (s.vals[lp.val]?).any (fun v => v.data != none) &&
      (match (if lp.started then (restOf s lp.obj).tail else restOf s lp.obj) with | [] => true | m :: _ => unseenB s m)

theorem careful1_of {s : State} {e : Event} (h : carefulB1 s e = true) : Careful1 s e := by
  cases e with
  | tags r =>
    unfold carefulB1 at h
    simp only [Bool.and_eq_true] at h
    refine ⟨kept_of h.1, fun v c hv hd m hm => ?_⟩
    have h2 := h.2
    rw [hv] at h2
    dsimp only at h2
    rw [hd] at h2
    exact unseenB_of (List.all_eq_true.1 h2 m hm)
  | next sh =>
    intro lp hlp
    unfold carefulB1 at h
    cases hl : s.loops with
    | nil => rw [hl] at hlp; cases hlp
    | cons lp' rest =>
      rw [hl] at hlp h
      cases hlp
      simp only [Bool.and_eq_true] at h
      refine ⟨kept_of h.1.1, ?_, fun m hm => ?_⟩
      · cases hv : s.vals[lp.val]? with
        | none => rw [hv] at h; cases h.1.2
        | some v =>
          rw [hv] at h
          exact ⟨v, rfl, by simpa using h.1.2⟩
      · have h2 := h.2
        cases hq : (if lp.started = true then (restOf s lp.obj).tail else restOf s lp.obj) with
        | nil => rw [hq] at hm; cases hm
        | cons m' l =>
          rw [hq] at hm h2
          cases hm
          exact unseenB_of h2
  | «open» _ => trivial
  | leave => trivial
  | drop _ => trivial
  | gc _ => trivial
  | destroy _ => trivial
  | query r => exact kept_of h
  | directory r => exact kept_of h
  | findMessage r => exact kept_of h
  | searchThreads r => exact kept_of h
  | searchMessages r => exact kept_of h
  | listOf r _ => exact kept_of h
  | replies r => exact kept_of h
  | call r => exact kept_of h
  | each r => exact kept_of h
  | close r => exact kept_of h

def carefulB : State → List Event → Bool
  | _, [] => true
  | s, e :: es => carefulB1 s e && match step s e with
    | .ok s' => carefulB s' es
    | .raised s' => carefulB s' es
    | _ => true

theorem careful_of (s : State) (es : List Event) (h : carefulB s es = true) : Careful s es := by
  induction es generalizing s with
  | nil => trivial
  | cons e es ih =>
    unfold carefulB at h
    simp only [Bool.and_eq_true] at h
    refine ⟨careful1_of h.1, ?_⟩
    have h2 := h.2
    cases hs : step s e with
    | ok s' => rw [hs] at h2; exact ih s' h2
    | raised s' => rw [hs] at h2; exact ih s' h2
    | crash => trivial
    | invalid => trivial

end Notmuch.Ruby
