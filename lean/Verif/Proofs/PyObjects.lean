import Verif.Spec.PyObjects

/-! # Python objects: the invariant -/

namespace Notmuch.Py

/-- Kinds that own memory and lose their pointer when they are destroyed. -/
def Kind.holds : Kind → Bool
  | .database => true
  | .query => true
  | .results => true
  | .thread => true
  | .message => true
  | _ => false

/-- Kinds that own memory. -/
def Kind.owns (k : Kind) : Bool := k.holds || decide (k = .owned)

/-- Nothing above `x` that owns memory was destroyed. -/
def Safe (w : World) (x : Nat) : Prop := ∀ y, Anc w y x → (w.obj y).kind.holds = true → (w.obj y).ptr ≠ none

structure Inv (w : World) : Prop where
  /- the library -/
  older : ∀ c a, w.owner c = some a → a < c ∧ c < w.m
  yields : ∀ c g, w.gives c = some g → CAnc w.owner g c ∧ c < w.m
  closed : ∀ c a, w.owner c = some a → w.freed a = true → w.freed c = true
  /- Python -/
  parent : ∀ x p, (w.obj x).parent = some p → p < x ∧ x < w.n
  top : ∀ x, x < w.n → ((w.obj x).kind = .database ↔ (w.obj x).parent = none)
  new : ∀ x, w.n ≤ x → w.obj x = ⟨.view, none, none⟩
  known : ∀ x c, (w.obj x).ptr = some (some c) → c < w.m
  uniq : ∀ x y c, (w.obj x).ptr = some (some c) → (w.obj y).ptr = some (some c) → x = y
  null : ∀ x, (w.obj x).ptr = some none → (w.obj x).kind = .members
  viewed : ∀ x, (w.obj x).kind = .view → (w.obj x).ptr = none
  viewOf : ∀ x p, (w.obj x).kind = .view → (w.obj x).parent = some p → (w.obj p).kind.hasLeaf = true
  owners : ∀ y c a, (w.obj y).ptr = some (some a) → w.owner c = some a ∨ w.gives c = some a → (w.obj y).kind.owns = true
  /- both -/
  link : ∀ x c a, Safe w x → (w.obj x).ptr = some (some c) → w.owner c = some a → ∃ y, Anc w y x ∧ y ≠ x ∧ (w.obj y).ptr = some (some a)
  live : ∀ x c, Safe w x → (w.obj x).ptr = some (some c) → w.freed c = false
  next : ∀ x c g, Safe w x → (w.obj x).ptr = some (some c) → w.gives c = some g → ∃ y, Anc w y x ∧ (w.obj y).ptr = some (some g)

theorem anc_trans {w : World} {x y z : Nat} (h1 : Anc w x y) (h2 : Anc w y z) : Anc w x z := by
  induction h2 with
  | refl => exact h1
  | up h _ ih => exact .up h ih

theorem safe_up {w : World} {x y : Nat} (h : Safe w x) (hy : Anc w y x) : Safe w y := fun z hz => h z (anc_trans hz hy)

theorem canc_trans {o : Nat → Option Nat} {a b c : Nat} (h1 : CAnc o a b) (h2 : CAnc o b c) : CAnc o a c := by
  induction h2 with
  | refl => exact h1
  | up h _ ih => exact .up h ih

/-- What owns the memory of `x` is above `x`. -/
theorem chain {w : World} (hi : Inv w) {a c : Nat} (h : CAnc w.owner a c) : ∀ x, Safe w x → (w.obj x).ptr = some (some c) → ∃ y, Anc w y x ∧ (w.obj y).ptr = some (some a) := by
  induction h with
  | refl => exact fun x _ hp => ⟨x, .refl x, hp⟩
  | up ho _ ih =>
    intro x hs hp
    obtain ⟨y, hy, _, hyp⟩ := hi.link x _ _ hs hp ho
    obtain ⟨z, hz, hzp⟩ := ih y (safe_up hs hy) hyp
    exact ⟨z, anc_trans hz hy, hzp⟩

theorem below_iff {o : Nat → Option Nat} (ho : ∀ c a, o c = some a → a < c) (c : Nat) : ∀ (f d : Nat), d < f → (belowIn o c f d = true ↔ CAnc o c d)
  | 0, d, h => by omega
  | f + 1, d, h => by
    unfold belowIn
    cases hp : o d with
    | none =>
      simp only [Bool.or_false, beq_iff_eq]
      constructor
      · rintro rfl; exact .refl _
      · intro h
        cases h with
        | refl => rfl
        | up h _ => rw [hp] at h; cases h
    | some p =>
      have := below_iff ho c f p (by have := ho d p hp; omega)
      simp only [Bool.or_eq_true, beq_iff_eq, this]
      constructor
      · rintro (rfl | h)
        · exact .refl _
        · exact .up hp h
      · intro h
        cases h with
        | refl => exact .inl rfl
        | up h1 h2 => rw [hp] at h1; injection h1 with h1; subst h1; exact .inr h2

theorem free_freed {w : World} (hi : Inv w) (c d : Nat) : (w.free c).freed d = true ↔ w.freed d = true ∨ CAnc w.owner c d := by
  show (w.freed d || belowIn w.owner c (d + 1) d) = true ↔ _
  rw [Bool.or_eq_true, below_iff (fun c a h => (hi.older c a h).1) c (d + 1) d (by omega)]

theorem alive_safe {w : World} (hi : Inv w) : ∀ (f x : Nat), x < w.n → aliveIn w.obj f x = true → Safe w x
  | 0, _, _, h => by cases h
  | f + 1, x, hx, h => by
    intro y hy hk
    cases hy with
    | refl =>
      unfold aliveIn at h
      cases hkk : (w.obj x).kind <;> rw [hkk] at hk h <;> simp [Kind.holds] at hk <;> simp only [Bool.and_eq_true] at h <;> (intro e; simp [e] at h)
    | up hp hy =>
      rename_i p
      unfold aliveIn at h
      rw [hp] at h
      have hnd : (w.obj x).kind ≠ .database := fun e => by rw [(hi.top x hx).1 e] at hp; cases hp
      have hpx := (hi.parent x p hp).1
      have : aliveIn w.obj f p = true := by
        cases hkk : (w.obj x).kind <;> rw [hkk] at h hnd <;> simp_all
      exact alive_safe hi f p (by omega) this y hy hk

/-! ## What does not touch the memory -/

/-- Only the attribute changes. -/
theorem anc_setPtr {w : World} {x : Nat} {p : Option (Option Nat)} {y z : Nat} : Anc (w.setPtr x p) y z ↔ Anc w y z := by
  have hp : ∀ i, ((w.setPtr x p).obj i).parent = (w.obj i).parent := by
    intro i
    show (if i = x then { w.obj x with ptr := p } else w.obj i).parent = _
    split
    · rename_i e; subst e; rfl
    · rfl
  constructor
  · intro h
    induction h with
    | refl => exact .refl _
    | up h _ ih => exact .up (by rwa [hp] at h) ih
  · intro h
    induction h with
    | refl => exact .refl _
    | up h _ ih => exact .up (by rwa [hp]) ih

theorem setPtr_kind (w : World) (x : Nat) (p : Option (Option Nat)) (y : Nat) : ((w.setPtr x p).obj y).kind = (w.obj y).kind := by
  show (if y = x then { w.obj x with ptr := p } else w.obj y).kind = _
  split
  · rename_i e; subst e; rfl
  · rfl

theorem setPtr_parent (w : World) (x : Nat) (p : Option (Option Nat)) (y : Nat) : ((w.setPtr x p).obj y).parent = (w.obj y).parent := by
  show (if y = x then { w.obj x with ptr := p } else w.obj y).parent = _
  split
  · rename_i e; subst e; rfl
  · rfl

theorem setPtr_ptr (w : World) (x : Nat) (p : Option (Option Nat)) (y : Nat) : ((w.setPtr x p).obj y).ptr = if y = x then p else (w.obj y).ptr := by
  show (if y = x then { w.obj x with ptr := p } else w.obj y).ptr = _
  split <;> rfl

/-- Freeing the memory of an object that then loses its pointer. -/
theorem inv_drop {w : World} (hi : Inv w) {x : Nat} (hx : x < w.n) (hk : (w.obj x).kind ≠ .owned) (w1 : World) (h1 : w1 = w ∨ ∃ c, (w.obj x).ptr = some (some c) ∧ w1 = w.free c) : Inv (w1.setPtr x none) := by
  have e1 : w1.obj = w.obj ∧ w1.owner = w.owner ∧ w1.gives = w.gives ∧ w1.n = w.n ∧ w1.m = w.m := by
    rcases h1 with rfl | ⟨c, _, rfl⟩ <;> exact ⟨rfl, rfl, rfl, rfl, rfl⟩
  obtain ⟨eo, ew, eg, en, em⟩ := e1
  have ptr' : ∀ y, ((w1.setPtr x none).obj y).ptr = if y = x then none else (w.obj y).ptr := fun y => by rw [setPtr_ptr, eo]
  have kind' : ∀ y, ((w1.setPtr x none).obj y).kind = (w.obj y).kind := fun y => by rw [setPtr_kind, eo]
  have par' : ∀ y, ((w1.setPtr x none).obj y).parent = (w.obj y).parent := fun y => by rw [setPtr_parent, eo]
  have anc' : ∀ y z, Anc (w1.setPtr x none) y z ↔ Anc w y z := by
    intro y z
    rw [anc_setPtr]
    constructor <;> intro h <;> induction h with
    | refl => exact .refl _
    | up h _ ih => exact .up (by first | rwa [eo] at h | rwa [eo]) ih
  have some' : ∀ y c, ((w1.setPtr x none).obj y).ptr = some (some c) → y ≠ x ∧ (w.obj y).ptr = some (some c) := by
    intro y c h
    rw [ptr'] at h
    split at h
    · cases h
    · rename_i e; exact ⟨e, h⟩
  have safe' : ∀ y, Safe (w1.setPtr x none) y → Safe w y ∧ ((w.obj x).kind.holds = true → ¬ Anc w x y) := by
    intro y hs
    refine ⟨fun z hz hk => ?_, fun hh ha => ?_⟩
    · have := hs z ((anc' z y).2 hz) (by rw [kind']; exact hk)
      rw [ptr'] at this
      split at this
      · exact absurd rfl this
      · exact this
    · have := hs x ((anc' x y).2 ha) (by rw [kind']; exact hh)
      rw [ptr', if_pos rfl] at this
      exact this rfl
  have hold : ∀ {c a}, (w.obj x).ptr = some (some a) → w.owner c = some a ∨ w.gives c = some a → (w.obj x).kind.holds = true := by
    intro c a hp ho
    have := hi.owners x c a hp ho
    unfold Kind.owns at this
    rw [Bool.or_eq_true] at this
    rcases this with h | h
    · exact h
    · exact absurd (of_decide_eq_true h) hk
  have fr : ∀ d, (w1.setPtr x none).freed d = true → w.freed d = true ∨ ∃ c, (w.obj x).ptr = some (some c) ∧ CAnc w.owner c d := by
    intro d h
    rcases h1 with rfl | ⟨c, hc, rfl⟩
    · exact .inl h
    · rcases (free_freed hi c d).1 h with h | h
      · exact .inl h
      · exact .inr ⟨c, hc, h⟩
  have fr' : ∀ d, w.freed d = true → (w1.setPtr x none).freed d = true := by
    intro d h
    rcases h1 with rfl | ⟨c, hc, rfl⟩
    · exact h
    · exact (free_freed hi c d).2 (.inl h)
  constructor
  · intro c a h; show a < c ∧ c < w1.m; rw [em]; exact hi.older c a (by rw [← ew]; exact h)
  · intro c g h; show CAnc w1.owner g c ∧ c < w1.m; rw [em, ew]; exact hi.yields c g (by rw [← eg]; exact h)
  · intro c a ho hf
    have ho : w.owner c = some a := by rw [← ew]; exact ho
    rcases h1 with rfl | ⟨c0, hc, rfl⟩
    · exact hi.closed c a ho hf
    · refine (free_freed hi c0 c).2 ?_
      rcases (free_freed hi c0 a).1 hf with h | h
      · exact .inl (hi.closed c a ho h)
      · exact .inr (.up ho h)
  · intro y p h
    have := hi.parent y p (by rw [← par']; exact h)
    exact ⟨this.1, by show y < w1.n; rw [en]; exact this.2⟩
  · intro y hy
    rw [kind', par']
    exact hi.top y (by rw [← en]; exact hy)
  · intro y hy
    have hy : w.n ≤ y := by rw [← en]; exact hy
    show (if y = x then _ else w1.obj y) = _
    rw [if_neg (by omega), eo]
    exact hi.new y hy
  · intro y c h; show c < w1.m; rw [em]; exact hi.known y c (some' y c h).2
  · intro y z c h h'; exact hi.uniq y z c (some' y c h).2 (some' z c h').2
  · intro y h
    rw [kind']
    rw [ptr'] at h
    split at h
    · cases h
    · exact hi.null y h
  · intro y h
    rw [ptr']
    split
    · rfl
    · exact hi.viewed y (by rwa [kind'] at h)
  · intro y p h h'
    rw [kind']
    exact hi.viewOf y p (by rwa [kind'] at h) (by rwa [par'] at h')
  · intro y c a h ho
    rw [kind']
    refine hi.owners y c a (some' y a h).2 ?_
    rw [← ew, ← eg]; exact ho
  · intro y c a hs hp ho
    obtain ⟨hs, hn⟩ := safe' y hs
    obtain ⟨_, hp⟩ := some' y c hp
    have ho' : w.owner c = some a := by rw [← ew]; exact ho
    obtain ⟨z, hz, hzn, hzp⟩ := hi.link y c a hs hp ho'
    refine ⟨z, (anc' z y).2 hz, hzn, ?_⟩
    rw [ptr', if_neg]
    · exact hzp
    · rintro rfl; exact hn (hold hzp (.inl ho')) hz
  · intro y c hs hp
    obtain ⟨hs, hn⟩ := safe' y hs
    obtain ⟨hyx, hp⟩ := some' y c hp
    cases hf : (w1.setPtr x none).freed c with
    | false => rfl
    | true =>
      exfalso
      rcases fr c hf with h | ⟨c0, hc0, h⟩
      · rw [hi.live y c hs hp] at h; cases h
      · cases h with
        | refl => exact hyx (hi.uniq y x c hp hc0)
        | up ho hca =>
          obtain ⟨z, hz, hzp⟩ := chain hi (.up ho hca) y hs hp
          have := hi.uniq z x c0 hzp hc0
          subst this
          have hex : ∀ {d}, CAnc w.owner c0 d → ∀ {e}, w.owner e = some d → ∃ e', w.owner e' = some c0 := by
            intro d h
            induction h with
            | refl => exact fun {e} h => ⟨e, h⟩
            | up h _ ih => exact fun _ => ih h
          obtain ⟨e', he'⟩ := hex hca ho
          exact hn (hold hc0 (.inl he')) hz
  · intro y c g hs hp hg
    obtain ⟨hs, hn⟩ := safe' y hs
    obtain ⟨_, hp⟩ := some' y c hp
    have hg' : w.gives c = some g := by rw [← eg]; exact hg
    obtain ⟨z, hz, hzp⟩ := hi.next y c g hs hp hg'
    refine ⟨z, (anc' z y).2 hz, ?_⟩
    rw [ptr', if_neg]
    · exact hzp
    · rintro rfl; exact hn (hold hzp (.inr hg')) hz

/-! ## New objects -/

theorem anc_of {w w' : World} (h : ∀ i, (w'.obj i).parent = (w.obj i).parent) {y z : Nat} (ha : Anc w y z) : Anc w' y z := by
  induction ha with
  | refl => exact .refl _
  | up hp _ ih => exact .up (by rw [h]; exact hp) ih

theorem anc_le {w : World} (hi : Inv w) {y z : Nat} (h : Anc w y z) : y ≤ z := by
  induction h with
  | refl => exact Nat.le_refl _
  | up hp _ ih => have := (hi.parent _ _ hp).1; omega

theorem canc_of {o o' : Nat → Option Nat} {m : Nat} (h : ∀ c, c < m → o' c = o c) (hl : ∀ c a, o c = some a → a < c) {g c : Nat} (hc : CAnc o g c) (hm : c < m) : CAnc o' g c := by
  induction hc with
  | refl => exact .refl _
  | up ho _ ih => exact .up (by rw [h _ hm]; exact ho) (ih (by have := hl _ _ ho; omega))

theorem canc_le {o : Nat → Option Nat} (hl : ∀ c a, o c = some a → a < c) {g c : Nat} (hc : CAnc o g c) : g ≤ c := by
  induction hc with
  | refl => exact Nat.le_refl _
  | up ho _ ih => have := hl _ _ ho; omega

theorem inv_newC {w : World} (hi : Inv w) {a g : Option Nat}
    (ha : ∀ a', a = some a' → a' < w.m ∧ w.freed a' = false ∧ ∀ y, (w.obj y).ptr = some (some a') → (w.obj y).kind.owns = true)
    (hg : ∀ g', g = some g' → (g' = w.m ∨ ∃ a', a = some a' ∧ CAnc w.owner g' a') ∧ ∀ y, (w.obj y).ptr = some (some g') → (w.obj y).kind.owns = true) : Inv (w.newC a g) := by
  have ow : ∀ c, (w.newC a g).owner c = if c = w.m then a else w.owner c := fun _ => rfl
  have gv : ∀ c, (w.newC a g).gives c = if c = w.m then g else w.gives c := fun _ => rfl
  have fr : ∀ c, (w.newC a g).freed c = if c = w.m then false else w.freed c := fun _ => rfl
  have hm : (w.newC a g).m = w.m + 1 := rfl
  have lt : ∀ c a', w.owner c = some a' → a' < c := fun c a' h => (hi.older c a' h).1
  have old : ∀ c, c < w.m → (w.newC a g).owner c = w.owner c := fun c hc => by rw [ow, if_neg (by omega)]
  have ho : ∀ x, (w.newC a g).obj x = w.obj x := fun _ => rfl
  have anc' : ∀ y z, Anc (w.newC a g) y z ↔ Anc w y z := fun y z => ⟨anc_of (w := w.newC a g) (w' := w) (fun _ => rfl), anc_of (w := w) (w' := w.newC a g) (fun _ => rfl)⟩
  have safe' : ∀ x, Safe (w.newC a g) x → Safe w x := fun x h y hy hk => h y ((anc' y x).2 hy) hk
  constructor
  · intro c a' h
    rw [ow] at h
    split at h
    · rename_i e; subst e; have := (ha a' h).1; exact ⟨this, by omega⟩
    · have := hi.older c a' h; exact ⟨this.1, by omega⟩
  · intro c g' h
    rw [gv] at h
    split at h
    · rename_i e; subst e
      refine ⟨?_, by omega⟩
      rcases (hg g' h).1 with rfl | ⟨a', ha', hc⟩
      · exact .refl _
      · exact .up (by rw [ow, if_pos rfl, ha']) (canc_of old lt hc (ha a' ha').1)
    · obtain ⟨h1, h2⟩ := hi.yields c g' h
      exact ⟨canc_of old lt h1 h2, by omega⟩
  · intro c a' h hf
    rw [ow] at h
    rw [fr] at hf ⊢
    split at h
    · rename_i e; subst e
      obtain ⟨h1, h2, _⟩ := ha a' h
      rw [if_neg (by omega), h2] at hf
      cases hf
    · rename_i e
      obtain ⟨h1, h2⟩ := hi.older c a' h
      rw [if_neg (by omega)] at hf
      rw [if_neg e]
      exact hi.closed c a' h hf
  · exact hi.parent
  · exact hi.top
  · exact hi.new
  · intro x c h; have := hi.known x c h; omega
  · exact hi.uniq
  · exact hi.null
  · exact hi.viewed
  · exact hi.viewOf
  · intro y c a' hp h
    rw [ow, gv] at h
    by_cases e : c = w.m
    · subst e
      rw [if_pos rfl, if_pos rfl] at h
      rcases h with h | h
      · exact (ha a' h).2.2 y hp
      · exact (hg a' h).2 y hp
    · rw [if_neg e, if_neg e] at h
      exact hi.owners y c a' hp h
  · intro x c a' hs hp h
    have := hi.known x c hp
    rw [ow, if_neg (by omega)] at h
    obtain ⟨y, hy, hn, hyp⟩ := hi.link x c a' (safe' x hs) hp h
    exact ⟨y, (anc' y x).2 hy, hn, hyp⟩
  · intro x c hs hp
    have := hi.known x c hp
    rw [fr, if_neg (by omega)]
    exact hi.live x c (safe' x hs) hp
  · intro x c g' hs hp h
    have := hi.known x c hp
    rw [gv, if_neg (by omega)] at h
    obtain ⟨y, hy, hyp⟩ := hi.next x c g' (safe' x hs) hp h
    exact ⟨y, (anc' y x).2 hy, hyp⟩

theorem inv_newPy {w : World} (hi : Inv w) {o : Obj}
    (hp : ∀ p, o.parent = some p → p < w.n) (ht : o.kind = .database ↔ o.parent = none)
    (hnull : o.ptr = some none → o.kind = .members) (hview : o.kind = .view → o.ptr = none)
    (hof : ∀ p, o.kind = .view → o.parent = some p → (w.obj p).kind.hasLeaf = true)
    (hc : ∀ c, o.ptr = some (some c) → c < w.m ∧ (∀ y, (w.obj y).ptr ≠ some (some c)) ∧ w.freed c = false ∧
      (∀ d, w.owner d = some c ∨ w.gives d = some c → o.kind.owns = true) ∧
      (∀ a, w.owner c = some a → ∃ p, o.parent = some p ∧ (Safe w p → ∃ y, Anc w y p ∧ (w.obj y).ptr = some (some a))) ∧
      (∀ g, w.gives c = some g → g = c ∨ ∃ p, o.parent = some p ∧ (Safe w p → ∃ y, Anc w y p ∧ (w.obj y).ptr = some (some g)))) : Inv (w.newPy o) := by
  have ob : ∀ x, (w.newPy o).obj x = if x = w.n then o else w.obj x := fun _ => rfl
  have obl : ∀ x, x < w.n → (w.newPy o).obj x = w.obj x := fun x h => by rw [ob, if_neg (by omega)]
  have obn : (w.newPy o).obj w.n = o := by rw [ob, if_pos rfl]
  have hn : (w.newPy o).n = w.n + 1 := rfl
  have dead : ∀ x, ¬ x < w.n + 1 → (w.newPy o).obj x = ⟨.view, none, none⟩ := fun x h => by rw [ob, if_neg (by omega)]; exact hi.new x (by omega)
  have fwd : ∀ {y z}, Anc w y z → z < w.n → Anc (w.newPy o) y z := by
    intro y z h
    induction h with
    | refl => exact fun _ => .refl _
    | up h _ ih => intro hz; exact .up (by rw [obl _ hz]; exact h) (ih (by have := hi.parent _ _ h; omega))
  have bwd : ∀ {y z}, Anc (w.newPy o) y z → z < w.n → Anc w y z := by
    intro y z h
    induction h with
    | refl => exact fun _ => .refl _
    | up h _ ih =>
      intro hz
      rw [obl _ hz] at h
      exact .up h (ih (by have := hi.parent _ _ h; omega))
  have safe' : ∀ x, x < w.n → Safe (w.newPy o) x → Safe w x := by
    intro x hx h y hy hk
    have hyx := anc_le hi hy
    have := h y (fwd hy hx) (by rw [obl y (by omega)]; exact hk)
    rwa [obl y (by omega)] at this
  have isold : ∀ x c, x ≠ w.n → ((w.newPy o).obj x).ptr = some (some c) → x < w.n ∧ (w.obj x).ptr = some (some c) := by
    intro x c hx h
    by_cases hl : x < w.n
    · rw [obl x hl] at h; exact ⟨hl, h⟩
    · rw [dead x (by omega)] at h; cases h
  have up : ∀ p a, o.parent = some p → Safe (w.newPy o) w.n → (Safe w p → ∃ y, Anc w y p ∧ (w.obj y).ptr = some (some a)) →
      ∃ y, Anc (w.newPy o) y w.n ∧ y ≠ w.n ∧ ((w.newPy o).obj y).ptr = some (some a) := by
    intro p a hpp hs h
    have hpn := hp p hpp
    have st : ((w.newPy o).obj w.n).parent = some p := by rw [obn]; exact hpp
    obtain ⟨y, hy, hyp⟩ := h (safe' p hpn (safe_up hs (.up st (.refl p))))
    have hyl := anc_le hi hy
    exact ⟨y, .up st (fwd hy hpn), by omega, by rw [obl y (by omega)]; exact hyp⟩
  constructor
  · exact hi.older
  · exact hi.yields
  · exact hi.closed
  · intro x p h
    rw [ob] at h
    split at h
    · rename_i e; subst e; exact ⟨hp p h, by omega⟩
    · have := hi.parent x p h; exact ⟨this.1, by omega⟩
  · intro x hx
    rw [ob]
    split
    · exact ht
    · exact hi.top x (by omega)
  · intro x hx; exact dead x (by omega)
  · intro x c h
    by_cases e : x = w.n
    · subst e; rw [obn] at h; exact (hc c h).1
    · exact hi.known x c (isold x c e h).2
  · intro x y c h h'
    by_cases e : x = w.n <;> by_cases e' : y = w.n
    · rw [e, e']
    · subst e; rw [obn] at h; exact absurd (isold y c e' h').2 ((hc c h).2.1 y)
    · subst e'; rw [obn] at h'; exact absurd (isold x c e h).2 ((hc c h').2.1 x)
    · exact hi.uniq x y c (isold x c e h).2 (isold y c e' h').2
  · intro x h
    rw [ob] at h ⊢
    split at h
    · rename_i e; rw [if_pos e]; exact hnull h
    · rename_i e; rw [if_neg e]; exact hi.null x h
  · intro x h
    rw [ob] at h ⊢
    split at h
    · rename_i e; rw [if_pos e]; exact hview h
    · rename_i e; rw [if_neg e]; exact hi.viewed x h
  · intro x p h h'
    have hpl : p < w.n := by
      rw [ob] at h'
      split at h'
      · exact hp p h'
      · have := hi.parent x p h'; omega
    rw [obl p hpl]
    rw [ob] at h h'
    split at h
    · rename_i e; rw [if_pos e] at h'; exact hof p h h'
    · rename_i e; rw [if_neg e] at h'; exact hi.viewOf x p h h'
  · intro y c a h h'
    by_cases e : y = w.n
    · subst e; rw [obn] at h ⊢; exact (hc a h).2.2.2.1 c h'
    · obtain ⟨hl, h⟩ := isold y a e h
      rw [obl y hl]
      exact hi.owners y c a h h'
  · intro x c a hs h h'
    by_cases e : x = w.n
    · subst e; rw [obn] at h
      obtain ⟨p, hpp, hy⟩ := (hc c h).2.2.2.2.1 a h'
      exact up p a hpp hs hy
    · obtain ⟨hl, h⟩ := isold x c e h
      obtain ⟨y, hy, hne, hyp⟩ := hi.link x c a (safe' x hl hs) h h'
      have hyl := anc_le hi hy
      exact ⟨y, fwd hy hl, hne, by rw [obl y (by omega)]; exact hyp⟩
  · intro x c hs h
    by_cases e : x = w.n
    · subst e; rw [obn] at h; exact (hc c h).2.2.1
    · obtain ⟨hl, h⟩ := isold x c e h
      exact hi.live x c (safe' x hl hs) h
  · intro x c g hs h h'
    by_cases e : x = w.n
    · subst e; rw [obn] at h
      rcases (hc c h).2.2.2.2.2 g h' with rfl | ⟨p, hpp, hy⟩
      · exact ⟨w.n, .refl _, by rw [obn]; exact h⟩
      · obtain ⟨y, hy, _, hyp⟩ := up p g hpp hs hy
        exact ⟨y, hy, hyp⟩
    · obtain ⟨hl, h⟩ := isold x c e h
      obtain ⟨y, hy, hyp⟩ := hi.next x c g (safe' x hl hs) h h'
      have hyl := anc_le hi hy
      exact ⟨y, fwd hy hl, by rw [obl y (by omega)]; exact hyp⟩

/-- A message is found again. -/
theorem inv_give {w : World} (hi : Inv w) {x c d r : Nat} (hk : (w.obj x).kind = .message ∨ (w.obj x).kind = .owned)
    (hclean : ∀ y, Anc w x y → y ≠ x → (w.obj y).ptr = none) (hx : x < w.n) (hc : c < w.m) (hfresh : ∀ y, (w.obj y).ptr ≠ some (some c)) (hf : w.freed c = false)
    (ho : w.owner c = some d) (hg : w.gives c = none) (hr : Anc w r x) (hrx : r ≠ x) (hrp : (w.obj r).ptr = some (some d))
    (hown : ∀ e, ¬ (w.owner e = some c ∨ w.gives e = some c)) : Inv (w.setPtr x (some (some c))) := by
  have ptr' : ∀ y, ((w.setPtr x (some (some c))).obj y).ptr = if y = x then some (some c) else (w.obj y).ptr := fun y => setPtr_ptr ..
  have kind' : ∀ y, ((w.setPtr x (some (some c))).obj y).kind = (w.obj y).kind := fun y => setPtr_kind ..
  have par' : ∀ y, ((w.setPtr x (some (some c))).obj y).parent = (w.obj y).parent := fun y => setPtr_parent ..
  have some' : ∀ y e, y ≠ x → ((w.setPtr x (some (some c))).obj y).ptr = some (some e) → (w.obj y).ptr = some (some e) ∧ ¬ Anc w x y := by
    intro y e hy h
    rw [ptr', if_neg hy] at h
    refine ⟨h, fun ha => ?_⟩
    rw [hclean y ha hy] at h
    cases h
  have safe' : ∀ y, ¬ Anc w x y → Safe (w.setPtr x (some (some c))) y → Safe w y := by
    intro y hn hs z hz hk
    have := hs z (anc_setPtr.2 hz) (by rw [kind']; exact hk)
    rw [ptr', if_neg] at this
    · exact this
    · rintro rfl; exact hn hz
  have self : ∀ e, ((w.setPtr x (some (some c))).obj x).ptr = some (some e) → e = c := by
    intro e h
    rw [ptr', if_pos rfl] at h
    injection h with h
    injection h with h
    exact h.symm
  constructor
  · exact hi.older
  · exact hi.yields
  · exact hi.closed
  · intro y p h; rw [par'] at h; exact hi.parent y p h
  · intro y hy; rw [kind', par']; exact hi.top y hy
  · intro y hy
    show (if y = x then _ else w.obj y) = _
    have : w.n ≤ y := hy
    rw [if_neg (by omega)]
    exact hi.new y hy
  · intro y e h
    by_cases hy : y = x
    · subst hy; rw [self e h]; exact hc
    · exact hi.known y e (some' y e hy h).1
  · intro y z e h h'
    by_cases hy : y = x <;> by_cases hz : z = x
    · rw [hy, hz]
    · subst hy; have h1 := (some' z e hz h').1; rw [self e h] at h1; exact absurd h1 (hfresh z)
    · subst hz; have h1 := (some' y e hy h).1; rw [self e h'] at h1; exact absurd h1 (hfresh y)
    · exact hi.uniq y z e (some' y e hy h).1 (some' z e hz h').1
  · intro y h
    rw [ptr'] at h
    rw [kind']
    split at h
    · cases h
    · exact hi.null y h
  · intro y h
    rw [kind'] at h
    rw [ptr', if_neg]
    · exact hi.viewed y h
    · rintro rfl; rw [h] at hk; rcases hk with e | e <;> cases e
  · intro y p h h'
    rw [kind'] at h ⊢
    rw [par'] at h'
    exact hi.viewOf y p h h'
  · intro y e a h h'
    rw [kind']
    by_cases hy : y = x
    · subst hy; rw [self a h] at h'; exact absurd h' (hown e)
    · exact hi.owners y e a (some' y a hy h).1 h'
  · intro y e a hs h h'
    by_cases hy : y = x
    · subst hy
      have he := self e h
      subst he
      have h' : w.owner e = some a := h'
      rw [ho] at h'
      injection h' with h'
      subst h'
      exact ⟨r, anc_setPtr.2 hr, hrx, by rw [ptr', if_neg hrx]; exact hrp⟩
    · obtain ⟨h1, hn⟩ := some' y e hy h
      obtain ⟨z, hz, hne, hzp⟩ := hi.link y e a (safe' y hn hs) h1 h'
      refine ⟨z, anc_setPtr.2 hz, hne, ?_⟩
      rw [ptr', if_neg]
      · exact hzp
      · rintro rfl; exact hn hz
  · intro y e hs h
    by_cases hy : y = x
    · subst hy; rw [self e h]; exact hf
    · obtain ⟨h1, hn⟩ := some' y e hy h
      exact hi.live y e (safe' y hn hs) h1
  · intro y e g hs h h'
    by_cases hy : y = x
    · subst hy
      rw [self e h] at h'
      have h' : w.gives c = some g := h'
      rw [hg] at h'
      cases h'
    · obtain ⟨h1, hn⟩ := some' y e hy h
      obtain ⟨z, hz, hzp⟩ := hi.next y e g (safe' y hn hs) h1 h'
      refine ⟨z, anc_setPtr.2 hz, ?_⟩
      rw [ptr', if_neg]
      · exact hzp
      · rintro rfl; exact hn hz

end Notmuch.Py
