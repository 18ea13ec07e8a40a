import Verif.Proofs.PyObjects

/-! # Python objects: a step keeps the invariant -/

namespace Notmuch.Py

theorem destroy_inv {w : World} (hi : Inv w) {x : Nat} (hx : x < w.n) : Inv (w.destroy x).1 ∧ (w.destroy x).2 = false := by
  have key : (w.obj x).kind ≠ .owned →
      Inv (match if w.alive x then (w.obj x).ptr else none with
        | some (some c) => ((w.free c).setPtr x none, w.freed c)
        | _ => (w.setPtr x none, false)).1 ∧ (match if w.alive x then (w.obj x).ptr else none with
        | some (some c) => ((w.free c).setPtr x none, w.freed c)
        | _ => (w.setPtr x none, false)).2 = false := by
    intro hk
    by_cases ha : w.alive x = true
    · rw [if_pos ha]
      have hs := alive_safe hi _ x hx ha
      cases hp : (w.obj x).ptr with
      | none => exact ⟨inv_drop hi hx hk w (.inl rfl), rfl⟩
      | some q =>
        cases q with
        | none => exact ⟨inv_drop hi hx hk w (.inl rfl), rfl⟩
        | some c => exact ⟨inv_drop hi hx hk _ (.inr ⟨c, hp, rfl⟩), hi.live x c hs hp⟩
    · rw [if_neg ha]
      exact ⟨inv_drop hi hx hk w (.inl rfl), rfl⟩
  unfold World.destroy
  cases hk : (w.obj x).kind <;> first
    | exact ⟨hi, rfl⟩
    | exact key (by rw [hk]; exact Kind.noConfusion)

theorem unfreed_up {w : World} (hi : Inv w) {a c : Nat} (h : CAnc w.owner a c) (hc : w.freed c = false) : w.freed a = false := by
  induction h with
  | refl => exact hc
  | up ho _ ih =>
    refine ih ?_
    rename_i d p _
    cases hp : w.freed p with
    | false => rfl
    | true => rw [hi.closed _ _ ho hp] at hc; cases hc

theorem make_inv {w : World} (hi : Inv w) {kind : Kind} {p a : Nat} {g : Option Nat} (hp : p < w.n) (hk1 : kind ≠ .database) (hk2 : kind ≠ .view)
    (ha : a < w.m) (hf : w.freed a = false) (hown : ∀ y, (w.obj y).ptr = some (some a) → (w.obj y).kind.owns = true)
    (hl : Safe w p → ∃ y, Anc w y p ∧ (w.obj y).ptr = some (some a))
    (hg : ∀ g', g = some g' → (g' = w.m ∧ kind.owns = true) ∨
      (CAnc w.owner g' a ∧ (∀ y, (w.obj y).ptr = some (some g') → (w.obj y).kind.owns = true) ∧ (Safe w p → ∃ y, Anc w y p ∧ (w.obj y).ptr = some (some g')))) :
    Inv (w.make kind p a g).1 := by
  have lt : ∀ c a', w.owner c = some a' → a' < c := fun c a' h => (hi.older c a' h).1
  have h1 : Inv (w.newC (some a) g) := by
    refine inv_newC hi ?_ ?_
    · intro a' h; injection h with h; subst h; exact ⟨ha, hf, hown⟩
    · intro g' h
      rcases hg g' h with ⟨e, _⟩ | ⟨h1, h2, _⟩
      · exact ⟨.inl e, fun y hy => by subst e; exact absurd (hi.known y _ hy) (Nat.lt_irrefl _)⟩
      · exact ⟨.inr ⟨a, rfl, h1⟩, h2⟩
  have anc' : ∀ {y z}, Anc w y z → Anc (w.newC (some a) g) y z := fun h => anc_of (w := w) (w' := w.newC (some a) g) (fun _ => rfl) h
  have safe' : Safe (w.newC (some a) g) p → Safe w p := fun h y hy hk => h y (anc' hy) hk
  refine inv_newPy h1 ?_ ?_ (fun h => by cases h) (fun h => absurd h hk2) (fun _ h => absurd h hk2) ?_
  · intro p' h; injection h with h; subst h; exact hp
  · exact ⟨fun h => absurd h hk1, fun h => by cases h⟩
  · intro c h
    injection h with h
    injection h with h
    subst h
    refine ⟨Nat.lt_succ_self _, fun y hy => absurd (hi.known y _ hy) (Nat.lt_irrefl _), ?_, ?_, ?_, ?_⟩
    · show (if w.m = w.m then false else _) = false
      rw [if_pos rfl]
    · intro d h
      have h : (if d = w.m then some a else w.owner d) = some w.m ∨ (if d = w.m then g else w.gives d) = some w.m := h
      by_cases e : d = w.m
      · rw [if_pos e, if_pos e] at h
        rcases h with h | h
        · injection h with h; omega
        · rcases hg _ h with ⟨_, h⟩ | ⟨h, _⟩
          · exact h
          · have := canc_le lt h; omega
      · rw [if_neg e, if_neg e] at h
        rcases h with h | h
        · have := hi.older _ _ h; omega
        · have h' := hi.yields _ _ h
          have := canc_le lt h'.1
          omega
    · intro a' h
      have h : (if w.m = w.m then some a else w.owner w.m) = some a' := h
      rw [if_pos rfl] at h
      injection h with h
      subst h
      refine ⟨p, rfl, fun hs => ?_⟩
      obtain ⟨y, hy, hyp⟩ := hl (safe' hs)
      exact ⟨y, anc' hy, hyp⟩
    · intro g' h
      have h : (if w.m = w.m then g else w.gives w.m) = some g' := h
      rw [if_pos rfl] at h
      rcases hg g' h with ⟨e, _⟩ | ⟨_, _, h3⟩
      · exact .inl e
      · refine .inr ⟨p, rfl, fun hs => ?_⟩
        obtain ⟨y, hy, hyp⟩ := h3 (safe' hs)
        exact ⟨y, anc' hy, hyp⟩

/-- The pointer that a call uses is that of `x` or of its parent. -/
theorem pointer_of {w : World} (hi : Inv w) {x : Nat} {q : Option Nat} (h : w.pointer x = some q) :
    ∃ y, Anc w y x ∧ (w.obj y).ptr = some q ∧ ((w.obj x).kind ≠ .view → y = x) ∧ ((w.obj x).kind = .view → (w.obj y).kind.hasLeaf = true) := by
  unfold World.pointer at h
  split at h
  · rename_i hk
    split at h
    · cases h
    · rename_i p hp
      exact ⟨p, .up hp (.refl p), h, fun e => absurd hk e, fun _ => hi.viewOf x p hk hp⟩
  · rename_i hk
    exact ⟨x, .refl x, h, fun _ => rfl, fun e => absurd e hk⟩

/-- A call of the library keeps the invariant if what it makes does. -/
theorem call_inv {w : World} (hi : Inv w) (x : Nat) {k : Nat → World × Out} (hk : ∀ c, w.pointer x = some (some c) → w.freed c = false → Inv (k c).1) : Inv (w.call x k).1 := by
  unfold World.call
  split
  · exact hi
  · exact hi
  · rename_i c hp
    cases hf : w.freed c with
    | true => exact hi
    | false => exact hk c hp hf

theorem call_ok {w : World} (x : Nat) {k : Nat → World × Out} (hk : ∀ c, w.pointer x = some (some c) → w.freed c = false → (k c).2 ≠ .doubleFree) : (w.call x k).2 ≠ .doubleFree := by
  unfold World.call
  split
  · exact Out.noConfusion
  · exact Out.noConfusion
  · rename_i c hp
    cases hf : w.freed c with
    | true => exact Out.noConfusion
    | false => exact hk c hp hf

theorem owns_of_leaf {k : Kind} (h : k.hasLeaf = true) : k.owns = true := by cases k <;> first | rfl | cases h

/-- What a method of `x` makes: `x` owns it. -/
theorem make_call {w : World} (hi : Inv w) {x c : Nat} {kind : Kind} {g : Option Nat} (hx : x < w.n) (hp : w.pointer x = some (some c)) (hf : w.freed c = false)
    (hk1 : kind ≠ .database) (hk2 : kind ≠ .view) (hown : (w.obj x).kind.owns = true ∨ (w.obj x).kind = .view)
    (hg : ∀ g', g = some g' → (g' = w.m ∧ kind.owns = true) ∨ g' = c ∨ ((w.obj x).kind ≠ .view ∧ w.owner c = some g')) : Inv (w.make kind x c g).1 := by
  obtain ⟨y, hy, hyp, hn, hv⟩ := pointer_of hi hp
  have ow : ∀ z, (w.obj z).ptr = some (some c) → (w.obj z).kind.owns = true := by
    intro z hz
    have e := hi.uniq z y c hz hyp
    subst e
    by_cases hv' : (w.obj x).kind = .view
    · exact owns_of_leaf (hv hv')
    · rw [hn hv']; rcases hown with h | h
      · exact h
      · exact absurd h hv'
  refine make_inv hi hx hk1 hk2 (hi.known y c hyp) hf ow (fun _ => ⟨y, hy, hyp⟩) ?_
  intro g' e
  rcases hg g' e with h | h | ⟨h1, h2⟩
  · exact .inl h
  · subst h; exact .inr ⟨.refl _, ow, fun _ => ⟨y, hy, hyp⟩⟩
  · have e := hn h1
    subst e
    refine .inr ⟨.up h2 (.refl _), fun z hz => hi.owners z c g' hz (.inl h2), fun hs => ?_⟩
    obtain ⟨z, hz, _, hzp⟩ := hi.link y c g' hs hyp h2
    exact ⟨z, hz, hzp⟩

theorem element_inv {w : World} (hi : Inv w) {x c : Nat} (hx : x < w.n) (hp : (w.obj x).ptr = some (some c)) (hf : w.freed c = false) : Inv (w.element x c).1 ∧ (w.element x c).2 ≠ .doubleFree := by
  have key : ∀ (kind : Kind) (g : Nat), kind ≠ .database → kind ≠ .view → w.gives c = some g → Inv (w.make kind x g none).1 ∧ (w.make kind x g none).2 ≠ .doubleFree := by
    intro kind g h1 h2 hg
    obtain ⟨hc, hm⟩ := hi.yields c g hg
    have hle := canc_le (fun c a h => (hi.older c a h).1) hc
    exact ⟨make_inv hi hx h1 h2 (by omega) (unfreed_up hi hc hf) (fun y hy => hi.owners y c g hy (.inr hg)) (fun hs => hi.next x c g hs hp hg) (fun _ h => by cases h), Out.noConfusion⟩
  unfold World.element
  split
  · rename_i g _ hg; exact key _ g Kind.noConfusion Kind.noConfusion hg
  · rename_i g _ hg; exact key _ g Kind.noConfusion Kind.noConfusion hg
  · rename_i g _ hg; exact key _ g Kind.noConfusion Kind.noConfusion hg
  · exact ⟨hi, Out.noConfusion⟩
  · exact ⟨hi, Out.noConfusion⟩

theorem root_anc {w : World} (hi : Inv w) : ∀ (f x : Nat), x < f → x < w.n → Anc w (rootIn w.obj f x) x ∧ (w.obj (rootIn w.obj f x)).kind = .database
  | 0, x, h, _ => by omega
  | f + 1, x, h, hx => by
    unfold rootIn
    cases hp : (w.obj x).parent with
    | none => exact ⟨.refl x, (hi.top x hx).2 hp⟩
    | some p =>
      have := hi.parent x p hp
      have ih := root_anc hi f p (by omega) (by omega)
      exact ⟨.up hp ih.1, ih.2⟩

/-- What `destroy` leaves as it was. -/
theorem destroy_same (w : World) (x : Nat) : (∀ y, ((w.destroy x).1.obj y).kind = (w.obj y).kind) ∧ (∀ y, ((w.destroy x).1.obj y).parent = (w.obj y).parent) ∧
    (∀ y, y ≠ x → ((w.destroy x).1.obj y).ptr = (w.obj y).ptr) ∧ (w.destroy x).1.n = w.n ∧ (w.destroy x).1.m = w.m ∧ (w.destroy x).1.owner = w.owner := by
  have key : ∀ w1 : World, w1 = w ∨ (∃ c, w1 = w.free c) → (∀ y, ((w1.setPtr x none).obj y).kind = (w.obj y).kind) ∧ (∀ y, ((w1.setPtr x none).obj y).parent = (w.obj y).parent) ∧
      (∀ y, y ≠ x → ((w1.setPtr x none).obj y).ptr = (w.obj y).ptr) ∧ (w1.setPtr x none).n = w.n ∧ (w1.setPtr x none).m = w.m ∧ (w1.setPtr x none).owner = w.owner := by
    intro w1 h1
    have e : w1.obj = w.obj ∧ w1.n = w.n ∧ w1.m = w.m ∧ w1.owner = w.owner := by rcases h1 with rfl | ⟨c, rfl⟩ <;> exact ⟨rfl, rfl, rfl, rfl⟩
    exact ⟨fun y => by rw [setPtr_kind, e.1], fun y => by rw [setPtr_parent, e.1], fun y hy => by rw [setPtr_ptr, e.1, if_neg hy], e.2.1, e.2.2.1, e.2.2.2⟩
  unfold World.destroy
  split
  · exact ⟨fun _ => rfl, fun _ => rfl, fun _ _ => rfl, rfl, rfl, rfl⟩
  · exact ⟨fun _ => rfl, fun _ => rfl, fun _ _ => rfl, rfl, rfl, rfl⟩
  · split
    · exact key _ (.inr ⟨_, rfl⟩)
    · exact key _ (.inl rfl)

theorem step_inv {w : World} (hi : Inv w) (e : Event) (hc : Clean w e) : Inv (step w e).1 ∧ (step w e).2 ≠ .doubleFree := by
  have lt : ∀ c a', w.owner c = some a' → a' < c := fun c a' h => (hi.older c a' h).1
  have dest : ∀ {x}, x < w.n → ∀ o : Out, o ≠ .doubleFree → Inv (w.destroy x).1 ∧ (if (w.destroy x).2 then Out.doubleFree else o) ≠ .doubleFree := by
    intro x hx o ho
    obtain ⟨h1, h2⟩ := destroy_inv hi hx
    exact ⟨h1, by rw [h2]; exact ho⟩
  cases e with
  | open_ =>
    refine ⟨?_, Out.noConfusion⟩
    have h1 : Inv (w.newC none none) := inv_newC hi (fun _ h => by cases h) (fun _ h => by cases h)
    refine inv_newPy h1 (fun _ h => by cases h) ⟨fun _ => rfl, fun _ => rfl⟩ (fun h => by cases h) (fun h => by cases h) (fun _ h => by cases h) ?_
    intro c h
    injection h with h
    injection h with h
    subst h
    refine ⟨Nat.lt_succ_self _, fun y hy => absurd (hi.known y _ hy) (Nat.lt_irrefl _), ?_, fun _ _ => rfl, ?_, ?_⟩
    · show (if w.m = w.m then false else _) = false
      rw [if_pos rfl]
    · intro a h
      have h : (if w.m = w.m then none else w.owner w.m) = some a := h
      rw [if_pos rfl] at h
      cases h
    · intro a h
      have h : (if w.m = w.m then none else w.gives w.m) = some a := h
      rw [if_pos rfl] at h
      cases h
  | query x =>
    dsimp only [step]
    split
    · rename_i h
      refine ⟨call_inv hi x (fun c hp hf => ?_), call_ok x (fun c _ _ => Out.noConfusion)⟩
      exact make_call hi h.1 hp hf Kind.noConfusion Kind.noConfusion (.inl (by rw [h.2]; rfl)) (fun _ h => by cases h)
    · exact ⟨hi, Out.noConfusion⟩
  | messages x =>
    dsimp only [step]
    split
    · rename_i h
      refine ⟨call_inv hi x (fun c hp hf => ?_), call_ok x (fun c _ _ => Out.noConfusion)⟩
      exact make_call hi h.1 hp hf Kind.noConfusion Kind.noConfusion (.inl (by rw [h.2]; rfl)) (fun _ h => by injection h with h; exact .inl ⟨h.symm, rfl⟩)
    · exact ⟨hi, Out.noConfusion⟩
  | threads x =>
    dsimp only [step]
    split
    · rename_i h
      refine ⟨call_inv hi x (fun c hp hf => ?_), call_ok x (fun c _ _ => Out.noConfusion)⟩
      exact make_call hi h.1 hp hf Kind.noConfusion Kind.noConfusion (.inl (by rw [h.2]; rfl)) (fun _ h => by injection h with h; exact .inr (.inl h.symm))
    · exact ⟨hi, Out.noConfusion⟩
  | find x =>
    dsimp only [step]
    split
    · rename_i h
      refine ⟨call_inv hi x (fun c hp hf => ?_), call_ok x (fun c _ _ => Out.noConfusion)⟩
      exact make_call hi h.1 hp hf Kind.noConfusion Kind.noConfusion (.inl (by rw [h.2]; rfl)) (fun _ h => by cases h)
    · exact ⟨hi, Out.noConfusion⟩
  | view x =>
    dsimp only [step]
    split
    · rename_i h
      refine ⟨inv_newPy hi ?_ ⟨(fun h => by cases h), (fun h => by cases h)⟩ (fun h => by cases h) (fun _ => rfl) ?_ (fun _ h => by cases h), Out.noConfusion⟩
      · intro p e; injection e with e; subst e; exact h.1
      · intro p _ e; injection e with e; subst e; exact h.2
    · exact ⟨hi, Out.noConfusion⟩
  | leaf x =>
    dsimp only [step]
    split
    · rename_i h
      refine ⟨call_inv hi x (fun c hp hf => ?_), call_ok x (fun c _ _ => Out.noConfusion)⟩
      exact make_call hi h.1 hp hf Kind.noConfusion Kind.noConfusion (h.2.imp owns_of_leaf id) (fun _ h => by cases h)
    · exact ⟨hi, Out.noConfusion⟩
  | members x null =>
    dsimp only [step]
    split
    · rename_i h
      have hown : (w.obj x).kind.owns = true := by rcases h.2 with h | h | h <;> rw [h] <;> rfl
      have hnv : (w.obj x).kind ≠ .view := by rcases h.2 with h | h | h <;> rw [h] <;> exact Kind.noConfusion
      refine ⟨call_inv hi x (fun c hp hf => ?_), call_ok x (fun c _ _ => ?_)⟩
      · split
        · refine inv_newPy hi ?_ ⟨(fun h => by cases h), (fun h => by cases h)⟩ (fun _ => rfl) (fun h => by cases h) (fun _ h => by cases h) (fun _ h => by cases h)
          intro p e; injection e with e; subst e; exact h.1
        · refine make_call hi h.1 hp hf Kind.noConfusion Kind.noConfusion (.inl hown) ?_
          intro g' e
          split at e
          · injection e with e; exact .inr (.inl e.symm)
          · exact .inr (.inr ⟨hnv, e⟩)
      · split <;> exact Out.noConfusion
    · exact ⟨hi, Out.noConfusion⟩
  | next x more =>
    dsimp only [step]
    split
    · rename_i h
      split
      · exact ⟨hi, Out.noConfusion⟩
      · exact dest h.1 _ Out.noConfusion
      · rename_i c hp
        cases hf : w.freed c with
        | true => exact ⟨hi, Out.noConfusion⟩
        | false =>
          simp only [Bool.false_eq_true, if_false]
          split
          · exact element_inv hi h.1 hp hf
          · exact dest h.1 _ Out.noConfusion
    · exact ⟨hi, Out.noConfusion⟩
  | use x =>
    dsimp only [step]
    split
    · exact ⟨call_inv hi x (fun c hp hf => hi), call_ok x (fun c _ _ => Out.noConfusion)⟩
    · exact ⟨hi, Out.noConfusion⟩
  | del x =>
    dsimp only [step]
    split
    · rename_i h; exact dest h _ Out.noConfusion
    · exact ⟨hi, Out.noConfusion⟩
  | rollback x found =>
    dsimp only [step]
    split
    · rename_i h
      obtain ⟨hx, hk⟩ := h
      obtain ⟨h1, h2⟩ := destroy_inv hi hx
      obtain ⟨sk, sp, spt, sn, sm, _⟩ := destroy_same w x
      have hcl : ∀ y, Anc (w.destroy x).1 x y → y ≠ x → ((w.destroy x).1.obj y).ptr = none := by
        intro y hy hn
        rw [spt y hn]
        exact hc x found rfl y (anc_of (fun i => (sp i).symm) hy) hn
      have body : ∀ c : Nat, Inv ((if (w.destroy x).2 then ((w.destroy x).1, Out.doubleFree)
        else
          let w1 := (w.destroy x).1
          match (w1.obj (rootIn w1.obj (x + 1) x)).ptr with
          | some (some d) =>
            if found = false then (w1, Out.ok none)
            else if w1.freed d then (w1, Out.useAfterFree)
            else ((w1.newC (some d) none).setPtr x (some (some w1.m)), Out.ok none)
          | _ => (w1, Out.ok none))).1 ∧ ((if (w.destroy x).2 then ((w.destroy x).1, Out.doubleFree)
        else
          let w1 := (w.destroy x).1
          match (w1.obj (rootIn w1.obj (x + 1) x)).ptr with
          | some (some d) =>
            if found = false then (w1, Out.ok none)
            else if w1.freed d then (w1, Out.useAfterFree)
            else ((w1.newC (some d) none).setPtr x (some (some w1.m)), Out.ok none)
          | _ => (w1, Out.ok none))).2 ≠ .doubleFree := by
        intro _
        rw [h2]
        simp only [Bool.false_eq_true, if_false]
        generalize (w.destroy x).1 = w1 at *
        obtain ⟨ra, rk⟩ := root_anc h1 (x + 1) x (by omega) (by omega)
        generalize rootIn w1.obj (x + 1) x = r at *
        split
        · rename_i d hd
          split
          · exact ⟨h1, Out.noConfusion⟩
          · cases hf : w1.freed d with
            | true => exact ⟨h1, Out.noConfusion⟩
            | false =>
              refine ⟨?_, Out.noConfusion⟩
              have hdm := h1.known r d hd
              have h3 : Inv (w1.newC (some d) none) := by
                refine inv_newC h1 ?_ (fun _ h => by cases h)
                intro a' e
                injection e with e
                subst e
                refine ⟨hdm, hf, fun y hy => ?_⟩
                have := h1.uniq y r d hy hd
                subst this
                rw [rk]; rfl
              have anc' : ∀ {y z}, Anc w1 y z ↔ Anc (w1.newC (some d) none) y z := ⟨fun h => anc_of (w := w1) (w' := w1.newC (some d) none) (fun _ => rfl) h, fun h => anc_of (w := w1.newC (some d) none) (w' := w1) (fun _ => rfl) h⟩
              have hk' : (w1.obj x).kind = .message ∨ (w1.obj x).kind = .owned := by rw [sk]; exact hk
              refine inv_give (d := d) (r := r) h3 hk' (fun y hy hn => hcl y (anc'.2 hy) hn) (by show x < w1.n; omega) (Nat.lt_succ_self _) (fun y hy => absurd (h1.known y _ hy) (Nat.lt_irrefl _)) ?_ ?_ ?_ (anc'.1 ra) ?_ hd ?_
              · show (if w1.m = w1.m then false else _) = false
                rw [if_pos rfl]
              · show (if w1.m = w1.m then some d else _) = some d
                rw [if_pos rfl]
              · show (if w1.m = w1.m then none else _) = none
                rw [if_pos rfl]
              · rintro rfl; rw [rk] at hk'; rcases hk' with e | e <;> cases e
              · intro e h
                have h : (if e = w1.m then some d else w1.owner e) = some w1.m ∨ (if e = w1.m then none else w1.gives e) = some w1.m := h
                by_cases he : e = w1.m
                · rw [if_pos he, if_pos he] at h
                  rcases h with h | h
                  · injection h with h; omega
                  · cases h
                · rw [if_neg he, if_neg he] at h
                  rcases h with h | h
                  · have := h1.older _ _ h; omega
                  · have h' := h1.yields _ _ h
                    have := canc_le (fun c a h => (h1.older c a h).1) h'.1
                    omega
        · exact ⟨h1, Out.noConfusion⟩
      exact ⟨call_inv hi x (fun c _ _ => (body c).1), call_ok x (fun c _ _ => (body c).2)⟩
    · exact ⟨hi, Out.noConfusion⟩

theorem empty_inv : Inv World.empty := by
  constructor
  · intro c a h; cases h
  · intro c a h; cases h
  · intro c a h; cases h
  · intro c a h; cases h
  · intro x h; exact absurd h (Nat.not_lt_zero _)
  · intro x _; rfl
  · intro x c h; cases h
  · intro x y c h; cases h
  · intro x h; cases h
  · intro x _; rfl
  · intro x p _ h; cases h
  · intro x c a h; cases h
  · intro x c a _ h; cases h
  · intro x c _ h; cases h
  · intro x c g _ h; cases h

theorem run_inv {w : World} : ∀ {es : List Event}, Inv w → AllClean w es → Inv (run w es)
  | [], hi, _ => hi
  | e :: es, hi, h => run_inv (es := es) (step_inv hi e h.1).1 h.2

end Notmuch.Py
