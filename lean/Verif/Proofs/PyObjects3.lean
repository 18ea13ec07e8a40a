import Verif.Proofs.PyObjects2

/-! # Python objects: memory is not used after it was freed -/

namespace Notmuch.Py

theorem pointer_live {w : World} (hi : Inv w) {x c : Nat} (hs : Safe w x) (hp : w.pointer x = some (some c)) : w.freed c = false := by
  obtain ⟨y, hy, hyp, _⟩ := pointer_of hi hp
  exact hi.live y c (safe_up hs hy) hyp

theorem call_live {w : World} (hi : Inv w) {x : Nat} (hs : Safe w x) {k : Nat → World × Out} (hk : ∀ c, (k c).2 ≠ .useAfterFree) : (w.call x k).2 ≠ .useAfterFree := by
  unfold World.call
  split
  · exact Out.noConfusion
  · exact Out.noConfusion
  · rename_i c hp
    rw [pointer_live hi hs hp]
    exact hk c

theorem destroy_out {w : World} (x : Nat) {o : Out} (ho : o ≠ .useAfterFree) : (if (w.destroy x).2 then Out.doubleFree else o) ≠ .useAfterFree := by
  split
  · exact Out.noConfusion
  · exact ho

theorem safe_ok {w : World} (hi : Inv w) {x : Nat} (hs : Safe w x) (e : Event) (he : e.on = some x) : (step w e).2 ≠ .useAfterFree := by
  cases e with
  | open_ => cases he
  | query y =>
    injection he with he; subst he
    dsimp only [step]
    split
    · exact call_live hi hs (fun _ => Out.noConfusion)
    · exact Out.noConfusion
  | messages y =>
    injection he with he; subst he
    dsimp only [step]
    split
    · exact call_live hi hs (fun _ => Out.noConfusion)
    · exact Out.noConfusion
  | threads y =>
    injection he with he; subst he
    dsimp only [step]
    split
    · exact call_live hi hs (fun _ => Out.noConfusion)
    · exact Out.noConfusion
  | find y =>
    injection he with he; subst he
    dsimp only [step]
    split
    · exact call_live hi hs (fun _ => Out.noConfusion)
    · exact Out.noConfusion
  | view y =>
    dsimp only [step]
    split <;> exact Out.noConfusion
  | leaf y =>
    injection he with he; subst he
    dsimp only [step]
    split
    · exact call_live hi hs (fun _ => Out.noConfusion)
    · exact Out.noConfusion
  | members y null =>
    injection he with he; subst he
    dsimp only [step]
    split
    · refine call_live hi hs (fun c => ?_)
      split <;> exact Out.noConfusion
    · exact Out.noConfusion
  | next y more =>
    injection he with he; subst he
    dsimp only [step]
    split
    · split
      · exact Out.noConfusion
      · exact destroy_out _ Out.noConfusion
      · rename_i c hp
        rw [hi.live y c hs hp]
        simp only [Bool.false_eq_true, if_false]
        split
        · unfold World.element
          split <;> exact Out.noConfusion
        · exact destroy_out _ Out.noConfusion
    · exact Out.noConfusion
  | use y =>
    injection he with he; subst he
    dsimp only [step]
    split
    · exact call_live hi hs (fun _ => Out.noConfusion)
    · exact Out.noConfusion
  | del y =>
    dsimp only [step]
    split
    · exact destroy_out _ Out.noConfusion
    · exact Out.noConfusion
  | rollback y found =>
    injection he with he; subst he
    dsimp only [step]
    split
    · rename_i h
      obtain ⟨hx, hk⟩ := h
      obtain ⟨h1, h2⟩ := destroy_inv hi hx
      obtain ⟨_, _, _, sn, _, _⟩ := destroy_same w y
      refine call_live hi hs (fun c => ?_)
      rw [h2]
      simp only [Bool.false_eq_true, if_false]
      generalize (w.destroy y).1 = w1 at *
      obtain ⟨ra, rk⟩ := root_anc h1 (y + 1) y (by omega) (by omega)
      generalize rootIn w1.obj (y + 1) y = r at *
      split
      · rename_i d hd
        split
        · exact Out.noConfusion
        · have hrs : Safe w1 r := by
            intro z hz _
            cases hz with
            | refl => rw [hd]; exact fun e => by cases e
            | up hp _ =>
              have := h1.parent r _ hp
              rw [(h1.top r this.2).1 rk] at hp
              cases hp
          rw [h1.live r d hrs hd]
          exact Out.noConfusion
      · exact Out.noConfusion
    · exact Out.noConfusion

theorem lt_of_kind {w : World} (hi : Inv w) {y : Nat} (h : (w.obj y).kind.holds = true) : y < w.n := by
  by_cases hl : y < w.n
  · exact hl
  · rw [hi.new y (by omega)] at h; cases h

/-! ## What loses its pointer -/

/-- Objects stay what they are; an object that loses its pointer was deleted, ended, or not found again. -/
structure Kept (w : World) (e : Event) (w' : World) : Prop where
  more : w.n ≤ w'.n
  kind : ∀ y, y < w.n → (w'.obj y).kind = (w.obj y).kind
  parent : ∀ y, y < w.n → (w'.obj y).parent = (w.obj y).parent
  lost : ∀ y, y < w'.n → (w'.obj y).kind.holds = true → (w'.obj y).ptr = none →
    (y < w.n ∧ (w.obj y).ptr = none) ∨ e = .del y ∨ ((w'.obj y).kind = .results ∧ e = .next y false) ∨ e = .rollback y false ∨
      (∃ r, Anc w r y ∧ r < w.n ∧ y < w.n ∧ (w.obj r).kind = .database ∧ (w.obj r).ptr = none)

theorem kept_refl (w : World) (e : Event) : Kept w e w := ⟨Nat.le_refl _, fun _ _ => rfl, fun _ _ => rfl, fun _ h _ hp => .inl ⟨h, hp⟩⟩

theorem kept_newPy (w : World) (hi : Inv w) (e : Event) (o : Obj) (ho : o.kind.holds = true → o.ptr ≠ none) : Kept w e (w.newPy o) := by
  have ob : ∀ x, (w.newPy o).obj x = if x = w.n then o else w.obj x := fun _ => rfl
  refine ⟨Nat.le_succ _, fun y hy => by rw [ob, if_neg (by omega)], fun y hy => by rw [ob, if_neg (by omega)], fun y hy hk hp => ?_⟩
  rw [ob] at hk hp
  split at hp
  · rename_i e; rw [if_pos e] at hk; exact absurd hp (ho hk)
  · rename_i e
    have : y < w.n + 1 := hy
    exact .inl ⟨by omega, hp⟩

theorem kept_make (w : World) (hi : Inv w) (e : Event) (k : Kind) (p a : Nat) (g : Option Nat) : Kept w e (w.make k p a g).1 := by
  have h := kept_newPy (w.newC (some a) g)
  have ob : ∀ x, (w.make k p a g).1.obj x = if x = w.n then ⟨k, some p, some (some w.m)⟩ else w.obj x := fun _ => rfl
  refine ⟨Nat.le_succ _, fun y hy => by rw [ob, if_neg (by omega)], fun y hy => by rw [ob, if_neg (by omega)], fun y hy hk hp => ?_⟩
  rw [ob] at hp
  split at hp
  · cases hp
  · rename_i e
    have : y < w.n + 1 := hy
    exact .inl ⟨by omega, hp⟩

theorem kept_call (w : World) (e : Event) (x : Nat) (k : Nat → World × Out) (hk : ∀ c, Kept w e (k c).1) : Kept w e (w.call x k).1 := by
  unfold World.call
  split
  · exact kept_refl w e
  · exact kept_refl w e
  · split
    · exact kept_refl w e
    · exact hk _

/-- `destroy` of `x`. -/
theorem kept_destroy (w : World) (e : Event) (x : Nat)
    (h : (w.obj x).kind.holds = true → e = .del x ∨ ((w.obj x).kind = .results ∧ e = .next x false) ∨ e = .rollback x false) : Kept w e (w.destroy x).1 := by
  obtain ⟨sk, sp, spt, sn, _, _⟩ := destroy_same w x
  refine ⟨by omega, fun y _ => sk y, fun y _ => sp y, fun y hy hk hp => ?_⟩
  rw [sk] at hk
  by_cases e : y = x
  · subst e
    rw [sk]
    rcases h hk with h | h | h
    · exact .inr (.inl h)
    · exact .inr (.inr (.inl h))
    · exact .inr (.inr (.inr (.inl h)))
  · rw [spt y e] at hp
    exact .inl ⟨by omega, hp⟩

theorem step_kept {w : World} (hi : Inv w) (e : Event) : Kept w e (step w e).1 := by
  cases e with
  | open_ =>
    dsimp only [step]
    have ob : ∀ x, ((w.newC none none).newPy ⟨.database, none, some (some w.m)⟩).obj x = if x = w.n then ⟨.database, none, some (some w.m)⟩ else w.obj x := fun _ => rfl
    refine ⟨Nat.le_succ _, fun y hy => by rw [ob, if_neg (by omega)], fun y hy => by rw [ob, if_neg (by omega)], fun y hy hk hp => ?_⟩
    rw [ob] at hp
    split at hp
    · cases hp
    · rename_i e
      have : y < w.n + 1 := hy
      exact .inl ⟨by omega, hp⟩
  | query x => dsimp only [step]; exact (by
      split
      · exact kept_call w _ x _ (fun c => kept_make w hi _ _ _ _ _)
      · exact kept_refl w _)
  | messages x => dsimp only [step]; exact (by
      split
      · exact kept_call w _ x _ (fun c => kept_make w hi _ _ _ _ _)
      · exact kept_refl w _)
  | threads x => dsimp only [step]; exact (by
      split
      · exact kept_call w _ x _ (fun c => kept_make w hi _ _ _ _ _)
      · exact kept_refl w _)
  | find x => dsimp only [step]; exact (by
      split
      · exact kept_call w _ x _ (fun c => kept_make w hi _ _ _ _ _)
      · exact kept_refl w _)
  | leaf x => dsimp only [step]; exact (by
      split
      · exact kept_call w _ x _ (fun c => kept_make w hi _ _ _ _ _)
      · exact kept_refl w _)
  | view x =>
    dsimp only [step]
    split
    · exact kept_newPy w hi _ _ (fun h => by cases h)
    · exact kept_refl w _
  | members x null =>
    dsimp only [step]
    split
    · refine kept_call w _ x _ (fun c => ?_)
      split
      · exact kept_newPy w hi _ _ (fun h => by cases h)
      · exact kept_make w hi _ _ _ _ _
    · exact kept_refl w _
  | next x more =>
    dsimp only [step]
    split
    · rename_i h
      split
      · exact kept_refl w _
      · rename_i hp
        refine kept_destroy w _ x (fun h => ?_)
        rw [hi.null x hp] at h
        cases h
      · rename_i c hp
        split
        · exact kept_refl w _
        · split
          · unfold World.element
            split
            · exact kept_make w hi _ _ _ _ _
            · exact kept_make w hi _ _ _ _ _
            · exact kept_make w hi _ _ _ _ _
            · exact kept_refl w _
            · exact kept_refl w _
          · rename_i hm
            have : more = false := by cases more <;> simp_all
            subst this
            refine kept_destroy w _ x (fun hh => .inr (.inl ⟨?_, rfl⟩))
            rcases h.2 with h | h | h | h
            · exact h
            all_goals (rw [h] at hh; cases hh)
    · exact kept_refl w _
  | use x =>
    dsimp only [step]
    split
    · exact kept_call w _ x _ (fun _ => kept_refl w _)
    · exact kept_refl w _
  | del x =>
    dsimp only [step]
    split
    · exact kept_destroy w _ x (fun _ => .inl rfl)
    · exact kept_refl w _
  | rollback x found =>
    dsimp only [step]
    split
    · rename_i h
      obtain ⟨hx, hk⟩ := h
      obtain ⟨h1, h2⟩ := destroy_inv hi hx
      obtain ⟨sk, sp, spt, sn, _, _⟩ := destroy_same w x
      refine kept_call w _ x _ (fun c => ?_)
      rw [h2]
      simp only [Bool.false_eq_true, if_false]
      obtain ⟨ra, rk⟩ := root_anc h1 (x + 1) x (by omega) (by omega)
      have base := kept_destroy w (.rollback x false) x (fun _ => .inr (.inr rfl))
      generalize hw1 : (w.destroy x).1 = w1 at *
      generalize rootIn w1.obj (x + 1) x = r at *
      have rx : r ≠ x := by rintro rfl; rw [sk] at rk; rw [rk] at hk; rcases hk with e | e <;> cases e
      have raw : Anc w r x := anc_of (fun i => (sp i).symm) ra
      have rl : r < w.n := by have := anc_le hi raw; omega
      split
      · rename_i d hd
        split
        · rename_i hf; subst hf; exact base
        · have hrs : Safe w1 r := by
            intro z hz _
            cases hz with
            | refl => rw [hd]; exact fun e => by cases e
            | up hp _ =>
              have := h1.parent r _ hp
              rw [(h1.top r this.2).1 rk] at hp
              cases hp
          rw [h1.live r d hrs hd]
          simp only [Bool.false_eq_true, if_false]
          have hn : ((w1.newC (some d) none).setPtr x (some (some w1.m))).n = w1.n := rfl
          refine ⟨by omega, fun y hy => by rw [setPtr_kind]; exact sk y, fun y hy => by rw [setPtr_parent]; exact sp y, fun y hy hk hp => ?_⟩
          rw [setPtr_ptr] at hp
          split at hp
          · cases hp
          · rename_i e
            have hp : (w1.obj y).ptr = none := hp
            rw [spt y e] at hp
            exact .inl ⟨by omega, hp⟩
      · rename_i hd
        have hrn : (w.obj r).ptr = none := by
          rw [← spt r rx]
          cases hq : (w1.obj r).ptr with
          | none => rfl
          | some q =>
            cases q with
            | none => rw [h1.null r hq] at rk; cases rk
            | some d => exact absurd hq (hd d)
        refine ⟨base.more, base.kind, base.parent, fun y hy hk hp => ?_⟩
        by_cases e : y = x
        · subst e
          exact .inr (.inr (.inr (.inr ⟨r, raw, rl, hx, by rw [← sk]; exact rk, hrn⟩)))
        · rw [spt y e] at hp
          have hy : y < w1.n := hy
          exact .inl ⟨by omega, hp⟩
    · exact kept_refl w _

/-- What made `z` lose its pointer. -/
def Lost (w : World) (past : List Event) (z : Nat) : Prop := .del z ∈ past ∨ ((w.obj z).kind = .results ∧ .next z false ∈ past) ∨ .rollback z false ∈ past

def Why (w : World) (past : List Event) : Prop :=
  ∀ y, y < w.n → (w.obj y).kind.holds = true → (w.obj y).ptr = none → ∃ z, Anc w z y ∧ z < w.n ∧ Lost w past z

theorem anc_kept {w w' : World} {e : Event} (hi : Inv w) (hk : Kept w e w') {z y : Nat} (h : Anc w z y) : y < w.n → Anc w' z y := by
  induction h with
  | refl => exact fun _ => .refl _
  | up hp _ ih => intro hy; exact .up (by rw [hk.parent _ hy]; exact hp) (ih (by have := hi.parent _ _ hp; omega))

theorem why_step {w : World} (hi : Inv w) {past : List Event} (h : Why w past) (e : Event) : Why (step w e).1 (past ++ [e]) := by
  have hk := step_kept hi e
  generalize (step w e).1 = w' at *
  have old : ∀ y, y < w.n → (w.obj y).kind.holds = true → (w.obj y).ptr = none → ∃ z, Anc w' z y ∧ z < w'.n ∧ Lost w' (past ++ [e]) z := by
    intro y hy hh hp
    obtain ⟨z, hz, hzl, hl⟩ := h y hy hh hp
    refine ⟨z, anc_kept hi hk hz hy, by have := hk.more; omega, ?_⟩
    rcases hl with hl | ⟨h1, h2⟩ | hl
    · exact .inl (List.mem_append_left _ hl)
    · exact .inr (.inl ⟨by rw [hk.kind z hzl]; exact h1, List.mem_append_left _ h2⟩)
    · exact .inr (.inr (List.mem_append_left _ hl))
  have last : e ∈ past ++ [e] := List.mem_append_right _ (List.mem_singleton.2 rfl)
  intro y hy hh hp
  rcases hk.lost y hy hh hp with ⟨h1, h2⟩ | h1 | ⟨h1, h2⟩ | h1 | ⟨r, ha, hr, hyl, hrk, hrp⟩
  · exact old y h1 (by rw [← hk.kind y h1]; exact hh) h2
  · subst h1; exact ⟨y, .refl y, hy, .inl last⟩
  · subst h2; exact ⟨y, .refl y, hy, .inr (.inl ⟨h1, last⟩)⟩
  · subst h1; exact ⟨y, .refl y, hy, .inr (.inr last)⟩
  · obtain ⟨z, hz, hzl, hl⟩ := old r hr (by rw [hrk]; rfl) hrp
    exact ⟨z, anc_trans hz (anc_kept hi hk ha hyl), hzl, hl⟩

theorem why_run {w : World} {past : List Event} : ∀ {es : List Event}, Inv w → AllClean w es → Why w past → Why (run w es) (past ++ es)
  | [], _, _, h => by rw [List.append_nil]; exact h
  | e :: es, hi, hc, h => by
    have := why_run (es := es) (step_inv hi e hc.1).1 hc.2 (why_step hi h e)
    rw [List.append_assoc] at this
    exact this

theorem kept_safe {es : List Event} (hc : AllClean .empty es) {x : Nat} (h : ∀ y, Anc (run .empty es) y x → Keeps (run .empty es) es y) : Safe (run .empty es) x := by
  have hi := run_inv empty_inv hc
  intro y hy hk hp
  have hw : Why .empty [] := fun y hy => absurd hy (Nat.not_lt_zero _)
  obtain ⟨z, hz, _, hl⟩ := why_run empty_inv hc hw y (lt_of_kind hi hk) hk hp
  rw [List.nil_append] at hl
  obtain ⟨k1, k2, k3⟩ := h z (anc_trans hz hy)
  rcases hl with hl | ⟨h1, h2⟩ | hl
  · exact k1 hl
  · exact k2 h1 h2
  · exact k3 hl

/-! ## Nothing is left -/

def Rooted (w : World) : Prop := ∀ c, c < w.m → w.owner c = none → w.freed c = true ∨ ∃ d, (w.obj d).kind = .database ∧ (w.obj d).ptr = some (some c)

theorem rooted_newPy {w : World} (hi : Inv w) (h : Rooted w) (o : Obj) : Rooted (w.newPy o) := by
  intro c hc ho
  rcases h c hc ho with h | ⟨d, hd, hp⟩
  · exact .inl h
  · refine .inr ⟨d, ?_⟩
    have hl := lt_of_kind hi (by rw [hd]; rfl : (w.obj d).kind.holds = true)
    have : (w.newPy o).obj d = w.obj d := by
      show (if d = w.n then o else w.obj d) = _
      rw [if_neg (by omega)]
    rw [this]
    exact ⟨hd, hp⟩

theorem rooted_make {w : World} (hi : Inv w) (h : Rooted w) (k : Kind) (p a : Nat) (g : Option Nat) : Rooted (w.make k p a g).1 := by
  intro c hc ho
  have ho : (if c = w.m then some a else w.owner c) = none := ho
  have hc : c < w.m + 1 := hc
  split at ho
  · cases ho
  · rename_i e
    rcases h c (by omega) ho with h | ⟨d, hd, hp⟩
    · refine .inl ?_
      show (if c = w.m then false else w.freed c) = true
      rw [if_neg e]; exact h
    · refine .inr ⟨d, ?_⟩
      have hl := lt_of_kind hi (by rw [hd]; rfl : (w.obj d).kind.holds = true)
      have : (w.make k p a g).1.obj d = w.obj d := by
        show (if d = w.n then _ else w.obj d) = _
        rw [if_neg (by omega)]
      rw [this]
      exact ⟨hd, hp⟩

theorem rooted_destroy {w : World} (hi : Inv w) (h : Rooted w) (x : Nat) : Rooted (w.destroy x).1 := by
  obtain ⟨sk, sp, spt, sn, sm, so⟩ := destroy_same w x
  have fr : ∀ c, w.freed c = true → (w.destroy x).1.freed c = true := by
    intro c hc
    unfold World.destroy
    split
    · exact hc
    · exact hc
    · split
      · exact (free_freed hi _ c).2 (.inl hc)
      · exact hc
  intro c hc ho
  rw [sm] at hc
  rw [so] at ho
  rcases h c hc ho with h | ⟨d, hd, hp⟩
  · exact .inl (fr c h)
  · by_cases e : d = x
    · subst e
      have ha : w.alive d = true := by
        unfold World.alive aliveIn
        rw [hd, hp]; rfl
      refine .inl ?_
      unfold World.destroy
      rw [hd, if_pos ha, hp]
      exact (free_freed hi c c).2 (.inr (.refl c))
    · exact .inr ⟨d, by rw [sk]; exact hd, by rw [spt d e]; exact hp⟩

theorem rooted_call {w : World} (h : Rooted w) (x : Nat) {k : Nat → World × Out} (hk : ∀ c, Rooted (k c).1) : Rooted (w.call x k).1 := by
  unfold World.call
  split
  · exact h
  · exact h
  · split
    · exact h
    · exact hk _

theorem rooted_step {w : World} (hi : Inv w) (h : Rooted w) (e : Event) : Rooted (step w e).1 := by
  cases e with
  | open_ =>
    dsimp only [step]
    intro c hc ho
    have hc : c < w.m + 1 := hc
    by_cases e : c = w.m
    · subst e
      refine .inr ⟨w.n, ?_⟩
      have : ((w.newC none none).newPy ⟨.database, none, some (some w.m)⟩).obj w.n = ⟨.database, none, some (some w.m)⟩ := by
        show (if w.n = w.n then _ else w.obj w.n) = _
        rw [if_pos rfl]
      rw [this]
      exact ⟨rfl, rfl⟩
    · have ho : (if c = w.m then none else w.owner c) = none := ho
      rw [if_neg e] at ho
      rcases h c (by omega) ho with h | ⟨d, hd, hp⟩
      · refine .inl ?_
        show (if c = w.m then false else w.freed c) = true
        rw [if_neg e]; exact h
      · refine .inr ⟨d, ?_⟩
        have hl := lt_of_kind hi (by rw [hd]; rfl : (w.obj d).kind.holds = true)
        have : ((w.newC none none).newPy ⟨.database, none, some (some w.m)⟩).obj d = w.obj d := by
          show (if d = w.n then _ else w.obj d) = _
          rw [if_neg (by omega)]
        rw [this]
        exact ⟨hd, hp⟩
  | query x =>
    dsimp only [step]
    split
    · exact rooted_call h x (fun c => rooted_make hi h _ _ _ _)
    · exact h
  | messages x =>
    dsimp only [step]
    split
    · exact rooted_call h x (fun c => rooted_make hi h _ _ _ _)
    · exact h
  | threads x =>
    dsimp only [step]
    split
    · exact rooted_call h x (fun c => rooted_make hi h _ _ _ _)
    · exact h
  | find x =>
    dsimp only [step]
    split
    · exact rooted_call h x (fun c => rooted_make hi h _ _ _ _)
    · exact h
  | leaf x =>
    dsimp only [step]
    split
    · exact rooted_call h x (fun c => rooted_make hi h _ _ _ _)
    · exact h
  | view x =>
    dsimp only [step]
    split
    · exact rooted_newPy hi h _
    · exact h
  | members x null =>
    dsimp only [step]
    split
    · refine rooted_call h x (fun c => ?_)
      split
      · exact rooted_newPy hi h _
      · exact rooted_make hi h _ _ _ _
    · exact h
  | next x more =>
    dsimp only [step]
    split
    · split
      · exact h
      · exact rooted_destroy hi h x
      · split
        · exact h
        · split
          · unfold World.element
            split
            · exact rooted_make hi h _ _ _ _
            · exact rooted_make hi h _ _ _ _
            · exact rooted_make hi h _ _ _ _
            · exact h
            · exact h
          · exact rooted_destroy hi h x
    · exact h
  | use x =>
    dsimp only [step]
    split
    · exact rooted_call h x (fun _ => h)
    · exact h
  | del x =>
    dsimp only [step]
    split
    · exact rooted_destroy hi h x
    · exact h
  | rollback x found =>
    dsimp only [step]
    split
    · rename_i hx
      have h1 := rooted_destroy hi h x
      obtain ⟨sk, sp, spt, sn, _, _⟩ := destroy_same w x
      refine rooted_call h x (fun c => ?_)
      split
      · exact h1
      · split
        · split
          · exact h1
          · split
            · exact h1
            · rename_i d _ _ _
              intro c hc ho
              generalize (w.destroy x).1 = w1 at *
              have ho : (if c = w1.m then some d else w1.owner c) = none := ho
              have hc : c < w1.m + 1 := hc
              split at ho
              · cases ho
              · rename_i e
                rcases h1 c (by omega) ho with h | ⟨b, hb, hp⟩
                · refine .inl ?_
                  show (if c = w1.m then false else w1.freed c) = true
                  rw [if_neg e]; exact h
                · refine .inr ⟨b, by rw [setPtr_kind]; exact hb, ?_⟩
                  rw [setPtr_ptr, if_neg]
                  · exact hp
                  · rintro rfl
                    rw [sk] at hb
                    rw [hb] at hx
                    rcases hx.2 with e | e <;> cases e
        · exact h1
    · exact h

theorem rooted_run {w : World} : ∀ {es : List Event}, Inv w → AllClean w es → Rooted w → Rooted (run w es)
  | [], _, _, h => h
  | e :: es, hi, hc, h => rooted_run (es := es) (step_inv hi e hc.1).1 hc.2 (rooted_step hi h e)

theorem all_freed {w : World} (hi : Inv w) (h : Rooted w) (hd : ∀ x, (w.obj x).kind = .database → (w.obj x).ptr = none) : ∀ (f c : Nat), c < f → c < w.m → w.freed c = true
  | 0, c, h, _ => by omega
  | f + 1, c, hf, hc => by
    cases ho : w.owner c with
    | none =>
      rcases h c hc ho with h | ⟨d, h1, h2⟩
      · exact h
      · rw [hd d h1] at h2; cases h2
    | some a =>
      have := hi.older c a ho
      exact hi.closed c a ho (all_freed hi h hd f a (by omega) (by omega))

end Notmuch.Py
