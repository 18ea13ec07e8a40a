import Verif.Proofs.Ruby4

namespace Notmuch.Ruby

/-- The wrapper of `r` is there. -/
def Has (s : State) (r : Nat) : Prop := ∃ v : Val, s.vals[r]? = some v ∧ v.data ≠ none

/-- All memory has an owner. -/
def Owned (s : State) : Prop := ∀ (c : Nat) (o : CObj), s.objs[c]? = some o → o.alive = true →
  (∃ r, o.owner = .wrapper r ∧ Has s r) ∨ ∃ (t : Nat) (ot : CObj), o.owner = .object t ∧ s.objs[t]? = some ot ∧ ot.alive = true ∧ ∃ r, ot.owner = .wrapper r ∧ Has s r

structure Next (s s' : State) : Prop where
  owned : Owned s → Owned s'
  gone : ∀ (r : Nat) (v : Val), s.vals[r]? = some v → v.data = none → ∃ v' : Val, s'.vals[r]? = some v' ∧ v'.data = none ∧ v'.kind = v.kind

def NextOut (s : State) : Out → Prop
  | .ok s' => Next s s'
  | .raised s' => Next s s'
  | _ => True

theorem next_same {s s' : State} (hv : s'.vals = s.vals) (ho : s'.objs = s.objs) : Next s s' := by
  refine ⟨fun h => ?_, fun r v h1 h2 => ⟨v, by rw [hv]; exact h1, h2, rfl⟩⟩
  unfold Owned Has at *
  rw [hv, ho]
  exact h

theorem Next.refl (s : State) : Next s s := next_same rfl rfl

theorem next_iter (s : State) (c : Nat) (g : CObj → Option (List Nat)) : Next s { s with objs := s.objs.modify c (fun o => { o with iter := g o }) } := by
  have ho : ∀ i : Nat, (s.objs.modify c (fun o => { o with iter := g o }))[i]? = (s.objs[i]?).map (fun o => { o with iter := if c = i then g o else o.iter }) := by
    intro i
    rw [List.getElem?_modify]
    cases s.objs[i]? with
    | none => rfl
    | some o =>
      show some _ = some _
      split <;> rfl
  refine ⟨fun h => ?_, fun r v h1 h2 => ⟨v, h1, h2, rfl⟩⟩
  intro i o' h1 h2
  have h1 : (s.objs.modify c (fun o => { o with iter := g o }))[i]? = some o' := h1
  rw [ho] at h1
  cases hs : s.objs[i]? with
  | none => rw [hs] at h1; cases h1
  | some o =>
    rw [hs] at h1
    cases h1
    rcases h i o hs h2 with h | ⟨t, ot, g1, g2, g3, g4⟩
    · exact .inl h
    · exact .inr ⟨t, { ot with iter := if c = t then g ot else ot.iter }, g1, (ho t).trans (by rw [g2]; rfl), g3, g4⟩

/-- The state after wrapping an object. -/
def wrapped (s1 : State) (k : Kind) (origin : Option Nat) (c : Nat) : State :=
  { s1 with objs := s1.objs.modify c (fun o => { o with owner := .wrapper s1.vals.length }), vals := s1.vals ++ [⟨k, some (some c), origin, some c⟩], held := s1.vals.length :: s1.held }

/-- An object is wrapped; `n` new objects came before, that are below it. -/
theorem next_wrap {s s1 : State} (k : Kind) (origin : Option Nat) (c : Nat) (hv : s1.vals = s.vals)
    (hold : ∀ i < s.objs.length, s1.objs[i]? = s.objs[i]?) (hnew : ∀ (i : Nat) (o : CObj), s.objs.length ≤ i → s1.objs[i]? = some o → i = c ∨ o.owner = .object c) :
    NextOut s (wrap s1 k origin (some c)) := by
  unfold wrap
  dsimp only
  split
  · rename_i hl
    show Next s (wrapped s1 k origin c)
    have hc : ∃ oc : CObj, s1.objs[c]? = some oc ∧ oc.alive = true := by
      unfold live at hl
      cases hx : s1.objs[c]? with
      | none => rw [hx] at hl; cases hl
      | some oc => rw [hx] at hl; exact ⟨oc, rfl, hl⟩
    refine ⟨fun H => ?_, fun r v h1 h2 => ⟨v, append_old (by rw [hv]; exact h1), h2, rfl⟩⟩
    have hhas : ∀ {r : Nat}, Has s r → Has (wrapped s1 k origin c) r := by
      rintro r ⟨v, h1, h2⟩
      exact ⟨v, append_old (by rw [hv]; exact h1), h2⟩
    have hnewv : Has (wrapped s1 k origin c) s1.vals.length :=
      ⟨⟨k, some (some c), origin, some c⟩, by simp [wrapped], (fun h => by cases h)⟩
    have hget : ∀ {i : Nat} {o : CObj}, s1.objs[i]? = some o → (wrapped s1 k origin c).objs[i]? =
        some { o with owner := if c = i then .wrapper s1.vals.length else o.owner } := by
      intro i o h
      exact (modify_owner _ _ _ i).trans (by rw [h]; rfl)
    intro i o' h1 h2
    have h1 : (s1.objs.modify c (fun o => { o with owner := .wrapper s1.vals.length }))[i]? = some o' := h1
    rw [modify_owner] at h1
    cases hs : s1.objs[i]? with
    | none => rw [hs] at h1; cases h1
    | some o =>
      rw [hs] at h1
      cases h1
      by_cases hi : c = i
      · exact .inl ⟨_, if_pos hi, hnewv⟩
      · dsimp only
        rw [if_neg hi]
        by_cases hlt : i < s.objs.length
        · rw [hold i hlt] at hs
          rcases H i o hs h2 with ⟨r, g1, g2⟩ | ⟨t, ot, g1, g2, g3, r, g4, g5⟩
          · exact .inl ⟨r, g1, hhas g2⟩
          · refine .inr ⟨t, _, g1, hget ((hold t (lt_of_get g2)).trans g2), g3, ?_⟩
            by_cases ht : c = t
            · exact ⟨_, if_pos ht, hnewv⟩
            · exact ⟨r, (if_neg ht).trans g4, hhas g5⟩
        · rcases hnew i o (Nat.not_lt.1 hlt) hs with h | h
          · exact absurd h.symm hi
          · obtain ⟨oc, k1, k2⟩ := hc
            exact .inr ⟨c, _, h, hget k1, k2, _, if_pos rfl, hnewv⟩
  · trivial

theorem next_make (s : State) (origin : Option Nat) (o : CObj) : NextOut s (make s origin o) := by
  refine next_wrap (s := s) o.kind origin s.objs.length rfl (fun i hi => ?_) (fun i o' hi h => ?_)
  · exact List.getElem?_append_left hi
  · refine .inl ?_
    rcases append_get h with h | ⟨_, h⟩
    · have := lt_of_get h; omega
    · have := lt_of_get h
      simp only [List.length_singleton] at this
      omega

theorem next_wrap_none (s : State) (k : Kind) (origin : Option Nat) : NextOut s (wrap s k origin none) := by
  refine ⟨fun H => ?_, fun r v h1 h2 => ⟨v, append_old h1, h2, rfl⟩⟩
  have hhas : ∀ {r : Nat}, Has s r → Has { s with vals := s.vals ++ [⟨k, some none, origin, none⟩], held := s.vals.length :: s.held } r := by
    rintro r ⟨v, h1, h2⟩
    exact ⟨v, append_old h1, h2⟩
  intro i o h1 h2
  rcases H i o h1 h2 with ⟨r, g1, g2⟩ | ⟨t, ot, g1, g2, g3, r, g4, g5⟩
  · exact .inl ⟨r, g1, hhas g2⟩
  · exact .inr ⟨t, ot, g1, g2, g3, r, g4, hhas g5⟩

theorem next_freed (s t : State) (r0 : Nat) (hv : ∀ r : Nat, t.vals[r]? = (s.vals[r]?).map (fun v => if r0 = r then { v with data := none } else v))
    (p : Nat → CObj → Bool) (ho : ∀ c : Nat, t.objs[c]? = (s.objs[c]?).map (fun o => if p c o then { o with alive := false } else o))
    (h1 : ∀ (c : Nat) (o : CObj), s.objs[c]? = some o → o.owner = .wrapper r0 → p c o = true)
    (h2 : ∀ (c : Nat) (o : CObj) (x : Nat) (ox : CObj) (r : Nat), s.objs[c]? = some o → o.owner = .object x → s.objs[x]? = some ox → ox.owner = .wrapper r →
      (p x ox = true ∨ r = r0) → p c o = true) : Next s t := by
  refine ⟨fun H => ?_, fun r v g1 g2 => ?_⟩
  · have hhas : ∀ {r : Nat}, Has s r → r ≠ r0 → Has t r := by
      rintro r ⟨v, g1, g2⟩ hne
      refine ⟨v, by rw [hv, g1]; simp [Ne.symm hne], g2⟩
    intro c o' g1 g2
    rw [ho] at g1
    cases hs : s.objs[c]? with
    | none => rw [hs] at g1; cases g1
    | some o =>
      rw [hs] at g1
      have hp : p c o = false ∧ o' = o := by
        cases hq : p c o with
        | true => rw [Option.map_some, hq] at g1; cases g1; cases g2
        | false => rw [Option.map_some, hq] at g1; exact ⟨rfl, (Option.some.inj g1).symm⟩
      obtain ⟨hp, rfl⟩ := hp
      rcases H c o' hs g2 with ⟨r, k1, k2⟩ | ⟨x, ox, k1, k2, k3, r, k4, k5⟩
      · refine .inl ⟨r, k1, hhas k2 ?_⟩
        intro h
        rw [h1 c o' hs (h ▸ k1)] at hp
        cases hp
      · have hpx : p x ox = false := by
          cases hq : p x ox with
          | false => rfl
          | true => rw [h2 c o' x ox r hs k1 k2 k4 (.inl hq)] at hp; cases hp
        refine .inr ⟨x, ox, k1, by rw [ho, k2, Option.map_some, hpx]; rfl, k3, r, k4, hhas k5 ?_⟩
        intro h
        rw [h2 c o' x ox r hs k1 k2 k4 (.inr h)] at hp
        cases hp
  · refine ⟨if r0 = r then { v with data := none } else v, by rw [hv, g1]; rfl, ?_⟩
    split
    · exact ⟨rfl, rfl⟩
    · exact ⟨g2, rfl⟩

theorem ownedBy_of {s : State} {r c : Nat} {o : CObj} (h : s.objs[c]? = some o) (ho : o.owner = .wrapper r) : ownedBy s r c = true := by
  unfold ownedBy
  rw [h, Option.any_some, ho]
  exact beq_self_eq_true _

theorem next_gc (s : State) (r : Nat) : Next s (clear (freeWrapper s r) r) := by
  refine next_freed s _ r (fun r' => by rw [clear_get]; rfl) _ (fun c => kill_objs s _ c) ?_ ?_
  · intro c o h1 h2
    rw [ownedBy_of h1 h2]
    rfl
  · intro c o x ox r' h1 h2 h3 h4 h5
    rw [h2]
    dsimp only
    have : r' = r := by
      rcases h5 with h5 | h5
      · rw [h4] at h5
        unfold ownedBy at h5
        rw [h3, Option.any_some, h4] at h5
        simpa using h5
      · exact h5
    subst this
    rw [ownedBy_of h3 h4, Bool.or_true]

theorem next_destroy (s : State) (r c : Nat) (L : List Nat) : Next s (clear (freeWrapper { freeObj s c with locks := L } r) r) := by
  refine next_freed s _ r (fun r' => by rw [clear_get]; rfl)
    (fun i o => (i == c || o.owner == .object c) || (ownedBy s r i || (match o.owner with | .object c => ownedBy s r c | _ => false))) (fun i => ?_) ?_ ?_
  · have hob : ∀ x, ownedBy { freeObj s c with locks := L } r x = ownedBy s r x := by
      intro x
      unfold ownedBy freeObj
      show Option.any _ (kill s _).objs[x]? = _
      rw [kill_objs]
      cases s.objs[x]? with
      | none => rfl
      | some o => simp only [Option.map_some, Option.any_some]; split <;> rfl
    show (kill { freeObj s c with locks := L } _).objs[i]? = _
    rw [kill_objs]
    show Option.map _ ((kill s _).objs[i]?) = _
    rw [kill_objs]
    cases s.objs[i]? with
    | none => rfl
    | some o =>
      simp only [Option.map_some, Option.some.injEq, hob]
      have key : ∀ b : Bool, (if (ownedBy s r i || (match (if b = true then { o with alive := false } else o).owner with | .object c => ownedBy s r c | _ => false)) = true
          then { (if b = true then { o with alive := false } else o) with alive := false } else (if b = true then { o with alive := false } else o)) =
          if (b || (ownedBy s r i || (match o.owner with | .object c => ownedBy s r c | _ => false))) = true then { o with alive := false } else o := by
        intro b
        cases b with
        | false => simp
        | true => simp
      exact key _
  · intro i o h1 h2
    rw [ownedBy_of h1 h2]
    simp
  · intro i o x ox r' h1 h2 h3 h4 h5
    rw [h2]
    dsimp only
    have : x = c ∨ r' = r := by
      rcases h5 with h5 | h5
      · rw [h4] at h5
        simp only [Bool.or_false, Bool.or_eq_true, beq_iff_eq] at h5
        rcases h5 with (h5 | h5) | h5
        · exact .inl h5
        · cases h5
        · unfold ownedBy at h5
          rw [h3, Option.any_some, h4] at h5
          exact .inr (by simpa using h5)
      · exact .inr h5
    rcases this with rfl | rfl
    · simp
    · rw [ownedBy_of h3 h4]; simp

theorem next_onObj {s : State} {r : Nat} {ks : List Kind} {f : Nat → CObj → Out} (h : ∀ c o, s.objs[c]? = some o → NextOut s (f c o)) : NextOut s (onObj s r ks f) := by
  unfold onObj withObj
  cases s.vals[r]? with
  | none => trivial
  | some v =>
    dsimp only
    split
    · cases v.data with
      | none => exact Next.refl s
      | some x =>
        cases x with
        | none => exact Next.refl s
        | some c =>
          dsimp only
          split
          · cases hc : s.objs[c]? with
            | none => trivial
            | some o => exact h c o hc
          · trivial
    · trivial

theorem next_iterOver (s : State) (r c : Nat) (l : List Nat) : NextOut s (iterOver s r c l) := by
  unfold iterOver
  split
  · exact next_wrap_none s _ _
  · exact next_make s _ _

theorem Next.trans {a b c : State} (h1 : Next a b) (h2 : Next b c) : Next a c :=
  ⟨fun h => h2.owned (h1.owned h), fun r v g1 g2 => by
    obtain ⟨v', k1, k2, k3⟩ := h1.gone r v g1 g2
    obtain ⟨v2, l1, l2, l3⟩ := h2.gone r v' k1 k2
    exact ⟨v2, l1, l2, l3.trans k3⟩⟩

theorem NextOut.after {a b : State} (h : Next a b) {out : Out} (h2 : NextOut b out) : NextOut a out := by
  cases out with
  | ok s => exact h.trans h2
  | raised s => exact h.trans h2
  | crash => trivial
  | invalid => trivial

theorem next_step (s : State) (e : Event) : NextOut s (step s e) := by
  cases e with
  | «open» w =>
    have G := next_make s none { kind := .database, owner := .wrapper 0 }
    unfold step
    cases hm : make s none { kind := .database, owner := .wrapper 0 } with
    | ok s' =>
      rw [hm] at G
      dsimp only
      split
      · exact Next.trans G (next_same rfl rfl)
      · exact G
    | raised s' => rw [hm] at G; exact G
    | crash => trivial
    | invalid => trivial
  | query r => exact next_onObj (fun c o _ => next_make s _ _)
  | directory r => exact next_onObj (fun c o _ => next_make s _ _)
  | findMessage r => exact next_onObj (fun c o _ => next_make s _ _)
  | searchThreads r => exact next_onObj (fun c o _ => next_make s _ _)
  | searchMessages r => exact next_onObj (fun c o _ => next_make s _ _)
  | listOf r i =>
    refine next_onObj (fun c o _ => ?_)
    split
    · exact Next.refl s
    · exact next_iterOver s _ _ _
  | replies r => exact next_onObj (fun c o _ => next_iterOver s _ _ _)
  | tags r =>
    refine next_onObj (fun c o _ => ?_)
    split
    · exact next_iter s c _
    · trivial
  | call r => exact next_onObj (fun c o _ => Next.refl s)
  | each r => exact next_onObj (fun c o _ => next_same rfl rfl)
  | next sh =>
    unfold step
    cases hl : s.loops with
    | nil => trivial
    | cons lp rest =>
      dsimp only
      split
      · cases hc : s.objs[lp.obj]? with
        | none => trivial
        | some o =>
          dsimp only
          have h1 : Next s { s with loops := ⟨lp.val, lp.obj, true⟩ :: rest } := next_same rfl rfl
          split
          · refine next_wrap (s := s) _ _ _ rfl (fun i hi => ?_) (fun i o' hi h => ?_)
            · exact List.getElem?_append_left hi
            · rcases append_get h with h | ⟨_, h⟩
              · exact absurd (lt_of_get h) (Nat.not_lt.2 hi)
              · cases hd : i - s.objs.length with
                | zero => exact .inl (by show i = s.objs.length; omega)
                | succ n =>
                  have h : (newThread s.objs.length sh :: threadMessages s.objs.length o.notmuch sh)[i - s.objs.length]? = some o' := h
                  rw [hd, List.getElem?_cons_succ] at h
                  unfold threadMessages at h
                  rw [List.getElem?_map] at h
                  cases hi' : sh.replies[n]? with
                  | none => rw [hi'] at h; cases h
                  | some l => rw [hi'] at h; cases h; exact .inr rfl
          · exact (next_make _ _ _).after h1
          · rename_i l hl' hkind
            have h2 := h1.trans (next_iter _ lp.obj (fun _ => some (if lp.started then l.tail else l)))
            split
            · exact h2.trans (next_same rfl rfl)
            · refine NextOut.after h2 (next_wrap _ _ _ rfl (fun i _ => rfl) (fun i o' hi h => ?_))
              exact absurd (lt_of_get h) (Nat.not_lt.2 hi)
      · trivial
  | leave => exact next_same rfl rfl
  | close r => exact next_onObj (fun c o _ => next_same rfl rfl)
  | destroy r =>
    unfold step
    dsimp only
    unfold withObj
    cases s.vals[r]? with
    | none => trivial
    | some v =>
      dsimp only
      split
      · cases v.data with
        | none => exact Next.refl s
        | some x =>
          cases x with
          | none => exact next_gc s r
          | some c =>
            dsimp only
            split
            · exact next_destroy s r c _
            · trivial
      · trivial
  | drop r => exact next_same rfl rfl
  | gc r =>
    unfold step
    dsimp only
    split
    · trivial
    · cases hv : s.vals[r]? with
      | none => trivial
      | some v =>
        dsimp only
        cases v.data with
        | none => exact Next.refl s
        | some x => exact next_gc s r

theorem next_run (s : State) (es : List Event) : NextOut s (run s es) := by
  induction es generalizing s with
  | nil => exact Next.refl s
  | cons e es ih =>
    have G := next_step s e
    unfold run
    cases hs : step s e with
    | ok s' => rw [hs] at G; exact (ih s').after G
    | raised s' => rw [hs] at G; exact (ih s').after G
    | crash => trivial
    | invalid => trivial

end Notmuch.Ruby
