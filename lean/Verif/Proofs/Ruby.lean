import Verif.Spec.Ruby

namespace Notmuch.Ruby

/-- Something of kind `k`, made for `x`, is above `r`. -/
def Up (s : State) (r : Nat) (k : Kind) (x : Nat) : Prop :=
  ∃ (a : Nat) (va : Val), From s a r ∧ s.vals[a]? = some va ∧ va.kind = k ∧ va.made = some x

def Home (s : State) (m t : Nat) : Prop := ∃ o : CObj, s.objs[m]? = some o ∧ o.home = some t

def InThread (s : State) (r m : Nat) : Prop := ∃ t, Up s r .thread t ∧ Home s m t

structure ObjOk (s : State) (r : Nat) (v : Val) (c : Nat) (o : CObj) : Prop where
  owner : o.owner = .wrapper r
  alive : v.data ≠ none → o.alive = true
  data : ∀ x, v.data = some x → x = some c
  kind : o.kind = v.kind
  db : ∀ d, o.notmuch = some d → needs v.kind .database = true ∧ Up s r .database d
  query : ∀ q, o.query = some q → v.kind = .threads ∧ Up s r .query q
  list : ∀ x, o.list = some x → v.kind = .messages ∧ (Up s r .thread x ∨
    ∃ (a : Nat) (va : Val), v.origin = some a ∧ s.vals[a]? = some va ∧ va.kind = .message ∧ va.made = some x)
  iter : ∀ l, o.iter = some l → v.kind = .messages ∧ ∀ m ∈ l, InThread s r m
  listsT : v.kind = .thread → ∀ l ∈ o.lists, ∀ m ∈ l, Home s m c
  listsM : v.kind = .message → ∀ l ∈ o.lists, ∀ m ∈ l, InThread s r m

structure HomeOk (s : State) (m : Nat) (o : CObj) (t : Nat) : Prop where
  kind : o.kind = .message
  thr : ∃ ot : CObj, s.objs[t]? = some ot ∧ ot.kind = .thread
  plain : o.query = none ∧ o.list = none ∧ o.iter = none
  lists : ∀ l ∈ o.lists, ∀ m' ∈ l, Home s m' t
  db : ∀ (a : Nat) (va : Val), s.vals[a]? = some va → va.made = some t → ∀ d, o.notmuch = some d → Up s a .database d
  free : Unseen s m → o.owner = .object t ∧ (live s t = true → o.alive = true)

structure Inv (s : State) : Prop where
  inj : ∀ (r r' : Nat) (v v' : Val) (c : Nat), s.vals[r]? = some v → s.vals[r']? = some v' → v.made = some c → v'.made = some c → r = r'
  vals : ∀ (r : Nat) (v : Val) (c : Nat), s.vals[r]? = some v → v.made = some c → ∃ o : CObj, s.objs[c]? = some o ∧ ObjOk s r v c o
  null : ∀ (r : Nat) (v : Val) (x : Option Nat), s.vals[r]? = some v → v.made = none → v.data = some x → x = none
  home : ∀ (m : Nat) (o : CObj) (t : Nat), s.objs[m]? = some o → o.home = some t → HomeOk s m o t
  loops : ∀ lp ∈ s.loops, ∃ v : Val, s.vals[lp.val]? = some v ∧ v.made = some lp.obj ∧ (v.kind = .messages ∨ v.kind = .threads)

theorem inv_init : Inv State.init where
  inj := by intro r r' v v' c h; simp [State.init] at h
  vals := by intro r v c h; simp [State.init] at h
  null := by intro r v x h; simp [State.init] at h
  home := by intro r v x h; simp [State.init] at h
  loops := by intro lp h; simp [State.init] at h

/-! ## What does not change -/

/-- The values and objects of `s` are in `t`, but for what may change. -/
structure Ext (s t : State) : Prop where
  vals : ∀ {r : Nat} {v : Val}, s.vals[r]? = some v → ∃ v' : Val, t.vals[r]? = some v' ∧ v'.kind = v.kind ∧ v'.origin = v.origin ∧ v'.made = v.made
  objs : ∀ {c : Nat} {o : CObj}, s.objs[c]? = some o → ∃ o' : CObj, t.objs[c]? = some o' ∧ o'.kind = o.kind ∧ o'.home = o.home

theorem From.ext {s t : State} (h : Ext s t) {a r : Nat} (f : From s a r) : From t a r := by
  induction f with
  | one hv ho =>
    obtain ⟨v', h1, h2, h3, h4⟩ := h.vals hv
    exact .one h1 (h3.trans ho)
  | more _ _ ih1 ih2 => exact .more ih1 ih2

theorem Up.ext {s t : State} (h : Ext s t) {r : Nat} {k : Kind} {x : Nat} (u : Up s r k x) : Up t r k x := by
  obtain ⟨a, va, h1, h2, h3, h4⟩ := u
  obtain ⟨v', g1, g2, g3, g4⟩ := h.vals h2
  exact ⟨a, v', h1.ext h, g1, g2.trans h3, g4.trans h4⟩

theorem Home.ext {s t : State} (h : Ext s t) {m x : Nat} (u : Home s m x) : Home t m x := by
  obtain ⟨o, h1, h2⟩ := u
  obtain ⟨o', g1, g2, g3⟩ := h.objs h1
  exact ⟨o', g1, g3.trans h2⟩

theorem InThread.ext {s t : State} (h : Ext s t) {r m : Nat} (u : InThread s r m) : InThread t r m := by
  obtain ⟨x, h1, h2⟩ := u
  exact ⟨x, h1.ext h, h2.ext h⟩

/-- Of a value with the same history. -/
theorem ObjOk.ext {s t : State} (h : Ext s t) {r : Nat} {v v' : Val} {c : Nat} {o o' : CObj} (H : ObjOk s r v c o)
    (hk : v'.kind = v.kind) (ho : v'.origin = v.origin) (hd : v'.data = v.data ∨ v'.data = none)
    (howner : o'.owner = o.owner) (halive : v'.data ≠ none → o.alive = true → o'.alive = true)
    (hok : o'.kind = o.kind) (hn : o'.notmuch = o.notmuch) (hq : o'.query = o.query) (hl : o'.list = o.list)
    (hls : o'.lists = o.lists) (hi : ∀ l, o'.iter = some l → ∃ l0, o.iter = some l0 ∧ ∀ m ∈ l, m ∈ l0) : ObjOk t r v' c o' where
  owner := howner.trans H.owner
  alive := by
    intro hd'
    apply halive hd'
    apply H.alive
    rcases hd with hd | hd
    · rw [← hd]; exact hd'
    · exact absurd hd hd'
  data := by
    intro x hx
    rcases hd with hd | hd
    · exact H.data x (hd ▸ hx)
    · rw [hd] at hx; cases hx
  kind := by rw [hok, hk]; exact H.kind
  db := by
    intro d hd'
    obtain ⟨h1, h2⟩ := H.db d (hn ▸ hd')
    exact ⟨hk ▸ h1, h2.ext h⟩
  query := by
    intro d hd'
    obtain ⟨h1, h2⟩ := H.query d (hq ▸ hd')
    exact ⟨hk ▸ h1, h2.ext h⟩
  list := by
    intro x hx
    obtain ⟨h1, h2⟩ := H.list x (hl ▸ hx)
    refine ⟨hk ▸ h1, ?_⟩
    rcases h2 with h2 | ⟨a, va, g1, g2, g3, g4⟩
    · exact .inl (h2.ext h)
    · obtain ⟨v2, k1, k2, k3, k4⟩ := h.vals g2
      exact .inr ⟨a, v2, ho.trans g1, k1, k2.trans g3, k4.trans g4⟩
  iter := by
    intro l hl'
    obtain ⟨l0, h1, h2⟩ := hi l hl'
    obtain ⟨g1, g2⟩ := H.iter l0 h1
    exact ⟨hk ▸ g1, fun m hm => (g2 m (h2 m hm)).ext h⟩
  listsT := by
    intro hk' l hl' m hm
    exact (H.listsT (hk ▸ hk') l (hls ▸ hl') m hm).ext h
  listsM := by
    intro hk' l hl' m hm
    exact (H.listsM (hk ▸ hk') l (hls ▸ hl') m hm).ext h

/-! ## Freeing -/

theorem kill_objs (s : State) (p) (c : Nat) :
    (kill s p).objs[c]? = (s.objs[c]?).map (fun o => if p c o then { o with alive := false } else o) := by
  simp [kill, List.getElem?_mapIdx]

theorem kill_get {s : State} {p} {c : Nat} {o : CObj} (h : s.objs[c]? = some o) :
    (kill s p).objs[c]? = some (if p c o then { o with alive := false } else o) := by
  rw [kill_objs, h]; rfl

/-- Objects are freed, and the data of one value is cleared. -/
structure Freed (s t : State) (r0 : Nat) : Prop where
  vals : ∀ r : Nat, t.vals[r]? = (s.vals[r]?).map (fun v => if r0 = r then { v with data := none } else v)
  objs : ∃ p : Nat → CObj → Bool, (∀ c : Nat, t.objs[c]? = (s.objs[c]?).map (fun o => if p c o then { o with alive := false } else o)) ∧
    (∀ (r : Nat) (v : Val) (c : Nat) (o : CObj), s.vals[r]? = some v → v.made = some c → s.objs[c]? = some o → r ≠ r0 → p c o = false) ∧
    (∀ (m : Nat) (o : CObj) (t : Nat) (ot : CObj), Unseen s m → s.objs[m]? = some o → o.home = some t → o.owner = .object t → s.objs[t]? = some ot → p m o = true → p t ot = true)
  loops : ∀ lp ∈ t.loops, lp ∈ s.loops

theorem inv_freed {s t : State} {r0 : Nat} (I : Inv s) (F : Freed s t r0) : Inv t := by
  obtain ⟨p, hp, hp1, hp2⟩ := F.objs
  have hv : ∀ {r : Nat} {v' : Val}, t.vals[r]? = some v' → ∃ v, s.vals[r]? = some v ∧ v' = if r0 = r then { v with data := none } else v := by
    intro r v' h
    rw [F.vals] at h
    cases hs : s.vals[r]? with
    | none => rw [hs] at h; cases h
    | some v => rw [hs] at h; exact ⟨v, rfl, (Option.some.inj h).symm⟩
  have ho : ∀ {c : Nat} {o' : CObj}, t.objs[c]? = some o' → ∃ o : CObj, s.objs[c]? = some o ∧ o' = if p c o then { o with alive := false } else o := by
    intro c o' h
    rw [hp] at h
    cases hs : s.objs[c]? with
    | none => rw [hs] at h; cases h
    | some o => rw [hs] at h; exact ⟨o, rfl, (Option.some.inj h).symm⟩
  have E : Ext s t := by
    refine ⟨fun {r v} h => ?_, fun {c o} h => ?_⟩
    · refine ⟨if r0 = r then { v with data := none } else v, by rw [F.vals, h]; rfl, ?_⟩
      split <;> exact ⟨rfl, rfl, rfl⟩
    · refine ⟨if p c o then { o with alive := false } else o, by rw [hp, h]; rfl, ?_⟩
      split <;> exact ⟨rfl, rfl⟩
  have hm : ∀ {r : Nat} {v' : Val}, t.vals[r]? = some v' → ∃ v, s.vals[r]? = some v ∧ v'.made = v.made ∧ v'.kind = v.kind ∧ v'.origin = v.origin ∧
      (v'.data = v.data ∨ v'.data = none) ∧ (r = r0 → v'.data = none) := by
    intro r v' h
    obtain ⟨v, h1, h2⟩ := hv h
    refine ⟨v, h1, ?_⟩
    subst h2
    split
    · exact ⟨rfl, rfl, rfl, .inr rfl, fun _ => rfl⟩
    · rename_i hne
      exact ⟨rfl, rfl, rfl, .inl rfl, fun h => absurd h.symm hne⟩
  refine ⟨?_, ?_, ?_, ?_, ?_⟩
  · intro r r' v v' c h1 h2 h3 h4
    obtain ⟨w, g1, g2, _⟩ := hm h1
    obtain ⟨w', g1', g2', _⟩ := hm h2
    exact I.inj r r' w w' c g1 g1' (g2 ▸ h3) (g2' ▸ h4)
  · intro r v c h1 h3
    obtain ⟨w, g1, g2, g3, g4, g5, g6⟩ := hm h1
    obtain ⟨o, k1, k2⟩ := I.vals r w c g1 (g2 ▸ h3)
    have hr : v.data ≠ none → p c o = false := fun hd => hp1 r w c o g1 (g2 ▸ h3) k1 (fun h => hd (g6 h))
    have hgo : ∀ b : Bool, (v.data ≠ none → b = false) → ObjOk t r v c (if b then { o with alive := false } else o) := by
      intro b hb
      cases b with
      | false => exact k2.ext E g3 g4 g5 rfl (fun _ h => h) rfl rfl rfl rfl rfl (fun l hl => ⟨l, hl, fun m h => h⟩)
      | true => exact k2.ext E g3 g4 g5 rfl (fun h => absurd (hb h) (by decide)) rfl rfl rfl rfl rfl (fun l hl => ⟨l, hl, fun m h => h⟩)
    exact ⟨if p c o then { o with alive := false } else o, by rw [hp, k1]; rfl, hgo _ hr⟩
  · intro r v x h1 h2 h3
    obtain ⟨w, g1, g2, g3, g4, g5, g6⟩ := hm h1
    rcases g5 with g5 | g5
    · exact I.null r w x g1 (g2 ▸ h2) (g5 ▸ h3)
    · rw [g5] at h3; cases h3
  · intro m o' x h1 h2
    obtain ⟨o, g1, g2⟩ := ho h1
    have hx : o.home = some x := by rw [g2] at h2; revert h2; split <;> exact id
    have H := I.home m o x g1 hx
    have hU : Unseen t m → Unseen s m := by
      intro hu v hv' hmade
      obtain ⟨r, hr⟩ := List.getElem?_of_mem hv'
      obtain ⟨v', k1, k2, k3, k4⟩ := E.vals hr
      exact hu v' (List.mem_of_getElem? k1) (k4.trans hmade)
    refine ⟨?_, ?_, ?_, ?_, ?_, ?_⟩
    · rw [g2]; split <;> exact H.kind
    · obtain ⟨ot, k1, k2⟩ := H.thr
      obtain ⟨o2, l1, l2, _⟩ := E.objs k1
      exact ⟨o2, l1, l2.trans k2⟩
    · rw [g2]; split <;> exact H.plain
    · have : o'.lists = o.lists := by rw [g2]; split <;> rfl
      rw [this]
      exact fun l hl m' hm' => (H.lists l hl m' hm').ext E
    · intro a va k1 k2 d hd
      obtain ⟨w, l1, l2, _⟩ := hm k1
      refine (H.db a w l1 (l2 ▸ k2) d ?_).ext E
      rw [g2] at hd; revert hd; split <;> exact id
    · intro hu
      obtain ⟨f1, f2⟩ := H.free (hU hu)
      refine ⟨by rw [g2]; split <;> exact f1, fun hl => ?_⟩
      obtain ⟨ot, k1, k2⟩ := H.thr
      have hpt : p x ot = false ∧ ot.alive = true := by
        unfold live at hl
        rw [hp, k1] at hl
        simp only [Option.map_some, Option.any_some] at hl
        cases hq : p x ot with
        | false => rw [hq] at hl; exact ⟨rfl, hl⟩
        | true => rw [hq] at hl; cases hl
      have hpm : p m o = false := by
        cases hq : p m o with
        | false => rfl
        | true => rw [hp2 m o x ot (hU hu) g1 hx f1 k1 hq] at hpt; cases hpt.1
      rw [g2, hpm]
      apply f2
      unfold live
      rw [k1]
      exact hpt.2
  · intro lp hlp
    obtain ⟨v, h1, h2, h3⟩ := I.loops lp (F.loops lp hlp)
    obtain ⟨v', g1, g2, g3, g4⟩ := E.vals h1
    exact ⟨v', g1, g4.trans h2, g2 ▸ h3⟩

theorem clear_get (s : State) (r0 r : Nat) :
    (clear s r0).vals[r]? = (s.vals[r]?).map (fun v => if r0 = r then { v with data := none } else v) := by
  unfold clear
  rw [List.getElem?_modify]
  rfl

/-- Collecting a value. -/
theorem inv_gc {s : State} (I : Inv s) (r : Nat) : Inv (clear (freeWrapper s r) r) := by
  refine inv_freed I ⟨fun r' => by rw [clear_get]; rfl, ⟨_, fun c => kill_objs s _ c, ?_, ?_⟩, fun lp h => h⟩
  · intro r' v c o h1 h2 h3 hne
    obtain ⟨o', g1, g2⟩ := I.vals r' v c h1 h2
    cases h3.symm.trans g1
    have : ownedBy s r c = false := by
      unfold ownedBy
      rw [h3]
      simp only [Option.any_some, g2.owner]
      exact beq_false_of_ne (fun h => hne (Owner.wrapper.inj h))
    rw [this, g2.owner]
    rfl
  · intro m o t ot hu h1 h2 h3 h4 h5
    have : ownedBy s r m = false := by
      unfold ownedBy
      rw [h1, Option.any_some, h3]
      rfl
    rw [this, h3] at h5
    simp only [Bool.false_or] at h5
    rw [h5]
    rfl

theorem inv_destroy {s : State} (I : Inv s) {r : Nat} {v : Val} {c : Nat} (hv : s.vals[r]? = some v) (hm : v.made = some c) (L : List Nat) :
    Inv (clear (freeWrapper { freeObj s c with locks := L } r) r) := by
  refine inv_freed I ⟨fun r' => by rw [clear_get]; rfl,
    ⟨fun i o => (i == c || o.owner == .object c) || (ownedBy s r i || (match o.owner with | .object c => ownedBy s r c | _ => false)), fun i => ?_, ?_, ?_⟩, fun lp h => h⟩
  · have hob : ∀ x, ownedBy { freeObj s c with locks := L } r x = ownedBy s r x := by
      intro x
      unfold ownedBy freeObj
      show Option.any _ (kill s _).objs[x]? = _
      rw [kill_objs]
      cases s.objs[x]? with
      | none => rfl
      | some o => simp only [Option.map_some, Option.any_some]; split <;> rfl
    show (kill { freeObj s c with locks := L } _).objs[i]? = _
    rw [kill_objs]
    show Option.map _ ((kill s _).objs[i]?) = _
    rw [kill_objs]
    cases s.objs[i]? with
    | none => rfl
    | some o =>
      simp only [Option.map_some, Option.some.injEq, hob]
      have key : ∀ b : Bool, (if (ownedBy s r i || (match (if b = true then { o with alive := false } else o).owner with | .object c => ownedBy s r c | _ => false)) = true
          then { (if b = true then { o with alive := false } else o) with alive := false } else (if b = true then { o with alive := false } else o)) =
          if (b || (ownedBy s r i || (match o.owner with | .object c => ownedBy s r c | _ => false))) = true then { o with alive := false } else o := by
        intro b
        cases b with
        | false => simp
        | true => simp
      exact key _
  · intro r' v' c' o h1 h2 h3 hne
    obtain ⟨o', g1, g2⟩ := I.vals r' v' c' h1 h2
    cases h3.symm.trans g1
    have hc : c' ≠ c := fun h => hne (I.inj r' r v' v c h1 hv (h ▸ h2) hm)
    have : ownedBy s r c' = false := by
      unfold ownedBy
      rw [h3]
      simp only [Option.any_some, g2.owner]
      exact beq_false_of_ne (fun h => hne (Owner.wrapper.inj h))
    dsimp only
    rw [this, g2.owner, beq_false_of_ne hc]
    rfl
  · intro m o t ot hu h1 h2 h3 h4 h5
    have hmc : (m == c) = false := beq_false_of_ne (fun h => hu v (List.mem_of_getElem? hv) (h ▸ hm))
    have : ownedBy s r m = false := by
      unfold ownedBy
      rw [h1, Option.any_some, h3]
      rfl
    dsimp only at h5 ⊢
    rw [this, h3, hmc] at h5
    simp only [Bool.false_or, Bool.or_eq_true, beq_iff_eq, Owner.object.injEq] at h5
    rcases h5 with h5 | h5
    · subst h5; simp
    · rw [h5]; simp

end Notmuch.Ruby
