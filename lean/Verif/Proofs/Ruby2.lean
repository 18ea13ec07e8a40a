import Verif.Proofs.Ruby

namespace Notmuch.Ruby

theorem append_get {α : Type} {l l' : List α} {i : Nat} {w : α} (h : (l ++ l')[i]? = some w) :
    l[i]? = some w ∨ (l.length ≤ i ∧ l'[i - l.length]? = some w) := by
  rw [List.getElem?_append] at h
  split at h
  · exact .inl h
  · rename_i hn
    exact .inr ⟨Nat.not_lt.1 hn, h⟩

theorem append_old {α : Type} {l l' : List α} {i : Nat} {w : α} (h : l[i]? = some w) : (l ++ l')[i]? = some w := by
  rw [List.getElem?_append_left]
  · exact h
  · exact (List.getElem?_eq_some_iff.1 h).1

theorem lt_of_get {α : Type} {l : List α} {i : Nat} {w : α} (h : l[i]? = some w) : i < l.length := (List.getElem?_eq_some_iff.1 h).1

/-- Loops, references and locks do not matter. -/
theorem inv_misc {s t : State} (I : Inv s) (hv : t.vals = s.vals) (ho : t.objs = s.objs)
    (hl : ∀ lp ∈ t.loops, ∃ v : Val, s.vals[lp.val]? = some v ∧ v.made = some lp.obj ∧ (v.kind = .messages ∨ v.kind = .threads)) : Inv t := by
  have E : Ext s t := ⟨fun {r v} h => ⟨v, by rw [hv]; exact h, rfl, rfl, rfl⟩, fun {c o} h => ⟨o, by rw [ho]; exact h, rfl, rfl⟩⟩
  refine ⟨?_, ?_, ?_, ?_, ?_⟩
  · rw [hv]; exact I.inj
  · rw [hv, ho]
    intro r v c h1 h2
    obtain ⟨o, g1, g2⟩ := I.vals r v c h1 h2
    exact ⟨o, g1, g2.ext E rfl rfl (.inl rfl) rfl (fun _ h => h) rfl rfl rfl rfl rfl (fun l hl => ⟨l, hl, fun m h => h⟩)⟩
  · rw [hv]; exact I.null
  · rw [ho]
    intro m o x h1 h2
    have H := I.home m o x h1 h2
    refine ⟨H.kind, by rw [ho]; exact H.thr, H.plain, fun l hl m' hm => (H.lists l hl m' hm).ext E, ?_, ?_⟩
    · rw [hv]; exact fun a va k1 k2 d hd => (H.db a va k1 k2 d hd).ext E
    · intro hu
      have := H.free (by intro v hv' h; exact hu v (by rw [hv]; exact hv') h)
      refine ⟨this.1, fun hl => this.2 ?_⟩
      unfold live at hl ⊢
      rw [ho] at hl
      exact hl
  · intro lp h
    rw [hv]
    exact hl lp h

/-- A list is shortened. -/
theorem inv_iter {s : State} (I : Inv s) (c : Nat) (g : Option (List Nat) → Option (List Nat))
    (hg : ∀ x l, g x = some l → ∃ l0, x = some l0 ∧ ∀ m ∈ l, m ∈ l0) :
    Inv { s with objs := s.objs.modify c (fun o => { o with iter := g o.iter }) } := by
  have ho : ∀ i : Nat, (s.objs.modify c (fun o => { o with iter := g o.iter }))[i]? = (s.objs[i]?).map (fun o => { o with iter := if c = i then g o.iter else o.iter }) := by
    intro i
    rw [List.getElem?_modify]
    cases s.objs[i]? with
    | none => rfl
    | some o =>
      show some _ = some _
      split <;> rfl
  have ho1 : ∀ {i : Nat} {o : CObj}, s.objs[i]? = some o →
      ({ s with objs := s.objs.modify c (fun o => { o with iter := g o.iter }) } : State).objs[i]? = some { o with iter := if c = i then g o.iter else o.iter } := by
    intro i o h
    exact (ho i).trans (by rw [h]; rfl)
  have E : Ext s { s with objs := s.objs.modify c (fun o => { o with iter := g o.iter }) } :=
    ⟨fun {r v} h => ⟨v, h, rfl, rfl, rfl⟩, fun {c o} h => ⟨_, ho1 h, rfl, rfl⟩⟩
  refine ⟨I.inj, ?_, I.null, ?_, I.loops⟩
  · intro r v i h1 h2
    obtain ⟨o, g1, g2⟩ := I.vals r v i h1 h2
    refine ⟨_, ho1 g1, g2.ext E rfl rfl (.inl rfl) rfl (fun _ h => h) rfl rfl rfl rfl rfl ?_⟩
    intro l hl
    revert hl
    dsimp only
    split
    · exact hg o.iter l
    · exact fun hl => ⟨l, hl, fun m h => h⟩
  · intro m o' x h1 h2
    have h1' : (s.objs.modify c (fun o => { o with iter := g o.iter }))[m]? = some o' := h1
    rw [ho] at h1'
    cases hs : s.objs[m]? with
    | none => rw [hs] at h1'; cases h1'
    | some o =>
      rw [hs] at h1'
      cases h1'
      have H := I.home m o x hs h2
      refine ⟨H.kind, ?_, ?_, fun l hl m' hm => (H.lists l hl m' hm).ext E, fun a va k1 k2 d hd => (H.db a va k1 k2 d hd).ext E, ?_⟩
      · obtain ⟨ot, k1, k2⟩ := H.thr
        obtain ⟨o2, l1, l2, _⟩ := E.objs k1
        exact ⟨o2, l1, l2.trans k2⟩
      · refine ⟨H.plain.1, H.plain.2.1, ?_⟩
        dsimp only
        rw [H.plain.2.2]
        split
        · cases hn : g none with
          | none => rfl
          | some l => obtain ⟨l0, h, _⟩ := hg _ _ hn; cases h
        · rfl
      · intro hu
        have := H.free hu
        refine ⟨this.1, fun hl => this.2 ?_⟩
        unfold live at hl ⊢
        rw [show ({ s with objs := s.objs.modify c (fun o => { o with iter := g o.iter }) } : State).objs[x]? = _ from ho x] at hl
        revert hl
        cases s.objs[x]? with
        | none => exact id
        | some o => exact id

/-- New objects. -/
theorem inv_add {s : State} (I : Inv s) (new : List CObj)
    (hn : ∀ i o x, new[i]? = some o → o.home = some x → HomeOk { s with objs := s.objs ++ new } (s.objs.length + i) o x) :
    Inv { s with objs := s.objs ++ new } := by
  have E : Ext s { s with objs := s.objs ++ new } := ⟨fun {r v} h => ⟨v, h, rfl, rfl, rfl⟩, fun {c o} h => ⟨o, append_old h, rfl, rfl⟩⟩
  refine ⟨I.inj, ?_, I.null, ?_, I.loops⟩
  · intro r v c h1 h2
    obtain ⟨o, g1, g2⟩ := I.vals r v c h1 h2
    exact ⟨o, append_old g1, g2.ext E rfl rfl (.inl rfl) rfl (fun _ h => h) rfl rfl rfl rfl rfl (fun l hl => ⟨l, hl, fun m h => h⟩)⟩
  · intro m o x h1 h2
    rcases append_get h1 with h1 | ⟨h0, h1⟩
    · have H := I.home m o x h1 h2
      obtain ⟨ot, k1, k2⟩ := H.thr
      refine ⟨H.kind, ⟨ot, append_old k1, k2⟩, H.plain, fun l hl m' hm => (H.lists l hl m' hm).ext E, fun a va k1 k2 d hd => (H.db a va k1 k2 d hd).ext E, ?_⟩
      intro hu
      have := H.free hu
      refine ⟨this.1, fun hl => this.2 ?_⟩
      unfold live at hl ⊢
      rw [show ({ s with objs := s.objs ++ new } : State).objs[x]? = some ot from append_old k1] at hl
      rw [k1]
      exact hl
    · have := hn _ o x h1 h2
      rw [Nat.add_sub_cancel' h0] at this
      exact this

theorem modify_owner (l : List CObj) (c : Nat) (w : Owner) (i : Nat) :
    (l.modify c (fun o => { o with owner := w }))[i]? = (l[i]?).map (fun o => { o with owner := if c = i then w else o.owner }) := by
  rw [List.getElem?_modify]
  cases l[i]? with
  | none => rfl
  | some o =>
    show some _ = some _
    split <;> rfl

/-- A value is made for an object that had none. -/
theorem inv_wrap {s : State} (I : Inv s) (v : Val) (c : Nat) (o : CObj) (held : List Nat) (hc : s.objs[c]? = some o) (hu : Unseen s c) (hm : v.made = some c)
    (hO : ∀ t : State, Ext s t → t.vals[s.vals.length]? = some v → ObjOk t s.vals.length v c { o with owner := .wrapper s.vals.length })
    (hH : ∀ t : State, Ext s t → t.vals[s.vals.length]? = some v → ∀ (m : Nat) (om : CObj), s.objs[m]? = some om → om.home = some c → ∀ d, om.notmuch = some d →
      Up t s.vals.length .database d) :
    Inv { s with objs := s.objs.modify c (fun o => { o with owner := .wrapper s.vals.length }), vals := s.vals ++ [v], held := held } := by
  have E : Ext s { s with objs := s.objs.modify c (fun o => { o with owner := .wrapper s.vals.length }), vals := s.vals ++ [v], held := held } :=
    ⟨fun {r v} h => ⟨v, append_old h, rfl, rfl, rfl⟩, fun {i o} h => ⟨{ o with owner := if c = i then .wrapper s.vals.length else o.owner },
      (modify_owner _ _ _ i).trans (by rw [h]; rfl), rfl, rfl⟩⟩
  have hnew : (s.vals ++ [v])[s.vals.length]? = some v := by simp
  have hget : ∀ {r : Nat} {w : Val}, (s.vals ++ [v])[r]? = some w → s.vals[r]? = some w ∨ (r = s.vals.length ∧ w = v) := by
    intro r w h
    rcases append_get h with h | ⟨h0, h⟩
    · exact .inl h
    · refine .inr ?_
      cases hd : r - s.vals.length with
      | zero => rw [hd] at h; exact ⟨by omega, (Option.some.inj h).symm⟩
      | succ n => rw [hd] at h; cases h
  refine ⟨?_, ?_, ?_, ?_, ?_⟩
  · intro r r' w w' i h1 h2 h3 h4
    rcases hget h1 with j1 | ⟨j1, j1'⟩ <;> rcases hget h2 with j2 | ⟨j2, j2'⟩
    · exact I.inj r r' w w' i j1 j2 h3 h4
    · subst j2'
      rw [hm] at h4
      cases h4
      exact absurd h3 (hu w (List.mem_of_getElem? j1))
    · subst j1'
      rw [hm] at h3
      cases h3
      exact absurd h4 (hu w' (List.mem_of_getElem? j2))
    · rw [j1, j2]
  · intro r w i h1 h2
    rcases hget h1 with j1 | ⟨j1, j1'⟩
    · obtain ⟨oi, g1, g2⟩ := I.vals r w i j1 h2
      have hne : c ≠ i := fun h => hu w (List.mem_of_getElem? j1) (h ▸ h2)
      refine ⟨oi, by show (s.objs.modify _ _)[_]? = _; rw [modify_owner, g1]; simp [hne], ?_⟩
      exact g2.ext E rfl rfl (.inl rfl) rfl (fun _ h => h) rfl rfl rfl rfl rfl (fun l hl => ⟨l, hl, fun m h => h⟩)
    · subst j1'
      rw [hm] at h2
      cases h2
      refine ⟨{ o with owner := .wrapper s.vals.length }, by show (s.objs.modify _ _)[_]? = _; rw [modify_owner, hc]; simp, ?_⟩
      rw [j1]
      exact hO _ E hnew
  · intro r w x h1 h2 h3
    rcases hget h1 with j1 | ⟨j1, j1'⟩
    · exact I.null r w x j1 h2 h3
    · subst j1'
      rw [hm] at h2
      cases h2
  · intro m o' x h1 h2
    have h1' : (s.objs.modify c (fun o => { o with owner := .wrapper s.vals.length }))[m]? = some o' := h1
    rw [modify_owner] at h1'
    cases hs : s.objs[m]? with
    | none => rw [hs] at h1'; cases h1'
    | some om =>
      rw [hs] at h1'
      cases h1'
      have H := I.home m om x hs h2
      refine ⟨H.kind, ?_, H.plain, fun l hl m' hm => (H.lists l hl m' hm).ext E, ?_, ?_⟩
      · obtain ⟨ot, k1, k2⟩ := H.thr
        obtain ⟨o2, l1, l2, _⟩ := E.objs k1
        exact ⟨o2, l1, l2.trans k2⟩
      · intro a va k1 k2 d hd
        rcases hget k1 with j1 | ⟨j1, j1'⟩
        · exact (H.db a va j1 k2 d hd).ext E
        · subst j1'
          rw [hm] at k2
          cases k2
          rw [j1]
          exact hH _ E hnew m om hs h2 d hd
      · intro hun
        have hne : c ≠ m := fun h => hun v (by show v ∈ s.vals ++ [v]; simp) (h ▸ hm)
        have := H.free (by intro w hw h; exact hun w (by show w ∈ s.vals ++ [v]; simp [hw]) h)
        refine ⟨by dsimp only; rw [if_neg hne]; exact this.1, fun hl => this.2 ?_⟩
        unfold live at hl ⊢
        rw [show ({ s with objs := s.objs.modify c (fun o => { o with owner := .wrapper s.vals.length }), vals := s.vals ++ [v], held := held } : State).objs[x]? = _
          from modify_owner _ _ _ x] at hl
        revert hl
        cases s.objs[x]? with
        | none => exact id
        | some o => exact id
  · intro lp h
    obtain ⟨w, h1, h2⟩ := I.loops lp h
    exact ⟨w, append_old h1, h2⟩

/-- A value without an object. -/
theorem inv_wrap_none {s : State} (I : Inv s) (v : Val) (held : List Nat) (hm : v.made = none) (hd : v.data = some none) :
    Inv { s with vals := s.vals ++ [v], held := held } := by
  have E : Ext s { s with vals := s.vals ++ [v], held := held } := ⟨fun {r v} h => ⟨v, append_old h, rfl, rfl, rfl⟩, fun {c o} h => ⟨o, h, rfl, rfl⟩⟩
  have hget : ∀ {r : Nat} {w : Val}, (s.vals ++ [v])[r]? = some w → s.vals[r]? = some w ∨ w = v := by
    intro r w h
    rcases append_get h with h | ⟨h0, h⟩
    · exact .inl h
    · refine .inr ?_
      cases hd : r - s.vals.length with
      | zero => rw [hd] at h; exact (Option.some.inj h).symm
      | succ n => rw [hd] at h; cases h
  have hold : ∀ {r : Nat} {w : Val} {c : Nat}, (s.vals ++ [v])[r]? = some w → w.made = some c → s.vals[r]? = some w := by
    intro r w c h1 h2
    rcases hget h1 with h | h
    · exact h
    · rw [h, hm] at h2; cases h2
  refine ⟨?_, ?_, ?_, ?_, ?_⟩
  · intro r r' w w' i h1 h2 h3 h4
    exact I.inj r r' w w' i (hold h1 h3) (hold h2 h4) h3 h4
  · intro r w i h1 h2
    obtain ⟨oi, g1, g2⟩ := I.vals r w i (hold h1 h2) h2
    exact ⟨oi, g1, g2.ext E rfl rfl (.inl rfl) rfl (fun _ h => h) rfl rfl rfl rfl rfl (fun l hl => ⟨l, hl, fun m h => h⟩)⟩
  · intro r w x h1 h2 h3
    rcases hget h1 with h1 | h1
    · exact I.null r w x h1 h2 h3
    · rw [h1, hd] at h3
      exact (Option.some.inj h3).symm
  · intro m om x h1 h2
    have H := I.home m om x h1 h2
    refine ⟨H.kind, H.thr, H.plain, fun l hl m' hm => (H.lists l hl m' hm).ext E, fun a va k1 k2 d hd => (H.db a va (hold k1 k2) k2 d hd).ext E, ?_⟩
    exact fun hun => H.free (by intro w hw h; exact hun w (by show w ∈ s.vals ++ [v]; simp [hw]) h)
  · intro lp h
    obtain ⟨w, h1, h2⟩ := I.loops lp h
    exact ⟨w, append_old h1, h2⟩

end Notmuch.Ruby
