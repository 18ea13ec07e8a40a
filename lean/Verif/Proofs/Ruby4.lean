import Verif.Proofs.Ruby3

namespace Notmuch.Ruby

theorem good_next {s : State} (I : Inv s) {lp : Loop} {rest : List Loop} (hl : s.loops = lp :: rest) (K : Kept s lp.val) (hd : ∃ v, s.vals[lp.val]? = some v ∧ v.data ≠ none)
    (hu : ∀ m, (if lp.started then (restOf s lp.obj).tail else restOf s lp.obj).head? = some m → Unseen s m) (sh : Shape) : Good (step s (.next sh)) := by
  obtain ⟨v, hv, hm, hk⟩ := I.loops lp (by rw [hl]; simp)
  obtain ⟨v', hv', hd⟩ := hd
  cases hv.symm.trans hv'
  obtain ⟨o, hc, O⟩ := I.vals lp.val v lp.obj hv hm
  have ht := touch_of I K hv hm hd hc O
  have I1 : Inv { s with loops := ⟨lp.val, lp.obj, true⟩ :: rest } := by
    refine inv_misc I rfl rfl ?_
    intro lp' h
    rcases List.mem_cons.1 h with h | h
    · subst h
      exact ⟨v, hv, hm, hk⟩
    · exact I.loops lp' (by rw [hl]; exact List.mem_cons_of_mem _ h)
  have hdb : ∀ (t : State), Ext s t → ∀ w : Val, w.origin = some lp.val → t.vals[s.vals.length]? = some w → ∀ x, o.notmuch = some x → Up t s.vals.length .database x :=
    fun t E w ho hw x hx => up_new E hw ho (O.db x hx).2
  have hext : ∀ {t : State}, Ext { s with loops := ⟨lp.val, lp.obj, true⟩ :: rest } t → Ext s t := fun E => ⟨E.vals, E.objs⟩
  unfold step
  rw [hl]
  dsimp only
  rw [if_pos ht, hc]
  dsimp only
  split
  · exact good_thread I1 o.notmuch sh (fun t E w ho hw x hx => hdb t (hext E) w ho hw x hx)
  · exact good_message I1 _ o.notmuch (fun t E w ho hw x hx => hdb t (hext E) w ho hw x hx)
  · rename_i l hl' hkind
    obtain ⟨hvk, hin⟩ := O.iter l hl'
    have hr : restOf s lp.obj = l := by unfold restOf; rw [hc]; show (o.iter).getD [] = l; rw [hl']; rfl
    rw [hr] at hu
    have hsub : ∀ m ∈ (if lp.started = true then l.tail else l), m ∈ l := by
      intro m hm'
      split at hm'
      · exact List.mem_of_mem_tail hm'
      · exact hm'
    have hmod : s.objs.modify lp.obj (fun o => { o with iter := some (if lp.started = true then l.tail else l) }) =
        s.objs.modify lp.obj (fun o => { o with iter := (o.iter).map (fun l => if lp.started = true then l.tail else l) }) := by
      apply List.ext_getElem?
      intro i
      rw [List.getElem?_modify, List.getElem?_modify]
      by_cases hi : lp.obj = i
      · subst hi
        rw [hc]
        simp [hl']
      · cases s.objs[i]? with
        | none => rfl
        | some o => simp [hi]
    have I2 := inv_iter I1 lp.obj (fun x => x.map (fun l => if lp.started = true then l.tail else l)) (by
      intro x l' h
      cases x with
      | none => cases h
      | some l0 =>
        cases h
        refine ⟨l0, rfl, fun m hm' => ?_⟩
        split at hm'
        · exact List.mem_of_mem_tail hm'
        · exact hm')
    have E2 : Ext s { s with loops := ⟨lp.val, lp.obj, true⟩ :: rest, objs := s.objs.modify lp.obj (fun o => { o with iter := (o.iter).map (fun l => if lp.started = true then l.tail else l) }) } := by
      refine ⟨fun {r v} h => ⟨v, h, rfl, rfl, rfl⟩, fun {c o} h => ?_⟩
      refine ⟨if lp.obj = c then { o with iter := (o.iter).map (fun l => if lp.started = true then l.tail else l) } else o, ?_, ?_⟩
      · show (s.objs.modify _ _)[_]? = _
        rw [List.getElem?_modify, h]
        rfl
      · split <;> exact ⟨rfl, rfl⟩
    rw [hmod]
    cases hl2 : (if lp.started = true then l.tail else l) with
    | nil =>
      refine inv_misc I2 rfl rfl ?_
      intro lp' h
      exact I.loops lp' (by rw [hl]; exact List.mem_cons_of_mem _ h)
    | cons m l2 =>
      have hm1 : InThread s lp.val m := hin m (hsub m (by rw [hl2]; simp))
      have hm2 : Unseen s m := hu m (by rw [hl2]; rfl)
      obtain ⟨hlive, _⟩ := live_unseen I K hv hvk hm1 hm2
      obtain ⟨x, hx1, om, hom, hhome⟩ := hm1
      have H := I.home m om x hom hhome
      have hne : lp.obj ≠ m := fun h => hm2 v (List.mem_of_getElem? hv) (h ▸ hm)
      have hom2 : (s.objs.modify lp.obj (fun o => { o with iter := (o.iter).map (fun l => if lp.started = true then l.tail else l) }))[m]? = some om := by
        rw [List.getElem?_modify, hom]
        simp [hne]
      dsimp only
      unfold wrap
      dsimp only
      rw [if_pos (by unfold live; rw [show ({ s with loops := ⟨lp.val, lp.obj, true⟩ :: rest, objs := s.objs.modify lp.obj (fun o => { o with iter := (o.iter).map (fun l => if lp.started = true then l.tail else l) }) } : State).objs[m]? = _ from hom2]; unfold live at hlive; rw [hom] at hlive; exact hlive)]
      refine inv_wrap I2 ⟨.message, some (some m), some lp.val, some m⟩ m om _ hom2 hm2 rfl ?_ ?_
      · intro t Et hw
        have E : Ext s t := by
          refine ⟨fun {r v} h => ?_, fun {c o} h => ?_⟩
          · exact Et.vals (r := r) (v := v) h
          · obtain ⟨o1, g1, g2, g3⟩ := E2.objs h
            obtain ⟨o2, k1, k2, k3⟩ := Et.objs g1
            exact ⟨o2, k1, k2.trans g2, k3.trans g3⟩
        refine ⟨rfl, fun _ => ?_, fun x h => (Option.some.inj h).symm, H.kind, ?_, ?_, ?_, ?_, (fun h => by cases h), ?_⟩
        · unfold live at hlive; rw [hom] at hlive; exact hlive
        · intro d hd'
          obtain ⟨a, va, g1, g2, g3, g4⟩ := hx1
          obtain ⟨b, vb, k1, k2, k3, k4⟩ := H.db a va g2 g4 d hd'
          exact ⟨rfl, up_new E hw rfl ⟨b, vb, .more g1 k1, k2, k3, k4⟩⟩
        · intro q hq; rw [show _ = none from H.plain.1] at hq; cases hq
        · intro q hq; rw [show _ = none from H.plain.2.1] at hq; cases hq
        · intro q hq; rw [show _ = none from H.plain.2.2] at hq; cases hq
        · intro _ l' hl'' m' hm'
          exact ⟨x, up_new E hw rfl hx1, (H.lists l' hl'' m' hm').ext E⟩
      · intro t Et hw m' om' h1 h2
        obtain ⟨ot, k1, k2⟩ := (I2.home m' om' m h1 h2).thr
        rw [show ({ s with loops := ⟨lp.val, lp.obj, true⟩ :: rest, objs := s.objs.modify lp.obj (fun o => { o with iter := (o.iter).map (fun l => if lp.started = true then l.tail else l) }) } : State).objs[m]? = _ from hom2] at k1
        cases k1
        rw [H.kind] at k2
        cases k2

theorem good_step {s : State} (I : Inv s) (e : Event) (C : Careful1 s e) : Good (step s e) := by
  cases e with
  | «open» w =>
    unfold step
    have G : Good (make s none { kind := .database, owner := .wrapper 0 }) := by
      apply good_make I _ _ rfl rfl
      intro t E hw
      exact ⟨rfl, fun _ => rfl, fun x h => (Option.some.inj h).symm, rfl, (fun d h => by cases h), (fun d h => by cases h), (fun d h => by cases h), (fun d h => by cases h),
        (fun h => by cases h), (fun h => by cases h)⟩
    cases hm : make s none { kind := .database, owner := .wrapper 0 } with
    | ok s' =>
      rw [hm] at G
      have G : Inv s' := G
      dsimp only
      split
      · exact inv_misc G rfl rfl G.loops
      · exact G
    | raised s' => rw [hm] at G; exact G
    | crash => rw [hm] at G; exact G
    | invalid => trivial
  | query r =>
    apply good_onObj I C
    intro v c o hv hd hk hm hc O
    have hk := List.mem_singleton.1 hk
    apply good_make I _ _ rfl rfl
    intro t E hw
    have hs := up_self E hw rfl hv hm
    rw [hk] at hs
    exact ⟨rfl, fun _ => rfl, fun x h => (Option.some.inj h).symm, rfl, (fun d h => by cases h; exact ⟨rfl, hs⟩), (fun d h => by cases h), (fun d h => by cases h), (fun d h => by cases h),
      (fun h => by cases h), (fun h => by cases h)⟩
  | directory r =>
    apply good_onObj I C
    intro v c o hv hd hk hm hc O
    have hk := List.mem_singleton.1 hk
    apply good_make I _ _ rfl rfl
    intro t E hw
    have hs := up_self E hw rfl hv hm
    rw [hk] at hs
    exact ⟨rfl, fun _ => rfl, fun x h => (Option.some.inj h).symm, rfl, (fun d h => by cases h; exact ⟨rfl, hs⟩), (fun d h => by cases h), (fun d h => by cases h), (fun d h => by cases h),
      (fun h => by cases h), (fun h => by cases h)⟩
  | findMessage r =>
    apply good_onObj I C
    intro v c o hv hd hk hm hc O
    have hk := List.mem_singleton.1 hk
    apply good_message I
    intro t E w ho hw x hx
    cases hx
    have hs := up_self E hw ho hv hm
    rw [hk] at hs
    exact hs
  | searchThreads r =>
    apply good_onObj I C
    intro v c o hv hd hk hm hc O
    have hk := List.mem_singleton.1 hk
    apply good_make I _ _ rfl rfl
    intro t E hw
    have hs := up_self E hw rfl hv hm
    rw [hk] at hs
    exact ⟨rfl, fun _ => rfl, fun x h => (Option.some.inj h).symm, rfl, (fun d h => ⟨rfl, up_new E hw rfl (O.db d h).2⟩), (fun d h => by cases h; exact ⟨rfl, hs⟩),
      (fun d h => by cases h), (fun d h => by cases h), (fun h => by cases h), (fun h => by cases h)⟩
  | searchMessages r =>
    apply good_onObj I C
    intro v c o hv hd hk hm hc O
    apply good_make I _ _ rfl rfl
    intro t E hw
    exact ⟨rfl, fun _ => rfl, fun x h => (Option.some.inj h).symm, rfl, (fun d h => ⟨rfl, up_new E hw rfl (O.db d h).2⟩), (fun d h => by cases h),
      (fun d h => by cases h), (fun d h => by cases h), (fun h => by cases h), (fun h => by cases h)⟩
  | listOf r i =>
    apply good_onObj I C
    intro v c o hv hd hk hm hc O
    have hk := List.mem_singleton.1 hk
    split
    · exact I
    · apply good_iterOver I hv hm (.inl hk)
      intro m hm'
      obtain ⟨l, h1, h2⟩ := getD_mem hm'
      exact .inl ⟨hk, O.listsT hk l h1 m h2⟩
  | replies r =>
    apply good_onObj I C
    intro v c o hv hd hk hm hc O
    have hk := List.mem_singleton.1 hk
    apply good_iterOver I hv hm (.inr hk)
    intro m hm'
    obtain ⟨l, h1, h2⟩ := getD_mem hm'
    exact .inr (O.listsM hk l h1 m h2)
  | tags r =>
    apply good_onObj I C.1
    intro v c o hv hd hk hm hc O
    have hk := List.mem_singleton.1 hk
    have hall : (o.iter.getD []).all (touch s) = true := by
      apply List.all_eq_true.2
      intro m hm'
      cases hi : o.iter with
      | none => rw [hi] at hm'; cases hm'
      | some l =>
        rw [hi] at hm'
        have hin := (O.iter l hi).2 m hm'
        have hdata : v.data = some (some c) := by
          cases hd' : v.data with
          | none => exact absurd hd' hd
          | some x => rw [O.data x hd']
        have hu : Unseen s m := C.2 v c hv hdata m (by unfold restOf; rw [hc]; show m ∈ o.iter.getD []; rw [hi]; exact hm')
        exact (live_unseen I C.1 hv hk hin hu).2
    rw [if_pos hall]
    refine inv_iter I c (fun x => x.map (fun _ => [])) ?_
    intro x l h
    cases x with
    | none => cases h
    | some l0 => cases h; exact ⟨l0, rfl, (fun m h => by cases h)⟩
  | call r =>
    apply good_onObj I C
    intro v c o hv hd hk hm hc O
    exact I
  | each r =>
    apply good_onObj I C
    intro v c o hv hd hk hm hc O
    refine inv_misc I rfl rfl ?_
    intro lp h
    rcases List.mem_cons.1 h with h | h
    · subst h
      refine ⟨v, hv, hm, ?_⟩
      simpa using hk
    · exact I.loops lp h
  | next sh =>
    cases hl : s.loops with
    | nil => unfold step; rw [hl]; trivial
    | cons lp rest =>
      obtain ⟨h1, h2, h3⟩ := C lp (by rw [hl]; rfl)
      exact good_next I hl h1 h2 h3 sh
  | leave => exact inv_misc I rfl rfl (fun lp h => I.loops lp (List.mem_of_mem_tail h))
  | close r =>
    apply good_onObj I C
    intro v c o hv hd hk hm hc O
    exact inv_misc I rfl rfl I.loops
  | destroy r =>
    apply good_withObj I
    intro v hv hd hk
    cases hm : v.made with
    | none => exact inv_gc I r
    | some c =>
      obtain ⟨o, hc, O⟩ := I.vals r v c hv hm
      dsimp only
      rw [if_pos (by unfold live; rw [hc]; exact O.alive hd)]
      exact inv_destroy I hv hm _
  | drop r => exact inv_misc I rfl rfl I.loops
  | gc r =>
    unfold step
    dsimp only
    split
    · trivial
    · cases hv : s.vals[r]? with
      | none => trivial
      | some v =>
        dsimp only
        cases v.data with
        | none => exact I
        | some x => exact inv_gc I r

theorem run_safe {s : State} (I : Inv s) (es : List Event) (C : Careful s es) : run s es ≠ .crash := by
  induction es generalizing s with
  | nil => exact fun h => by cases h
  | cons e es ih =>
    have G := good_step I e C.1
    have C2 := C.2
    unfold run
    cases hs : step s e with
    | ok s' => rw [hs] at G C2; exact ih G C2
    | raised s' => rw [hs] at G C2; exact ih G C2
    | crash => rw [hs] at G; exact G.elim
    | invalid => exact fun h => by cases h

end Notmuch.Ruby
