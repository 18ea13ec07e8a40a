import Verif.Proofs.Ruby2

namespace Notmuch.Ruby

def Good : Out → Prop
  | .ok s => Inv s
  | .raised s => Inv s
  | .crash => False
  | .invalid => True

theorem unseen_of {s : State} {m : Nat} (h : ∀ (r : Nat) (v : Val), s.vals[r]? = some v → v.made ≠ some m) : Unseen s m := by
  intro v hv
  obtain ⟨r, hr⟩ := List.getElem?_of_mem hv
  exact h r v hr

theorem unseen_new {s : State} (I : Inv s) {n : Nat} (h : s.objs.length ≤ n) : Unseen s n := by
  refine unseen_of (fun r v hv hm => ?_)
  obtain ⟨o, h1, _⟩ := I.vals r v n hv hm
  have := lt_of_get h1
  omega

/-- The object of a value that is needed is there. -/
theorem live_of {s : State} (I : Inv s) {r : Nat} (K : Kept s r) {a : Nat} (hN : Needed s r a) {va : Val} (ha : s.vals[a]? = some va) {x : Nat} (hx : va.made = some x) :
    live s x = true := by
  obtain ⟨_, va', h1, h2⟩ := K a hN
  cases ha.symm.trans h1
  obtain ⟨o, g1, g2⟩ := I.vals a va x ha hx
  unfold live
  rw [g1]
  exact g2.alive h2

theorem live_up {s : State} (I : Inv s) {r : Nat} (K : Kept s r) {v : Val} (hv : s.vals[r]? = some v) {k : Kind} {x : Nat} (hu : Up s r k x) (hn : needs v.kind k = true) :
    live s x = true := by
  obtain ⟨a, va, h1, h2, h3, h4⟩ := hu
  exact live_of I K ⟨v, va, hv, h2, .inl ⟨h1, h3 ▸ hn⟩⟩ h2 h4

theorem touch_of {s : State} (I : Inv s) {r : Nat} (K : Kept s r) {v : Val} {c : Nat} {o : CObj} (hv : s.vals[r]? = some v) (hm : v.made = some c)
    (hd : v.data ≠ none) (hc : s.objs[c]? = some o) (O : ObjOk s r v c o) : touch s c = true := by
  unfold touch
  rw [hc]
  simp only [Bool.and_eq_true]
  refine ⟨⟨⟨O.alive hd, ?_⟩, ?_⟩, ?_⟩
  · cases hn : o.notmuch with
    | none => rfl
    | some d =>
      obtain ⟨h1, h2⟩ := O.db d hn
      exact live_up I K hv h2 h1
  · cases hn : o.query with
    | none => rfl
    | some d =>
      obtain ⟨h1, h2⟩ := O.query d hn
      exact live_up I K hv h2 (by rw [h1]; rfl)
  · cases hn : o.list with
    | none => rfl
    | some d =>
      obtain ⟨h1, h2⟩ := O.list d hn
      rcases h2 with h2 | ⟨a, va, g1, g2, g3, g4⟩
      · exact live_up I K hv h2 (by rw [h1]; rfl)
      · exact live_of I K ⟨v, va, hv, g2, .inr ⟨g1, h1, g3⟩⟩ g2 g4

theorem good_withObj {s : State} (I : Inv s) {r : Nat} {ks : List Kind} {f : Option Nat → Out}
    (h : ∀ v : Val, s.vals[r]? = some v → v.data ≠ none → v.kind ∈ ks → Good (f v.made)) : Good (withObj s r ks f) := by
  unfold withObj
  cases hv : s.vals[r]? with
  | none => trivial
  | some v =>
    dsimp only
    split
    · rename_i hk
      cases hd : v.data with
      | none => exact I
      | some x =>
        have hx : x = v.made := by
          cases hm : v.made with
          | none => exact I.null r v x hv hm hd
          | some c => exact ((I.vals r v c hv hm).choose_spec.2).data x hd
        rw [hx]
        simp only [Bool.and_eq_true, List.contains_iff_mem] at hk
        exact h v hv (by rw [hd]; exact (fun h => by cases h)) hk.2
    · trivial

theorem good_onObj {s : State} (I : Inv s) {r : Nat} (K : Kept s r) {ks : List Kind} {f : Nat → CObj → Out}
    (h : ∀ (v : Val) (c : Nat) (o : CObj), s.vals[r]? = some v → v.data ≠ none → v.kind ∈ ks → v.made = some c → s.objs[c]? = some o → ObjOk s r v c o → Good (f c o)) :
    Good (onObj s r ks f) := by
  unfold onObj
  apply good_withObj I
  intro v hv hd hk
  cases hm : v.made with
  | none => exact I
  | some c =>
    obtain ⟨o, g1, g2⟩ := I.vals r v c hv hm
    dsimp only
    rw [if_pos (touch_of I K hv hm hd g1 g2), g1]
    exact h v c o hv hd hk hm g1 g2

theorem good_make {s : State} (I : Inv s) (origin : Option Nat) (o : CObj) (hh : o.home = none) (ha : o.alive = true)
    (hO : ∀ t : State, Ext s t → t.vals[s.vals.length]? = some ⟨o.kind, some (some s.objs.length), origin, some s.objs.length⟩ →
      ObjOk t s.vals.length ⟨o.kind, some (some s.objs.length), origin, some s.objs.length⟩ s.objs.length { o with owner := .wrapper s.vals.length }) :
    Good (make s origin o) := by
  have I' : Inv { s with objs := s.objs ++ [o] } := by
    apply inv_add I
    intro i o' x h1 h2
    cases i with
    | zero => cases h1; rw [hh] at h2; cases h2
    | succ i => cases h1
  have E : Ext s { s with objs := s.objs ++ [o] } := ⟨fun {r v} h => ⟨v, h, rfl, rfl, rfl⟩, fun {c o} h => ⟨o, append_old h, rfl, rfl⟩⟩
  have hget : ({ s with objs := s.objs ++ [o] } : State).objs[s.objs.length]? = some o := by simp
  have hl : live { s with objs := s.objs ++ [o] } s.objs.length = true := by
    unfold live; rw [hget]; exact ha
  unfold make wrap
  dsimp only
  rw [if_pos hl]
  refine inv_wrap I' ⟨o.kind, some (some s.objs.length), origin, some s.objs.length⟩ s.objs.length o _ hget (unseen_new I (Nat.le_refl _)) rfl ?_ ?_
  · intro t Et hv
    refine hO t ⟨fun {r v} h => ?_, fun {c o} h => ?_⟩ hv
    · exact Et.vals (s := { s with objs := s.objs ++ [o] }) h
    · exact Et.objs (append_old h)
  · intro t Et hv m om h1 h2
    rcases append_get h1 with h1 | ⟨h0, h1⟩
    · obtain ⟨ot, k1, k2⟩ := (I.home m om _ h1 h2).thr
      exact absurd (lt_of_get k1) (Nat.lt_irrefl _)
    · cases hd : m - s.objs.length with
      | zero => rw [hd] at h1; cases h1; rw [hh] at h2; cases h2
      | succ n => rw [hd] at h1; cases h1

/-- From the value a method was called on. -/
theorem up_new {s t : State} (E : Ext s t) {r : Nat} {w : Val} (hw : t.vals[s.vals.length]? = some w) (ho : w.origin = some r) {k : Kind} {x : Nat} (h : Up s r k x) :
    Up t s.vals.length k x := by
  obtain ⟨a, va, h1, h2, h3, h4⟩ := h.ext E
  exact ⟨a, va, .more (.one hw ho) h1, h2, h3, h4⟩

theorem up_self {s t : State} (E : Ext s t) {r : Nat} {v w : Val} (hw : t.vals[s.vals.length]? = some w) (ho : w.origin = some r) (hv : s.vals[r]? = some v)
    {x : Nat} (hx : v.made = some x) : Up t s.vals.length v.kind x := by
  obtain ⟨v', g1, g2, g3, g4⟩ := E.vals hv
  exact ⟨r, v', .one hw ho, g1, g2, g4.trans hx⟩

/-- An iterator over a list of a thread or a message. -/
theorem good_iterOver {s : State} (I : Inv s) {r c : Nat} {v : Val} (hv : s.vals[r]? = some v) (hm : v.made = some c) (hk : v.kind = .thread ∨ v.kind = .message)
    {l : List Nat} (hl : ∀ m ∈ l, (v.kind = .thread ∧ Home s m c) ∨ InThread s r m) : Good (iterOver s r c l) := by
  unfold iterOver
  split
  · exact inv_wrap_none I ⟨.messages, some none, some r, none⟩ _ rfl rfl
  · apply good_make I _ _ rfl rfl
    intro t E hw
    have hs := up_self E hw rfl hv hm
    refine ⟨rfl, fun _ => rfl, fun x h => (Option.some.inj h).symm, rfl, (fun d h => by cases h), (fun d h => by cases h), ?_, ?_, (fun h => by cases h), (fun h => by cases h)⟩
    · intro x hx
      cases hx
      refine ⟨rfl, ?_⟩
      rcases hk with hk | hk
      · rw [hk] at hs; exact .inl hs
      · obtain ⟨v', g1, g2, g3, g4⟩ := E.vals hv
        exact .inr ⟨r, v', rfl, g1, g2.trans hk, g4.trans hm⟩
    · intro l' hl'
      cases hl'
      refine ⟨rfl, fun m hm' => ?_⟩
      rcases hl m hm' with ⟨h1, h2⟩ | ⟨x, h1, h2⟩
      · rw [h1] at hs
        exact ⟨c, hs, h2.ext E⟩
      · exact ⟨x, up_new E hw rfl h1, h2.ext E⟩

theorem getD_mem {α : Type} {L : List (List α)} {i : Nat} {m : α} (h : m ∈ L.getD i []) : ∃ l ∈ L, m ∈ l := by
  rw [List.getD_eq_getElem?_getD] at h
  cases hi : L[i]? with
  | none => rw [hi] at h; cases h
  | some l => rw [hi] at h; exact ⟨l, List.mem_of_getElem? hi, h⟩

/-- A message of a thread that is kept is there, until it is given out. -/
theorem live_unseen {s : State} (I : Inv s) {r : Nat} (K : Kept s r) {v : Val} (hv : s.vals[r]? = some v) (hk : v.kind = .messages) {m : Nat}
    (hi : InThread s r m) (hu : Unseen s m) : live s m = true ∧ touch s m = true := by
  obtain ⟨x, h1, o, h2, h3⟩ := hi
  have H := I.home m o x h2 h3
  have hx := live_up I K hv h1 (by rw [hk]; rfl)
  have ha := (H.free hu).2 hx
  refine ⟨by unfold live; rw [h2]; exact ha, ?_⟩
  unfold touch
  rw [h2]
  simp only [Bool.and_eq_true]
  refine ⟨⟨⟨ha, ?_⟩, by rw [H.plain.1]; rfl⟩, by rw [H.plain.2.1]; rfl⟩
  cases hn : o.notmuch with
  | none => rfl
  | some d =>
    obtain ⟨a, va, g1, g2, g3, g4⟩ := h1
    obtain ⟨b, vb, k1, k2, k3, k4⟩ := H.db a va g2 g4 d hn
    exact live_up I K hv ⟨b, vb, .more g1 k1, k2, k3, k4⟩ (by rw [hk]; rfl)

/-- A new message that is not in a thread. -/
theorem good_message {s : State} (I : Inv s) {r : Nat} (ow : Owner) (d : Option Nat)
    (hd : ∀ t : State, Ext s t → ∀ w : Val, w.origin = some r → t.vals[s.vals.length]? = some w → ∀ x, d = some x → Up t s.vals.length .database x) :
    Good (make s (some r) { kind := .message, owner := ow, notmuch := d, lists := [[]] }) := by
  apply good_make I _ _ rfl rfl
  intro t E hw
  refine ⟨rfl, fun _ => rfl, fun x h => (Option.some.inj h).symm, rfl, fun x h => ⟨rfl, hd t E _ rfl hw x h⟩, (fun d h => by cases h), (fun d h => by cases h), (fun d h => by cases h),
    (fun h => by cases h), ?_⟩
  intro _ l hl m hm
  cases List.mem_singleton.1 hl
  cases hm

/-- A new thread. -/
theorem good_thread {s : State} (I : Inv s) {r : Nat} (d : Option Nat) (sh : Shape)
    (hd : ∀ t : State, Ext s t → ∀ w : Val, w.origin = some r → t.vals[s.vals.length]? = some w → ∀ x, d = some x → Up t s.vals.length .database x) :
    Good (wrap { s with objs := s.objs ++ newThread s.objs.length sh :: threadMessages s.objs.length d sh } .thread (some r) (some s.objs.length)) := by
  have hmsg : ∀ i o, (threadMessages s.objs.length d sh)[i]? = some o → i < sh.replies.length ∧ o.home = some s.objs.length ∧ o.kind = .message ∧ o.query = none ∧ o.list = none ∧
      o.iter = none ∧ o.notmuch = d ∧ o.owner = .object s.objs.length ∧ o.alive = true ∧ ∀ l ∈ o.lists, ∀ m ∈ l, s.objs.length + 1 ≤ m ∧ m < s.objs.length + 1 + sh.replies.length := by
    intro i o h
    unfold threadMessages at h
    rw [List.getElem?_map] at h
    cases hi : sh.replies[i]? with
    | none => rw [hi] at h; cases h
    | some l =>
      rw [hi] at h
      cases h
      refine ⟨lt_of_get hi, rfl, rfl, rfl, rfl, rfl, rfl, rfl, rfl, ?_⟩
      intro l' hl' m hm
      cases List.mem_singleton.1 hl'
      obtain ⟨j, hj, rfl⟩ := List.mem_map.1 hm
      have := (List.mem_filter.1 hj).2
      simp only [decide_eq_true_eq] at this
      omega
  have hlen : (threadMessages s.objs.length d sh).length = sh.replies.length := by simp [threadMessages]
  have hex : ∀ m, s.objs.length + 1 ≤ m → m < s.objs.length + 1 + sh.replies.length →
      ∃ o, (s.objs ++ newThread s.objs.length sh :: threadMessages s.objs.length d sh)[m]? = some o ∧ o.home = some s.objs.length := by
    intro m h1 h2
    obtain ⟨i, rfl⟩ := Nat.le.dest h1
    have hi : i < (threadMessages s.objs.length d sh).length := by omega
    refine ⟨_, ?_, (hmsg i _ (List.getElem?_eq_getElem hi)).2.1⟩
    rw [List.getElem?_append_right (by omega)]
    rw [show s.objs.length + 1 + i - s.objs.length = i + 1 by omega, List.getElem?_cons_succ]
    exact List.getElem?_eq_getElem hi
  have hget : (s.objs ++ newThread s.objs.length sh :: threadMessages s.objs.length d sh)[s.objs.length]? = some (newThread s.objs.length sh) := by
    rw [List.getElem?_append_right (Nat.le_refl _), Nat.sub_self]; rfl
  have I' : Inv { s with objs := s.objs ++ newThread s.objs.length sh :: threadMessages s.objs.length d sh } := by
    apply inv_add I
    intro i o x h1 h2
    cases i with
    | zero => cases h1; cases h2
    | succ i =>
      rw [List.getElem?_cons_succ] at h1
      obtain ⟨g0, g1, g2, g3, g4, g5, g6, g7, g8, g9⟩ := hmsg i o h1
      cases g1.symm.trans h2
      refine ⟨g2, ⟨_, hget, rfl⟩, ⟨g3, g4, g5⟩, fun l hl m hm => hex m (g9 l hl m hm).1 (g9 l hl m hm).2, ?_, fun _ => ⟨g7, fun _ => g8⟩⟩
      intro a va k1 k2
      exact absurd k2 (unseen_new I (Nat.le_refl _) va (List.mem_of_getElem? k1))
  have hl : live { s with objs := s.objs ++ newThread s.objs.length sh :: threadMessages s.objs.length d sh } s.objs.length = true := by
    unfold live
    rw [show ({ s with objs := s.objs ++ newThread s.objs.length sh :: threadMessages s.objs.length d sh } : State).objs[s.objs.length]? = _ from hget]
    rfl
  have hext : ∀ {t : State}, Ext { s with objs := s.objs ++ newThread s.objs.length sh :: threadMessages s.objs.length d sh } t → Ext s t := by
    intro t Et
    refine ⟨fun {r v} h => ?_, fun {c o} h => ?_⟩
    · exact Et.vals (s := { s with objs := s.objs ++ newThread s.objs.length sh :: threadMessages s.objs.length d sh }) h
    · exact Et.objs (append_old h)
  unfold wrap
  dsimp only
  rw [if_pos hl]
  refine inv_wrap I' ⟨.thread, some (some s.objs.length), some r, some s.objs.length⟩ s.objs.length _ _ hget (unseen_new I (Nat.le_refl _)) rfl ?_ ?_
  · intro t Et hv
    refine ⟨rfl, fun _ => rfl, fun x h => (Option.some.inj h).symm, rfl, (fun x h => by cases h), (fun d h => by cases h), (fun d h => by cases h), (fun d h => by cases h), ?_, (fun h => by cases h)⟩
    intro _ l hl' m hm
    have hb : s.objs.length + 1 ≤ m ∧ m < s.objs.length + 1 + sh.replies.length := by
      simp only [newThread, List.mem_cons, List.not_mem_nil, or_false] at hl'
      rcases hl' with h | h <;> subst h
      · obtain ⟨j, hj, rfl⟩ := List.mem_map.1 hm
        have := List.mem_range.1 hj
        omega
      · obtain ⟨j, hj, rfl⟩ := List.mem_map.1 hm
        have := (List.mem_filter.1 hj).2
        simp only [decide_eq_true_eq] at this
        omega
    exact Home.ext Et (hex m hb.1 hb.2)
  · intro t Et hv m om h1 h2 x hx
    rcases append_get h1 with h1 | ⟨h0, h1⟩
    · obtain ⟨ot, k1, k2⟩ := (I.home m om _ h1 h2).thr
      exact absurd (lt_of_get k1) (Nat.lt_irrefl _)
    · cases hd' : m - s.objs.length with
      | zero => rw [hd'] at h1; cases h1; cases h2
      | succ n =>
        rw [hd', List.getElem?_cons_succ] at h1
        obtain ⟨g0, g1, g2, g3, g4, g5, g6, g7, g8, g9⟩ := hmsg n om h1
        exact hd t (hext Et) _ rfl hv x (g6 ▸ hx)

end Notmuch.Ruby
