import Verif.Spec.ShowBuf

namespace Notmuch.ShowBufProofs
open Notmuch.ShowBuf Notmuch.ShowBufSpec

variable {ι τ γ : Type} [DecidableEq ι] [DecidableEq τ]

/-! ### Movement -/

theorem gotoNext_msgs (b : Buf ι τ) : (gotoNext b).1.msgs = b.msgs := by
  unfold gotoNext; split <;> rfl

theorem gotoPrevious_msgs (b : Buf ι τ) : (gotoPrevious b).1.msgs = b.msgs := by
  unfold gotoPrevious; split <;> rfl

theorem nextMessage_msgs (b : Buf ι τ) : (nextMessage b).msgs = b.msgs := by
  unfold nextMessage
  dsimp only
  split
  · exact gotoNext_msgs b
  · rfl

theorem previousMessage_msgs (b : Buf ι τ) : (previousMessage b).msgs = b.msgs := by
  unfold previousMessage
  split
  · exact gotoPrevious_msgs b
  · rfl

theorem nextWhere_msgs (p : Msg ι τ → Bool) : ∀ (n : Nat) (b : Buf ι τ), (nextWhere p n b).1.msgs = b.msgs
  | 0, _ => rfl
  | n + 1, b => by
    unfold nextWhere
    dsimp only
    split
    · rw [nextWhere_msgs p n, gotoNext_msgs]
    · exact gotoNext_msgs b

theorem nextThat_msgs (p : Msg ι τ → Bool) (b : Buf ι τ) : (nextThat p b).1.msgs = b.msgs := by
  unfold nextThat
  dsimp only
  split
  · exact nextWhere_msgs p _ b
  · exact nextWhere_msgs p _ b

/-- Where the loop ends. -/
theorem nextWhere_spec (p : Msg ι τ → Bool) : ∀ (n : Nat) (b : Buf ι τ), b.msgs.length ≤ cur b + n → 0 < b.msgs.length →
    (∃ j m, cur b < j ∧ b.msgs[j]? = some m ∧ p m = true ∧ (∀ k x, cur b < k → k < j → b.msgs[k]? = some x → p x = false) ∧
      nextWhere p n b = ({ b with pos := .top j }, true)) ∨
    ((∀ k x, cur b < k → b.msgs[k]? = some x → p x = false) ∧ (nextWhere p n b).2 = false)
  | 0, b, h, _ => by
    right
    refine ⟨?_, rfl⟩
    intro k x hk hx
    have := (List.getElem?_eq_some_iff.1 hx).1
    omega
  | n + 1, b, h, h0 => by
    unfold nextWhere
    dsimp only
    by_cases hl : cur b + 1 < b.msgs.length
    · have g : gotoNext b = ({ b with pos := .top (cur b + 1) }, true) := by unfold gotoNext; rw [if_pos hl]
      obtain ⟨m, hm⟩ : ∃ m, b.msgs[cur b + 1]? = some m := ⟨_, List.getElem?_eq_getElem hl⟩
      have hc : cur ({ b with pos := .top (cur b + 1) } : Buf ι τ) = cur b + 1 := rfl
      rw [g]
      dsimp only
      rw [hc, hm]
      cases hp : p m with
      | true =>
        left
        refine ⟨cur b + 1, m, by omega, hm, hp, ?_, ?_⟩
        · intro k x h1 h2 _; omega
        · simp [hp]
      | false =>
        have ih := nextWhere_spec p n ({ b with pos := .top (cur b + 1) } : Buf ι τ) (by rw [hc]; dsimp only; omega) h0
        rw [hc] at ih
        dsimp only at ih
        simp only [Option.map_some, Option.getD_some, hp, Bool.not_false, Bool.and_self, if_true]
        have first : ∀ k x, cur b < k → k ≤ cur b + 1 → b.msgs[k]? = some x → p x = false := by
          intro k x h1 h2 hx
          have : k = cur b + 1 := by omega
          subst this
          rw [hm] at hx
          cases hx
          exact hp
        rcases ih with ⟨j, x, hj, hx, hpx, hlt, e⟩ | ⟨hn, e⟩
        · left
          refine ⟨j, x, by omega, hx, hpx, ?_, e⟩
          intro k y h1 h2 hy
          rcases Nat.lt_or_ge (cur b + 1) k with h | h
          · exact hlt k y h h2 hy
          · exact first k y h1 h hy
        · right
          refine ⟨?_, e⟩
          intro k y h1 hy
          rcases Nat.lt_or_ge (cur b + 1) k with h | h
          · exact hn k y h hy
          · exact first k y h1 h hy
    · have g : gotoNext b = (b, false) := by unfold gotoNext; rw [if_neg hl]
      rw [g]
      right
      refine ⟨?_, by simp⟩
      intro k x h1 hx
      have := (List.getElem?_eq_some_iff.1 hx).1
      omega

theorem nextThat_spec (p : Msg ι τ → Bool) (b : Buf ι τ) (h0 : 0 < b.msgs.length) :
    (∃ j m, cur b < j ∧ b.msgs[j]? = some m ∧ p m = true ∧ (∀ k x, cur b < k → k < j → b.msgs[k]? = some x → p x = false) ∧
      nextThat p b = ({ b with pos := .top j }, true)) ∨
    ((∀ k x, cur b < k → b.msgs[k]? = some x → p x = false) ∧ nextThat p b = ({ b with pos := .eob }, false)) := by
  rcases nextWhere_spec p b.msgs.length b (by omega) h0 with ⟨j, m, h1, h2, h3, h4, e⟩ | ⟨h, e⟩
  · left
    refine ⟨j, m, h1, h2, h3, h4, ?_⟩
    unfold nextThat
    dsimp only
    rw [e]
    rfl
  · right
    refine ⟨h, ?_⟩
    unfold nextThat
    dsimp only
    rw [e]
    simp only [Bool.false_eq_true, if_false]
    have := nextWhere_msgs p b.msgs.length b
    rw [this]

/-! ### What a step changes -/

/-- Ids and whether seen. -/
def keys (s : State ι τ γ) : List (ι × Bool) := s.buf.msgs.map fun m => (m.id, m.seen)

theorem map_modify_same {α β : Type} (f : α → α) (g : α → β) (h : ∀ x, g (f x) = g x) : ∀ (l : List α) (i : Nat), (l.modify i f).map g = l.map g
  | [], i => by simp
  | x :: l, 0 => by simp [h]
  | x :: l, i + 1 => by simp [map_modify_same f g h l i]

omit [DecidableEq ι] [DecidableEq τ] in
theorem modify_keys (f : Msg ι τ → Msg ι τ) (h : ∀ x, ((f x).id, (f x).seen) = (x.id, x.seen)) (l : List (Msg ι τ)) (i : Nat) :
    (l.modify i f).map (fun m => (m.id, m.seen)) = l.map fun m => (m.id, m.seen) := map_modify_same f _ h l i

theorem ids_keys (s : State ι τ γ) : s.buf.msgs.map (·.id) = (keys s).map (·.1) := by
  unfold keys
  rw [List.map_map]
  rfl

variable (upd : γ → τ → τ) (read : Option γ)

theorem tagMessage_keys (b : Bool) (s : State ι τ γ) (ch : γ) : keys (tagMessage upd b s ch) = keys s := by
  unfold tagMessage
  split
  · rfl
  · split
    · rfl
    · unfold keys setCur; dsimp only [callTag]; apply modify_keys; intro _; rfl

theorem command_keys (s : State ι τ γ) (c : Cmd ι τ γ) : keys (command upd s c) = keys s := by
  cases c with
  | next => unfold command keys; dsimp only; rw [nextMessage_msgs]
  | previous => unfold command keys; dsimp only; rw [previousMessage_msgs]
  | nextOpen => unfold command keys; dsimp only; rw [nextThat_msgs]
  | nextMatching => unfold command keys; dsimp only; rw [nextThat_msgs]
  | goto p => rfl
  | toggle => unfold command keys setCur; dsimp only; apply modify_keys; intro _; rfl
  | openAll v => unfold command keys; dsimp only; rw [List.map_map]; rfl
  | tag ch =>
    unfold command ShowBuf.tag
    dsimp only
    split
    · rfl
    · unfold keys setCur; dsimp only [callTag]; apply modify_keys; intro _; rfl
  | tagMessage ch => exact tagMessage_keys upd false s ch
  | tagAll ch => unfold command ShowBuf.tagAll keys; dsimp only [callTag]; rw [List.map_map]; rfl
  | outside f => rfl

theorem tagMessage_log (b : Bool) (s : State ι τ γ) (ch : γ) :
    (tagMessage upd b s ch).log = s.log ∨
      ∃ m, s.buf.msgs[cur s.buf]? = some m ∧ upd ch m.tags ≠ m.tags ∧ (tagMessage upd b s ch).log = s.log ++ [(b, [m.id], ch)] := by
  unfold tagMessage
  split
  · exact Or.inl rfl
  · next m hm =>
    split
    · exact Or.inl rfl
    · next h => exact Or.inr ⟨m, hm, h, rfl⟩

/-- A command notes nothing of the hook. -/
theorem command_log (s : State ι τ γ) (c : Cmd ι τ γ) : ∃ l, (command upd s c).log = s.log ++ l ∧ ∀ e ∈ l, e.1 = false := by
  have z : ∃ l : List (Bool × List ι × γ), s.log = s.log ++ l ∧ ∀ e ∈ l, e.1 = false := ⟨[], by simp, (fun _ h => by cases h)⟩
  cases c with
  | next => exact z
  | previous => exact z
  | nextOpen => exact z
  | nextMatching => exact z
  | goto p => exact z
  | toggle => exact z
  | openAll v => exact z
  | tag ch =>
    unfold command ShowBuf.tag
    dsimp only
    split
    · exact z
    · exact ⟨_, rfl, by simp⟩
  | tagMessage ch =>
    rcases tagMessage_log upd false s ch with h | ⟨m, _, _, h⟩
    · unfold command; rw [h]; exact z
    · exact ⟨_, h, by simp⟩
  | tagAll ch => exact ⟨_, rfl, by simp⟩
  | outside f => exact z

theorem tagMessage_pos (b : Bool) (s : State ι τ γ) (ch : γ) : (tagMessage upd b s ch).buf.pos = s.buf.pos ∧
    (tagMessage upd b s ch).buf.msgs.length = s.buf.msgs.length := by
  unfold tagMessage
  split
  · exact ⟨rfl, rfl⟩
  · split
    · exact ⟨rfl, rfl⟩
    · exact ⟨rfl, List.length_modify ..⟩

theorem cur_congr {a b : Buf ι τ} (h1 : a.pos = b.pos) (h2 : a.msgs.length = b.msgs.length) : cur a = cur b := by
  unfold cur
  rw [h1, h2]

theorem tagMessage_cur (b : Bool) (s : State ι τ γ) (ch : γ) : cur (tagMessage upd b s ch).buf = cur s.buf :=
  cur_congr (tagMessage_pos upd b s ch).1 (tagMessage_pos upd b s ch).2

theorem tagMessage_at (b : Bool) (s : State ι τ γ) (ch : γ) (m : Msg ι τ) (h : s.buf.msgs[cur s.buf]? = some m) :
    (tagMessage upd b s ch).buf.msgs[cur s.buf]? = some { m with tags := upd ch m.tags } := by
  unfold tagMessage
  rw [h]
  dsimp only
  split
  · next e => rw [h, e]
  · unfold setCur
    dsimp only [callTag]
    rw [List.getElem?_modify_eq, h]
    rfl

theorem getElem?_modify_eq' {α : Type} (f : α → α) (l : List α) (i : Nat) : (l.modify i f)[i]? = l[i]?.map f := by
  rw [List.getElem?_modify_eq]; rfl

/-- What the hook does. -/
theorem seenCurrent_cases (s : State ι τ γ) :
    (seenCurrent upd read s = s ∧ ∀ m, s.buf.msgs[cur s.buf]? = some m → m.visible = true → m.seen = true) ∨
    (∃ m, s.buf.msgs[cur s.buf]? = some m ∧ m.visible = true ∧ m.seen = false ∧
      (seenCurrent upd read s).buf.pos = s.buf.pos ∧
      keys (seenCurrent upd read s) = (keys s).modify (cur s.buf) (fun x => (x.1, true)) ∧
      cur (seenCurrent upd read s).buf = cur s.buf ∧
      (∃ m', (seenCurrent upd read s).buf.msgs[cur s.buf]? = some m' ∧ m'.id = m.id ∧ m'.visible = true ∧ m'.seen = true) ∧
      ((seenCurrent upd read s).log = s.log ∧ (seenCurrent upd read s).world = s.world ∧ (∀ ch, read = some ch → upd ch m.tags = m.tags) ∨
        ∃ ch, read = some ch ∧ upd ch m.tags ≠ m.tags ∧ (seenCurrent upd read s).log = s.log ++ [(true, [m.id], ch)] ∧
          (seenCurrent upd read s).world = { s.world with tags := fun i => if i ∈ [m.id] then upd ch (s.world.tags i) else s.world.tags i })) := by
  unfold seenCurrent
  cases hm : s.buf.msgs[cur s.buf]? with
  | none => exact Or.inl ⟨rfl, fun m h => by cases h⟩
  | some m =>
    dsimp only
    split
    · next h =>
      rw [Bool.and_eq_true, Bool.not_eq_true'] at h
      right
      refine ⟨m, rfl, h.1, h.2, ?_⟩
      have mk : ∀ l : List (Msg ι τ), (l.modify (cur s.buf) (fun x => { x with seen := true })).map (fun m => (m.id, m.seen)) =
          (l.map fun m => (m.id, m.seen)).modify (cur s.buf) (fun x => (x.1, true)) := by
        intro l
        generalize cur s.buf = i
        induction l generalizing i with
        | nil => simp
        | cons x l ih => cases i <;> simp [ih]
      cases read with
      | none =>
        dsimp only
        refine ⟨rfl, ?_, ?_, ?_, ?_⟩
        · exact mk _
        · exact cur_congr rfl (List.length_modify ..)
        · refine ⟨{ m with seen := true }, ?_, rfl, h.1, rfl⟩
          unfold setCur
          dsimp only
          rw [getElem?_modify_eq', hm]
          rfl
        · exact Or.inl ⟨rfl, rfl, (fun _ h => by cases h)⟩
      | some ch =>
        dsimp only
        refine ⟨(tagMessage_pos upd true s ch).1, ?_, ?_, ?_, ?_⟩
        · unfold keys setCur
          dsimp only
          rw [tagMessage_cur, mk]
          exact congrArg (fun l => l.modify (cur s.buf) (fun x => (x.1, true))) (tagMessage_keys upd true s ch)
        · refine cur_congr (tagMessage_pos upd true s ch).1 ?_
          unfold setCur
          dsimp only
          rw [List.length_modify]
          exact (tagMessage_pos upd true s ch).2
        · refine ⟨{ m with tags := upd ch m.tags, seen := true }, ?_, rfl, h.1, rfl⟩
          unfold setCur
          dsimp only
          rw [tagMessage_cur, getElem?_modify_eq', tagMessage_at upd true s ch m hm]
          rfl
        · by_cases e : upd ch m.tags = m.tags
          · left
            have : tagMessage upd true s ch = s := by unfold tagMessage; rw [hm]; dsimp only; rw [if_pos e]
            rw [this]
            refine ⟨rfl, rfl, ?_⟩
            intro c hc
            cases hc
            exact e
          · right
            refine ⟨ch, rfl, e, ?_, ?_⟩
            · unfold tagMessage; rw [hm]; dsimp only; rw [if_neg e]; rfl
            · unfold tagMessage; rw [hm]; dsimp only; rw [if_neg e]; rfl
    · next h =>
      left
      refine ⟨rfl, ?_⟩
      intro x hx hv
      cases hx
      rw [hv, Bool.true_and] at h
      cases hs : m.seen
      · rw [hs] at h; exact absurd rfl h
      · rfl

theorem step_eq (s : State ι τ γ) (c : Cmd ι τ γ) (h : ∀ f, c ≠ .outside f) : step upd read s c = seenCurrent upd read (command upd s c) := by
  cases c with
  | outside f => exact absurd rfl (h f)
  | _ => rfl

theorem step_cases (s : State ι τ γ) (c : Cmd ι τ γ) :
    step upd read s c = command upd s c ∨ step upd read s c = seenCurrent upd read (command upd s c) := by
  cases c with
  | outside f => exact Or.inl rfl
  | _ => exact Or.inr rfl

/-! ### Tags shown -/

omit [DecidableEq τ] in
theorem shown_modify (ch : γ) (w : ι → τ) (m : Msg ι τ) : ∀ (l : List (Msg ι τ)) (i : Nat), (l.map (·.id)).Nodup → l[i]? = some m →
    (∀ x ∈ l, x.tags = w x.id) →
    ∀ x ∈ l.modify i (fun x => { x with tags := upd ch m.tags }), x.tags = if x.id ∈ [m.id] then upd ch (w x.id) else w x.id
  | [], _, _, h, _ => by simp at h
  | y :: l, 0, hd, h, hs => by
    intro x hx
    have e : y = m := by simpa using h
    subst e
    rw [List.map_cons, List.nodup_cons] at hd
    simp only [List.modify_zero_cons, List.mem_cons] at hx
    rcases hx with rfl | hx
    · simp [hs y (List.mem_cons_self ..)]
    · rw [if_neg, hs x (List.mem_cons_of_mem _ hx)]
      intro e
      have e := List.mem_singleton.1 e
      exact hd.1 (by rw [← e]; exact List.mem_map_of_mem (f := (·.id)) hx)
  | y :: l, i + 1, hd, h, hs => by
    intro x hx
    rw [List.map_cons, List.nodup_cons] at hd
    simp only [List.modify_succ_cons, List.mem_cons] at hx
    have hm : l[i]? = some m := by simpa using h
    rcases hx with rfl | hx
    · rw [if_neg, hs x (List.mem_cons_self ..)]
      intro e
      have e := List.mem_singleton.1 e
      exact hd.1 (by rw [e]; exact List.mem_map_of_mem (f := (·.id)) (List.mem_iff_getElem?.2 ⟨i, hm⟩))
    · exact shown_modify ch w m l i hd.2 hm (fun x h => hs x (List.mem_cons_of_mem _ h)) x hx

omit [DecidableEq ι] [DecidableEq τ] in
theorem frame_modify (f : Msg ι τ → Msg ι τ) (h : ∀ x, (f x).id = x.id ∧ (f x).tags = x.tags) (w : ι → τ) (l : List (Msg ι τ)) (i : Nat)
    (hs : ∀ x ∈ l, x.tags = w x.id) : ∀ x ∈ l.modify i f, x.tags = w x.id := by
  intro x hx
  obtain ⟨j, hj⟩ := List.mem_iff_getElem?.1 hx
  rw [List.getElem?_modify] at hj
  cases e : l[j]? with
  | none => rw [e] at hj; cases hj
  | some y =>
    rw [e] at hj
    have hy := hs y (List.mem_iff_getElem?.2 ⟨j, e⟩)
    simp only [Option.map_eq_map, Option.map_some, Option.some.injEq] at hj
    subst hj
    split
    · rw [(h y).1, (h y).2, hy]
    · exact hy

theorem distinct_of_keys {s t : State ι τ γ} (h : keys t = keys s) (hd : Distinct s) : Distinct t := by
  unfold Distinct at *
  rw [ids_keys] at *
  rw [h]
  exact hd

theorem tagMessage_shown (b : Bool) (s : State ι τ γ) (ch : γ) (hd : Distinct s) (hs : Shown s) : Shown (tagMessage upd b s ch) := by
  unfold tagMessage
  split
  · exact hs
  · next m hm =>
    split
    · exact hs
    · exact shown_modify upd ch s.world.tags m s.buf.msgs (cur s.buf) hd hm hs

theorem command_shown (s : State ι τ γ) (c : Cmd ι τ γ) (ho : ∀ f, c ≠ .outside f) (hd : Distinct s) (hs : Shown s) : Shown (command upd s c) := by
  cases c with
  | next => unfold Shown command; dsimp only; rw [nextMessage_msgs]; exact hs
  | previous => unfold Shown command; dsimp only; rw [previousMessage_msgs]; exact hs
  | nextOpen => unfold Shown command; dsimp only; rw [nextThat_msgs]; exact hs
  | nextMatching => unfold Shown command; dsimp only; rw [nextThat_msgs]; exact hs
  | goto p => exact hs
  | toggle => exact frame_modify (fun m => { m with visible := !m.visible }) (fun _ => ⟨rfl, rfl⟩) _ _ _ hs
  | openAll v =>
    intro x hx
    obtain ⟨y, hy, rfl⟩ := List.mem_map.1 hx
    exact hs y hy
  | tag ch =>
    unfold command ShowBuf.tag
    dsimp only
    split
    · exact hs
    · next m hm => exact shown_modify upd ch s.world.tags m s.buf.msgs (cur s.buf) hd hm hs
  | tagMessage ch => exact tagMessage_shown upd false s ch hd hs
  | tagAll ch =>
    intro x hx
    obtain ⟨y, hy, rfl⟩ := List.mem_map.1 hx
    show upd ch y.tags = if y.id ∈ (s.buf.msgs.map (·.id)).reverse then upd ch (s.world.tags y.id) else s.world.tags y.id
    rw [if_pos (by rw [List.mem_reverse]; exact List.mem_map_of_mem (f := (·.id)) hy), hs y hy]
  | outside f => exact absurd rfl (ho f)

theorem seenCurrent_shown (s : State ι τ γ) (hd : Distinct s) (hs : Shown s) : Shown (seenCurrent upd read s) := by
  unfold seenCurrent
  split
  · exact hs
  · split
    · cases read with
      | none => exact frame_modify (fun x => { x with seen := true }) (fun _ => ⟨rfl, rfl⟩) _ _ _ hs
      | some ch => exact frame_modify (fun x => { x with seen := true }) (fun _ => ⟨rfl, rfl⟩) _ _ _ (tagMessage_shown upd true s ch hd hs)
    · exact hs

/-! ### A new buffer -/

/-- To the first open message. -/
def goF (b : Buf ι τ) : Buf ι τ :=
  let b := { b with pos := .top 0 }
  if curVisible b then b else (nextThat (·.visible) b).1

omit [DecidableEq ι] [DecidableEq τ] in
theorem gotoFirstWanted_eq (b : Buf ι τ) : gotoFirstWanted b =
    if (goF b).pos = .eob then goF { goF b with msgs := (goF b).msgs.map fun m => { m with visible := m.isMatch } } else goF b := rfl

theorem goF_msgs (b : Buf ι τ) : (goF b).msgs = b.msgs := by
  unfold goF
  dsimp only
  split
  · rfl
  · rw [nextThat_msgs]

theorem goF_spec (b : Buf ι τ) (h0 : 0 < b.msgs.length) :
    (∀ i m, b.msgs[i]? = some m → m.visible = true → (∀ k x, k < i → b.msgs[k]? = some x → x.visible = false) → goF b = { b with pos := .top i }) ∧
    ((∀ m ∈ b.msgs, m.visible = false) → goF b = { b with pos := .eob }) := by
  obtain ⟨m0, hm0⟩ : ∃ m, b.msgs[0]? = some m := ⟨_, List.getElem?_eq_getElem h0⟩
  have cv : curVisible ({ b with pos := .top 0 } : Buf ι τ) = m0.visible := by
    unfold curVisible
    show ((b.msgs[0]?).map _).getD false = _
    rw [hm0]
    rfl
  constructor
  · intro i m hm hv hlt
    unfold goF
    dsimp only
    rw [cv]
    rcases Nat.eq_zero_or_pos i with rfl | hi
    · rw [hm0] at hm
      cases hm
      rw [if_pos hv]
    · rw [hlt 0 m0 hi hm0]
      simp only [Bool.false_eq_true, if_false]
      rcases nextThat_spec (fun m => m.visible) ({ b with pos := .top 0 } : Buf ι τ) h0 with ⟨j, x, h1, h2, h3, h4, e⟩ | ⟨h, _⟩
      · rw [e]
        dsimp only at h2 h4 ⊢
        have c0 : cur ({ b with pos := .top 0 } : Buf ι τ) = 0 := rfl
        rw [c0] at h4
        have : j = i := by
          rcases Nat.lt_trichotomy j i with hl | hl | hl
          · have := hlt j x hl h2; rw [h3] at this; cases this
          · exact hl
          · have := h4 i m hi hl hm; rw [hv] at this; cases this
        rw [this]
      · have := h i m hi hm
        rw [hv] at this
        cases this
  · intro hn
    unfold goF
    dsimp only
    rw [cv, hn m0 (List.mem_iff_getElem?.2 ⟨0, hm0⟩)]
    simp only [Bool.false_eq_true, if_false]
    rcases nextThat_spec (fun m => m.visible) ({ b with pos := .top 0 } : Buf ι τ) h0 with ⟨j, x, h1, h2, h3, h4, e⟩ | ⟨_, e⟩
    · have := hn x (List.mem_iff_getElem?.2 ⟨j, h2⟩)
      rw [h3] at this
      cases this
    · rw [e]

end Notmuch.ShowBufProofs
