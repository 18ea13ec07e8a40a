import Verif.Proofs.ShowBuf

namespace Notmuch.Props
open Notmuch.ShowBuf Notmuch.ShowBufSpec Notmuch.ShowBufProofs

section
variable {ι τ γ : Type} [DecidableEq ι] [DecidableEq τ]

private theorem marked_append (s : State ι τ γ) (l : List (Bool × List ι × γ)) (t : State ι τ γ) (h : t.log = s.log ++ l) (id : ι) :
    marked t id = marked s id + (l.filter fun e => e.1 && decide (id ∈ e.2.1)).length := by
  unfold marked
  rw [h, List.filter_append, List.length_append]

private theorem marked_command (upd : γ → τ → τ) (s : State ι τ γ) (c : Cmd ι τ γ) (id : ι) : marked (command upd s c) id = marked s id := by
  obtain ⟨l, h, hl⟩ := command_log upd s c
  rw [marked_append s l _ h]
  have : (l.filter fun e => e.1 && decide (id ∈ e.2.1)) = [] := by
    rw [List.filter_eq_nil_iff]
    intro e he
    rw [hl e he]
    simp
  rw [this]
  rfl

private theorem step_keys (upd : γ → τ → τ) (read : Option γ) (s : State ι τ γ) (c : Cmd ι τ γ) :
    keys (step upd read s c) = keys s ∨
      ∃ i id, (keys s)[i]? = some (id, false) ∧ keys (step upd read s c) = (keys s).modify i (fun x => (x.1, true)) := by
  rcases step_cases upd read s c with h | h
  · left; rw [h, command_keys]
  · rcases seenCurrent_cases upd read (command upd s c) with ⟨h2, _⟩ | ⟨m, h1, _, h3, _, h5, _⟩
    · left; rw [h, h2, command_keys]
    · right
      refine ⟨cur (command upd s c).buf, m.id, ?_, ?_⟩
      · rw [← command_keys upd s c]
        unfold keys
        rw [List.getElem?_map, h1, ← h3]
        rfl
      · rw [h, h5, command_keys]

private theorem step_ids (upd : γ → τ → τ) (read : Option γ) (s : State ι τ γ) (c : Cmd ι τ γ) :
    (step upd read s c).buf.msgs.map (·.id) = s.buf.msgs.map (·.id) := by
  rw [ids_keys, ids_keys]
  rcases step_keys upd read s c with h | ⟨i, _, _, h⟩
  · rw [h]
  · rw [h]
    exact map_modify_same (fun x : ι × Bool => (x.1, true)) (·.1) (fun _ => rfl) _ _

private theorem run_ids (upd : γ → τ → τ) (read : Option γ) (cs : List (Cmd ι τ γ)) : ∀ (s : State ι τ γ),
    (run upd read s cs).buf.msgs.map (·.id) = s.buf.msgs.map (·.id) := by
  induction cs with
  | nil => intro s; rfl
  | cons c cs ih => intro s; exact (ih (step upd read s c)).trans (step_ids upd read s c)

/-- A seen message stays seen. -/
private theorem step_seen (upd : γ → τ → τ) (read : Option γ) (s : State ι τ γ) (c : Cmd ι τ γ) (id : ι) (h : (id, true) ∈ keys s) :
    (id, true) ∈ keys (step upd read s c) := by
  rcases step_keys upd read s c with e | ⟨i, _, _, e⟩
  · rw [e]; exact h
  · rw [e]
    obtain ⟨j, hj⟩ := List.mem_iff_getElem?.1 h
    refine List.mem_iff_getElem?.2 ⟨j, ?_⟩
    rw [List.getElem?_modify, hj]
    split <;> rfl

/-- Not a second time. -/
private theorem step_marked (upd : γ → τ → τ) (read : Option γ) (s : State ι τ γ) (c : Cmd ι τ γ) (hd : Distinct s) (id : ι) :
    marked (step upd read s c) id = marked s id ∨
      (marked (step upd read s c) id = marked s id + 1 ∧ (id, false) ∈ keys s ∧ (id, true) ∈ keys (step upd read s c)) := by
  rcases step_cases upd read s c with h | h
  · left; rw [h, marked_command]
  · rcases seenCurrent_cases upd read (command upd s c) with ⟨h2, _⟩ | ⟨m, h1, _, h3, _, h5, _, _, h6⟩
    · left; rw [h, h2, marked_command]
    · rcases h6 with ⟨h6, _, _⟩ | ⟨ch, _, _, h6, _⟩
      · left
        have := marked_append (command upd s c) [] (seenCurrent upd read (command upd s c)) (by rw [h6]; simp) id
        rw [h, this, marked_command]
        rfl
      · rw [h, marked_append _ _ _ h6, marked_command]
        by_cases e : id = m.id
        · right
          have k : (keys s)[cur (command upd s c).buf]? = some (m.id, false) := by
            rw [← command_keys upd s c]
            unfold keys
            rw [List.getElem?_map, h1, ← h3]
            rfl
          refine ⟨by simp [e], ?_, ?_⟩
          · rw [e]; exact List.mem_iff_getElem?.2 ⟨_, k⟩
          · rw [h5, command_keys, e]
            refine List.mem_iff_getElem?.2 ⟨cur (command upd s c).buf, ?_⟩
            rw [getElem?_modify_eq', k]
            rfl
        · left
          simp [e]

private theorem distinct_step (upd : γ → τ → τ) (read : Option γ) (s : State ι τ γ) (c : Cmd ι τ γ) (hd : Distinct s) : Distinct (step upd read s c) := by
  unfold Distinct
  rw [step_ids]
  exact hd

private theorem distinct_keys {s : State ι τ γ} (hd : Distinct s) {id : ι} (h1 : (id, true) ∈ keys s) (h2 : (id, false) ∈ keys s) : False := by
  unfold Distinct at hd
  rw [ids_keys] at hd
  have : ∀ l : List (ι × Bool), (l.map (·.1)).Nodup → (id, true) ∈ l → (id, false) ∈ l → False := by
    intro l
    induction l with
    | nil => intro _ h; cases h
    | cons x l ih =>
      intro hd h1 h2
      rw [List.map_cons, List.nodup_cons] at hd
      rcases List.mem_cons.1 h1 with e1 | h3 <;> rcases List.mem_cons.1 h2 with e2 | h4
      · rw [← e1] at e2; cases e2
      · rw [← e1] at hd; exact hd.1 (List.mem_map_of_mem (f := (·.1)) h4)
      · rw [← e2] at hd; exact hd.1 (List.mem_map_of_mem (f := (·.1)) h3)
      · exact ih hd.2 h3 h4
  exact this _ hd h1 h2

/-- C87: a message is marked read when it is looked at, not before: what a step of the hook gives to `notmuch tag` is the message at point, if it is open, after
the command, with the change for messages that were read; and after a command the message at point, if it is open, has been dealt with: if it had not been
before and the buffer shows its tags, then it has the tags of a message that was read. -/
theorem C87_read (upd : γ → τ → τ) (read : Option γ) (s : State ι τ γ) (c : Cmd ι τ γ) :
    (∀ e ∈ (step upd read s c).log, e ∈ s.log ∨ e.1 = false ∨
      ∃ ch m, read = some ch ∧ e = (true, [m.id], ch) ∧ (step upd read s c).buf.msgs[cur (step upd read s c).buf]? = some m ∧ m.visible = true ∧
        (m.id, false) ∈ s.buf.msgs.map (fun m => (m.id, m.seen))) ∧
    ((∀ f, c ≠ .outside f) → ∀ m, (step upd read s c).buf.msgs[cur (step upd read s c).buf]? = some m → m.visible = true →
      m.seen = true ∧ (∀ ch, read = some ch → Distinct s → (m.id, false) ∈ s.buf.msgs.map (fun m => (m.id, m.seen)) → Shown (command upd s c) →
        (step upd read s c).world.tags m.id = upd ch ((command upd s c).world.tags m.id))) := by
  obtain ⟨l, hl, hf⟩ := command_log upd s c
  constructor
  · intro e he
    have base : e ∈ (command upd s c).log → e ∈ s.log ∨ e.1 = false := by
      intro h
      rw [hl] at h
      rcases List.mem_append.1 h with h | h
      · exact Or.inl h
      · exact Or.inr (hf e h)
    rcases step_cases upd read s c with h | h
    · rw [h] at he
      exact (base he).imp (fun h => h) Or.inl
    · rw [h] at he ⊢
      rcases seenCurrent_cases upd read (command upd s c) with ⟨h2, _⟩ | ⟨m, h1, _, h3, _, _, h5, ⟨m', hm', hi, hv, _⟩, h6⟩
      · rw [h2] at he
        exact (base he).imp (fun h => h) Or.inl
      · rcases h6 with ⟨h6, _, _⟩ | ⟨ch, hr, _, h6, _⟩
        · rw [h6] at he; exact (base he).imp (fun h => h) Or.inl
        · rw [h6] at he
          rcases List.mem_append.1 he with he | he
          · exact (base he).imp (fun h => h) Or.inl
          · right; right
            refine ⟨ch, m', hr, ?_, ?_, hv, ?_⟩
            · rw [List.mem_singleton.1 he, hi]
            · rw [h5]; exact hm'
            · rw [hi]
              have := command_keys upd s c
              unfold keys at this
              rw [← this]
              refine List.mem_iff_getElem?.2 ⟨cur (command upd s c).buf, ?_⟩
              rw [List.getElem?_map, h1, ← h3]
              rfl
  · intro ho m hm hv
    rw [step_eq upd read s c ho] at hm ⊢
    rcases seenCurrent_cases upd read (command upd s c) with ⟨h2, h3⟩ | ⟨x, h1, _, h3, _, _, h5, ⟨m', hm', hi, _, hs⟩, h6⟩
    · rw [h2] at hm
      refine ⟨h3 m hm hv, ?_⟩
      intro ch _ hd hk _
      have k2 : (m.id, true) ∈ keys s := by
        rw [← command_keys upd s c, ← h3 m hm hv]
        exact List.mem_map_of_mem (List.mem_iff_getElem?.2 ⟨_, hm⟩)
      exact (distinct_keys hd k2 hk).elim
    · rw [h5, hm'] at hm
      cases hm
      refine ⟨hs, ?_⟩
      intro ch hr _ _ hsh
      have ht := hsh x (List.mem_iff_getElem?.2 ⟨_, h1⟩)
      rw [hi]
      rcases h6 with ⟨_, h6, h7⟩ | ⟨ch', hr', _, _, h6⟩
      · rw [h6, ← ht, h7 ch hr]
      · rw [hr] at hr'
        cases hr'
        rw [h6]
        simp

/-- C87: from a new buffer on, whatever commands are given and whatever others do, no message is marked read twice. -/
theorem C87_once (upd : γ → τ → τ) (read : Option γ) (w : World ι τ) (hw : (w.thread.map (·.1)).Nodup) (s : State ι τ γ) (hs : build w = some s)
    (cs : List (Cmd ι τ γ)) (id : ι) : marked (run upd read s cs) id ≤ 1 := by
  have inv : ∀ (cs : List (Cmd ι τ γ)) (s : State ι τ γ), Distinct s → (marked s id ≤ 1 ∧ (marked s id = 0 ∨ (id, true) ∈ keys s)) →
      marked (run upd read s cs) id ≤ 1 := by
    intro cs
    induction cs with
    | nil => intro s _ h; exact h.1
    | cons c cs ih =>
      intro s hd h
      refine ih (step upd read s c) (distinct_step upd read s c hd) ?_
      rcases step_marked upd read s c hd id with e | ⟨e, k1, k2⟩
      · rw [e]
        refine ⟨h.1, h.2.imp (fun h => h) (fun h => step_seen upd read s c id h)⟩
      · have z : marked s id = 0 := by
          rcases h.2 with h | h
          · exact h
          · exact (distinct_keys hd h k1).elim
        exact ⟨by omega, Or.inr k2⟩
  have gm : ∀ b : Buf ι τ, (gotoFirstWanted b).msgs.map (·.id) = b.msgs.map (·.id) := by
    intro b
    unfold gotoFirstWanted
    dsimp only
    split <;> split <;> simp [nextThat_msgs] <;> (try split) <;> simp [nextThat_msgs]
  unfold build at hs
  split at hs
  · cases hs
  · cases hs
    refine inv cs _ ?_ ⟨Nat.zero_le _, Or.inl rfl⟩
    unfold Distinct
    dsimp only
    rw [gm]
    unfold insertAll
    rw [List.map_map]
    exact hw

/-- C87: what the user decides stands: once a message has been dealt with, it is not marked read again as long as the buffer is not built again; and if
nothing is tagged, its tags stay. -/
theorem C87_decision (upd : γ → τ → τ) (read : Option γ) (s : State ι τ γ) (hd : Distinct s) (m : Msg ι τ) (hm : m ∈ s.buf.msgs) (hs : m.seen = true)
    (cs : List (Cmd ι τ γ)) :
    marked (run upd read s cs) m.id = marked s m.id ∧
      ((∀ c ∈ cs, (∀ ch, c ≠ .tag ch ∧ c ≠ .tagMessage ch ∧ c ≠ .tagAll ch) ∧ ∀ f, c ≠ .outside f) →
        (run upd read s cs).world.tags m.id = s.world.tags m.id) := by
  have k : (m.id, true) ∈ keys s := by rw [← hs]; exact List.mem_map_of_mem hm
  generalize m.id = id at k ⊢
  clear hm hs m
  induction cs generalizing s with
  | nil => exact ⟨rfl, fun _ => rfl⟩
  | cons c cs ih =>
    have i := ih (step upd read s c) (distinct_step upd read s c hd) (step_seen upd read s c id k)
    constructor
    · refine i.1.trans ?_
      rcases step_marked upd read s c hd id with e | ⟨_, k1, _⟩
      · exact e
      · exact (distinct_keys hd k k1).elim
    · intro h
      refine (i.2 fun c hc => h c (List.mem_cons_of_mem _ hc)).trans ?_
      have hc := h c (List.mem_cons_self ..)
      have cw : (command upd s c).world = s.world := by
        cases c with
        | tag ch => exact absurd rfl (hc.1 ch).1
        | tagMessage ch => exact absurd rfl (hc.1 ch).2.1
        | tagAll ch => exact absurd rfl (hc.1 ch).2.2
        | outside f => exact absurd rfl (hc.2 f)
        | _ => rfl
      rw [step_eq upd read s c hc.2]
      rcases seenCurrent_cases upd read (command upd s c) with ⟨h2, _⟩ | ⟨m, h1, _, h3, _, _, _, _, h6⟩
      · rw [h2, cw]
      · rcases h6 with ⟨_, h6, _⟩ | ⟨ch, _, _, _, h6⟩
        · rw [h6, cw]
        · rw [h6, cw]
          dsimp only
          rw [if_neg]
          intro e
          have e := List.mem_singleton.1 e
          have : (m.id, false) ∈ keys s := by
            rw [← command_keys upd s c, ← h3]
            exact List.mem_map_of_mem (List.mem_iff_getElem?.2 ⟨_, h1⟩)
          rw [← e] at this
          exact distinct_keys hd k this

/-- C87: a command for the whole thread, e.g. archiving it, changes exactly the messages that the buffer has, whatever has been delivered to the thread or
taken from it since the buffer was built. -/
theorem C87_thread (upd : γ → τ → τ) (read : Option γ) (s : State ι τ γ) (cs : List (Cmd ι τ γ)) (ch : γ) (id : ι) :
    (command upd (run upd read s cs) (.tagAll ch)).world.tags id =
      if id ∈ s.buf.msgs.map (·.id) then upd ch ((run upd read s cs).world.tags id) else (run upd read s cs).world.tags id := by
  have := run_ids upd read cs s
  show (if id ∈ ((run upd read s cs).buf.msgs.map (·.id)).reverse then _ else _) = _
  rw [this]
  simp only [List.mem_reverse]

/-- C87: as long as nothing is changed by others, the tags that the buffer shows are the tags that the messages have, after any history. -/
theorem C87_shown (upd : γ → τ → τ) (read : Option γ) (s : State ι τ γ) (hd : Distinct s) (hs : Shown s) (cs : List (Cmd ι τ γ)) (ha : Alone cs) :
    Shown (run upd read s cs) := by
  induction cs generalizing s with
  | nil => exact hs
  | cons c cs ih =>
    have ho : ∀ f, c ≠ .outside f := fun f e => ha f (by rw [e]; exact List.mem_cons_self ..)
    refine ih (step upd read s c) (distinct_step upd read s c hd) ?_ (fun f h => ha f (List.mem_cons_of_mem _ h))
    rw [step_eq upd read s c ho]
    exact seenCurrent_shown upd read _ (distinct_of_keys (command_keys upd s c) hd) (command_shown upd s c ho hd hs)

/-- C87: moving to the next message that is open (or matches) goes to the first such message after the one at point, or, if there is none, to the end. -/
theorem C87_next (upd : γ → τ → τ) (s : State ι τ γ) (h0 : s.buf.msgs ≠ []) (c : Cmd ι τ γ) (p : Msg ι τ → Bool)
    (hc : (c = .nextOpen ∧ p = fun m => m.visible) ∨ (c = .nextMatching ∧ p = fun m => m.isMatch)) :
    (command upd s c).buf.msgs = s.buf.msgs ∧ (command upd s c).world = s.world ∧
      ((∃ j m, (command upd s c).buf.pos = .top j ∧ cur s.buf < j ∧ s.buf.msgs[j]? = some m ∧ p m = true ∧
          (∀ k x, cur s.buf < k → k < j → s.buf.msgs[k]? = some x → p x = false)) ∨
        ((command upd s c).buf.pos = .eob ∧ ∀ k x, cur s.buf < k → s.buf.msgs[k]? = some x → p x = false)) := by
  have key : ∀ p : Msg ι τ → Bool, (nextThat p s.buf).1.msgs = s.buf.msgs ∧
      ((∃ j m, (nextThat p s.buf).1.pos = .top j ∧ cur s.buf < j ∧ s.buf.msgs[j]? = some m ∧ p m = true ∧
          (∀ k x, cur s.buf < k → k < j → s.buf.msgs[k]? = some x → p x = false)) ∨
        ((nextThat p s.buf).1.pos = .eob ∧ ∀ k x, cur s.buf < k → s.buf.msgs[k]? = some x → p x = false)) := by
    intro p
    refine ⟨nextThat_msgs p s.buf, ?_⟩
    rcases nextThat_spec p s.buf (List.length_pos_iff.2 h0) with ⟨j, m, h1, h2, h3, h4, e⟩ | ⟨h, e⟩
    · exact Or.inl ⟨j, m, by rw [e], h1, h2, h3, h4⟩
    · exact Or.inr ⟨by rw [e], h⟩
  rcases hc with ⟨rfl, rfl⟩ | ⟨rfl, rfl⟩
  · exact ⟨(key _).1, rfl, (key _).2⟩
  · exact ⟨(key _).1, rfl, (key _).2⟩

/-- C87: the next message is the one after, or the end after the last; the previous one is the beginning of the message if point is inside it or at the end,
otherwise the one before, if there is one. -/
theorem C87_neighbours (upd : γ → τ → τ) (s : State ι τ γ) (n : Nat) (h0 : s.buf.msgs.length = n + 1) :
    (∀ i, i ≤ n → s.buf.pos = .top i ∨ s.buf.pos = .inside i →
      (command upd s .next).buf = { s.buf with pos := if i < n then .top (i + 1) else .eob }) ∧
    (s.buf.pos = .eob → (command upd s .next).buf = { s.buf with pos := .eob } ∧ (command upd s .previous).buf = { s.buf with pos := .top n }) ∧
    (∀ i, s.buf.pos = .inside i → (command upd s .previous).buf = { s.buf with pos := .top i }) ∧
    (∀ i, s.buf.pos = .top i → (command upd s .previous).buf = { s.buf with pos := .top (i - 1) }) := by
  have hcur : ∀ i, s.buf.pos = .top i ∨ s.buf.pos = .inside i → cur s.buf = i := by
    intro i h
    unfold cur
    rcases h with h | h <;> rw [h]
  have hend : s.buf.pos = .eob → cur s.buf = n := by
    intro h
    unfold cur
    rw [h]
    dsimp only
    omega
  refine ⟨?_, ?_, ?_, ?_⟩
  · intro i hi h
    have := hcur i h
    show nextMessage s.buf = _
    unfold nextMessage gotoNext
    dsimp only
    rw [this, h0]
    by_cases hl : i < n
    · rw [if_pos (show i + 1 < n + 1 by omega)]; simp [hl]
    · rw [if_neg (show ¬ i + 1 < n + 1 by omega)]; simp [hl]
  · intro h
    constructor
    · show nextMessage s.buf = _
      unfold nextMessage gotoNext
      dsimp only
      rw [hend h, h0, if_neg (show ¬ n + 1 < n + 1 by omega)]
      rfl
    · show previousMessage s.buf = _
      unfold previousMessage
      rw [hend h, h]
      rfl
  · intro i h
    show previousMessage s.buf = _
    unfold previousMessage
    rw [hcur i (Or.inr h), h]
    rfl
  · intro i h
    show previousMessage s.buf = _
    unfold previousMessage
    rw [hcur i (Or.inl h), h]
    simp only [if_true]
    unfold gotoPrevious
    rw [hcur i (Or.inl h)]
    cases i with
    | zero => rfl
    | succ i => rfl

/-- C87: when a thread is opened, point is at the first message that matches and is not excluded, and these are the open ones; if there is none, at the first
that matches, and these are open; if none matches, all are closed. -/
theorem C87_first (w : World ι τ) (s : State ι τ γ) (h : build w = some s) :
    (∀ i x, w.thread[i]? = some x → x.2.1 = true → x.2.2 = false →
      (∀ k y, k < i → w.thread[k]? = some y → (y.2.1 && !y.2.2) = false) →
      s.buf.pos = .top i ∧ s.buf.msgs.map (fun m => (m.id, m.visible)) = w.thread.map fun x => (x.1, x.2.1 && !x.2.2)) ∧
    ((∀ x ∈ w.thread, (x.2.1 && !x.2.2) = false) →
      (∀ i x, w.thread[i]? = some x → x.2.1 = true → (∀ k y, k < i → w.thread[k]? = some y → y.2.1 = false) →
        s.buf.pos = .top i ∧ s.buf.msgs.map (fun m => (m.id, m.visible)) = w.thread.map fun x => (x.1, x.2.1)) ∧
      ((∀ x ∈ w.thread, x.2.1 = false) →
        s.buf.pos = .eob ∧ s.buf.msgs.map (fun m => (m.id, m.visible)) = w.thread.map fun x => (x.1, false))) := by
  unfold build at h
  split at h
  · cases h
  · next hne =>
    cases h
    dsimp only
    rw [gotoFirstWanted_eq]
    have l0 : 0 < (insertAll w).length := by unfold insertAll; rw [List.length_map]; exact List.length_pos_iff.2 hne
    have sp := goF_spec ({ msgs := insertAll w, pos := .eob } : Buf ι τ) l0
    have at_ : ∀ i : Nat, (insertAll w)[i]? = w.thread[i]?.map fun (x : ι × Bool × Bool) => (⟨x.1, x.2.1, x.2.2, w.tags x.1, x.2.1 && !x.2.2, false⟩ : Msg ι τ) := by
      intro i; unfold insertAll; rw [List.getElem?_map]
    constructor
    · intro i x hx h1 h2 hlt
      rw [sp.1 i _ (by dsimp only; rw [at_, hx]; rfl) (by dsimp only; rw [h1, h2]; rfl) ?_]
      · rw [if_neg (by simp)]
        refine ⟨rfl, ?_⟩
        unfold insertAll
        rw [List.map_map]
        rfl
      · intro k y hk hy
        dsimp only at hy
        rw [at_] at hy
        cases e : w.thread[k]? with
        | none => rw [e] at hy; cases hy
        | some z => rw [e] at hy; cases hy; exact hlt k z hk e
    · intro hno
      have e1 : goF ({ msgs := insertAll w, pos := .eob } : Buf ι τ) = { msgs := insertAll w, pos := .eob } := by
        refine sp.2 ?_
        intro m hm
        unfold insertAll at hm
        obtain ⟨x, hx, rfl⟩ := List.mem_map.1 hm
        exact hno x hx
      rw [e1]
      simp only [if_true]
      have l1 : 0 < ((insertAll w).map fun m => { m with visible := m.isMatch }).length := by rw [List.length_map]; exact l0
      have sp2 := goF_spec ({ msgs := (insertAll w).map fun m => { m with visible := m.isMatch }, pos := .eob } : Buf ι τ) l1
      have mp : ((insertAll w).map fun m => { m with visible := m.isMatch }).map (fun m => (m.id, m.visible)) =
          w.thread.map fun x => (x.1, x.2.1) := by
        unfold insertAll
        rw [List.map_map, List.map_map]
        rfl
      constructor
      · intro i x hx h1 hlt
        rw [sp2.1 i _ (by dsimp only; rw [List.getElem?_map, at_, hx]; rfl) h1 ?_]
        · exact ⟨rfl, mp⟩
        · intro k y hk hy
          dsimp only at hy
          rw [List.getElem?_map, at_] at hy
          cases e : w.thread[k]? with
          | none => rw [e] at hy; cases hy
          | some z => rw [e] at hy; cases hy; exact hlt k z hk e
      · intro hz
        rw [sp2.2 ?_]
        · refine ⟨rfl, mp.trans ?_⟩
          refine List.map_congr_left ?_
          intro x hx
          rw [hz x hx]
        · intro m hm
          dsimp only at hm
          obtain ⟨y, hy, rfl⟩ := List.mem_map.1 hm
          unfold insertAll at hy
          obtain ⟨x, hx, rfl⟩ := List.mem_map.1 hy
          exact hz x hx

/-- C87: refreshing a buffer shows the thread and the tags as they are now, with exactly the messages open that were open, and point at the message where it
was (at the first message if the thread does not have it any more). -/
theorem C87_refresh (s s' : State ι τ γ) (h : refresh s = some s') :
    s'.buf.msgs.map (fun m => (m.id, m.isMatch, m.excluded)) = s.world.thread ∧ Shown s' ∧ s'.world = s.world ∧
    (∀ m ∈ s'.buf.msgs, m.visible = true ↔ ∃ x ∈ s.buf.msgs, x.id = m.id ∧ x.visible = true) ∧
    (∀ m, s.buf.msgs[cur s.buf]? = some m → m.id ∈ s'.buf.msgs.map (·.id) → ∃ i x, s'.buf.pos = .top i ∧ s'.buf.msgs[i]? = some x ∧ x.id = m.id)  ∧
    (∀ m, s.buf.msgs[cur s.buf]? = some m → m.id ∉ s'.buf.msgs.map (·.id) → s'.buf.pos = .top 0) := by
  unfold refresh at h
  split at h
  · cases h
  · dsimp only at h
    split at h
    · next m hm =>
      cases h
      have gm : ∀ (b : Buf ι τ) (id : ι), (gotoMessage b id).msgs = b.msgs := by
        intro b id; unfold gotoMessage; split <;> rfl
      dsimp only [Shown]
      simp only [gm]
      refine ⟨?_, ?_, trivial, ?_, ?_, ?_⟩
      · unfold insertAll
        rw [List.map_map, List.map_map]
        exact List.map_id _
      · intro x hx
        unfold insertAll at hx
        rw [List.map_map] at hx
        obtain ⟨y, _, rfl⟩ := List.mem_map.1 hx
        rfl
      · intro x hx
        obtain ⟨y, _, rfl⟩ := List.mem_map.1 hx
        unfold openIds
        simp only [decide_eq_true_eq, List.mem_map, List.mem_filter]
        constructor
        · rintro ⟨z, ⟨h1, h2⟩, h3⟩; exact ⟨z, h1, h3, h2⟩
        · rintro ⟨z, h1, h3, h2⟩; exact ⟨z, ⟨h1, h2⟩, h3⟩
      · intro x hx hi
        rw [hm] at hx
        cases hx
        unfold gotoMessage
        dsimp only
        split
        · next i hf =>
          have := List.findIdx?_eq_some_iff_getElem.1 hf
          obtain ⟨hl, hp, _⟩ := this
          exact ⟨i, _, rfl, List.getElem?_eq_getElem hl, of_decide_eq_true hp⟩
        · next hf =>
          rw [List.findIdx?_eq_none_iff] at hf
          obtain ⟨y, hy, e⟩ := List.mem_map.1 hi
          have := hf y hy
          rw [e] at this
          simp at this
      · intro x hx hi
        rw [hm] at hx
        cases hx
        unfold gotoMessage
        split
        · next i hf =>
          exfalso
          obtain ⟨hl, hp, _⟩ := List.findIdx?_eq_some_iff_getElem.1 hf
          exact hi (List.mem_map.2 ⟨_, List.getElem_mem hl, of_decide_eq_true hp⟩)
        · rfl
    · cases h

end

/-- Two tags: unread, and another. -/
private def upd2 (ch : Bool × Bool) (t : Bool × Bool) : Bool × Bool := if ch.1 then (ch.2, t.2) else (t.1, ch.2)

private def w1 : World Nat (Bool × Bool) := { thread := [(1, false, false), (2, true, false), (3, true, true), (4, true, false)], tags := fun _ => (true, true) }

/-- C87: someone else tags a message while the buffer shows it: archiving it from the buffer, in which it does not have the tag, does nothing. -/
theorem C87_stale_counterexample : ∃ (s : State Nat (Bool × Bool) (Bool × Bool)),
    build { w1 with tags := fun _ => (true, false) } = some s ∧
      (run upd2 (some (true, false)) s [.outside fun w => { w with tags := fun i => if i = 2 then (true, true) else w.tags i }, .tagMessage (false, false)]).world.tags 2 =
        (false, true) := by
  exact ⟨_, rfl, by decide +kernel⟩

/-- C87: refreshing forgets which messages have been dealt with: a message that the user has marked unread again is marked read again. -/
theorem C87_refresh_counterexample : ∃ (s s' : State Nat (Bool × Bool) (Bool × Bool)), build w1 = some s ∧
    refresh (run upd2 (some (true, false)) s [.goto (.top 1), .tag (true, true)]) = some s' ∧
    (run upd2 (some (true, false)) s [.goto (.top 1), .tag (true, true)]).world.tags 2 = (true, true) ∧ s'.world.tags 2 = (true, true) ∧
    (run upd2 (some (true, false)) s' [.goto (.top 1)]).world.tags 2 = (false, true) := by
  exact ⟨_, _, rfl, rfl, by decide +kernel, by decide +kernel, by decide +kernel⟩

/-- C87: a thread of four messages is read. -/
theorem C87_example : ∃ (s : State Nat (Bool × Bool) (Bool × Bool)), build w1 = some s ∧ Distinct s ∧ Shown s ∧ s.buf.pos = .top 1 ∧
    openIds s.buf = [2, 4] ∧
    (let t := run upd2 (some (true, false)) s [.goto (.top 1), .nextOpen, .previous, .toggle, .tag (true, true), .next, .nextMatching]
     t.buf.pos = .eob ∧ t.log = [(true, [2], (true, false)), (true, [4], (true, false)), (true, [3], (true, false)), (false, [3], (true, true))] ∧
       (t.world.tags 1, t.world.tags 2, t.world.tags 3, t.world.tags 4) = ((true, true), (false, true), (true, true), (false, true))) := by
  refine ⟨_, rfl, ?_, ?_, by decide +kernel, by decide +kernel, by decide +kernel⟩
  · unfold Distinct; decide +kernel
  · unfold Shown; decide +kernel

end Notmuch.Props
