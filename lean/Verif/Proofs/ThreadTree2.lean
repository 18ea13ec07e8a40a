import Verif.Proofs.ThreadTree

namespace Notmuch.ThreadTree
open Notmuch.ThreadTreeSpec

theorem mem_addReply {r : Replies} {q c p x : Str} : x ∈ addReply r q c p ↔ x ∈ r p ∨ (p = q ∧ x = c) := by
  unfold addReply
  split
  · rename_i h; subst h; simp
  · rename_i h; simp [h]

theorem forest_addReply {r : Replies} (h : Forest r) {q c : Str} (hc : ∀ p, c ∉ r p) : Forest (addReply r q c) := by
  constructor
  · intro p
    unfold addReply
    split
    · rw [List.nodup_append]
      refine ⟨h.nodup p, by simp, ?_⟩
      rintro a ha b hb rfl
      simp at hb; subst hb
      exact hc p ha
    · exact h.nodup p
  · intro p p' x hx hx'
    rw [mem_addReply] at hx hx'
    rcases hx with hx | ⟨rfl, rfl⟩ <;> rcases hx' with hx' | ⟨rfl, e⟩
    · exact h.unique _ _ _ hx hx'
    · subst e; exact absurd hx (hc p)
    · exact absurd hx' (hc p')
    · rfl

/-- After processing the messages `dn`: replies, and candidates for the top level. -/
structure P1 (msgs : List Msg) (dn : List Str) (r : Replies) (maybe : List Msg) : Prop where
  forest : Forest r
  within : ∀ p c, c ∈ r p → p ∈ msgs.map (·.mid) ∧ c ∈ dn
  cover : ∀ x ∈ dn, (∃ p, x ∈ r p) ∨ x ∈ maybe.map (·.mid)
  sub : ∀ x ∈ maybe.map (·.mid), x ∈ dn
  disj : ∀ x ∈ maybe.map (·.mid), ∀ p, x ∉ r p
  nodup : (maybe.map (·.mid)).Nodup
  link : ∀ p c, c ∈ r p → ∃ m ∈ msgs, m.mid = c ∧ m.irt = p
  mem : ∀ m ∈ maybe, m ∈ msgs

theorem p1_via {msgs : List Msg} {dn : List Str} {r r' : Replies} {maybe : List Msg} {m : Msg}
    (h : P1 msgs dn r maybe) (hm : m ∈ msgs) (hn : m.mid ∉ dn)
    (hv : viaInReplyTo (msgs.map (·.mid)) r m = some r') : P1 msgs (dn ++ [m.mid]) r' maybe := by
  unfold viaInReplyTo at hv
  split at hv
  · rename_i hc
    have : r' = addReply r m.irt m.mid := by simpa using hv.symm
    subst this
    have hno : ∀ p, m.mid ∉ r p := fun p hp => hn (h.within _ _ hp).2
    constructor
    · exact forest_addReply h.forest hno
    · intro p c hp
      rw [mem_addReply] at hp
      rcases hp with hp | ⟨rfl, rfl⟩
      · exact ⟨(h.within _ _ hp).1, by simp [(h.within _ _ hp).2]⟩
      · exact ⟨hc.2, by simp⟩
    · intro x hx
      rw [List.mem_append, List.mem_singleton] at hx
      rcases hx with hx | rfl
      · rcases h.cover x hx with ⟨p, hp⟩ | hp
        · exact Or.inl ⟨p, mem_addReply.2 (Or.inl hp)⟩
        · exact Or.inr hp
      · exact Or.inl ⟨m.irt, mem_addReply.2 (Or.inr ⟨rfl, rfl⟩)⟩
    · intro x hx; simp [h.sub x hx]
    · intro x hx p hp
      rw [mem_addReply] at hp
      rcases hp with hp | ⟨_, rfl⟩
      · exact h.disj x hx p hp
      · exact hn (h.sub _ hx)
    · exact h.nodup
    · intro p c hp
      rw [mem_addReply] at hp
      rcases hp with hp | ⟨rfl, rfl⟩
      · exact h.link p c hp
      · exact ⟨m, hm, rfl, rfl⟩
    · exact h.mem
  · simp at hv

theorem p1_maybe {msgs : List Msg} {dn : List Str} {r : Replies} {maybe : List Msg} {m : Msg}
    (h : P1 msgs dn r maybe) (hm : m ∈ msgs) (hn : m.mid ∉ dn) : P1 msgs (dn ++ [m.mid]) r (maybe ++ [m]) := by
  have hno : ∀ p, m.mid ∉ r p := fun p hp => hn (h.within _ _ hp).2
  constructor
  · exact h.forest
  · intro p c hp; exact ⟨(h.within _ _ hp).1, by simp [(h.within _ _ hp).2]⟩
  · intro x hx
    rw [List.mem_append, List.mem_singleton] at hx
    rcases hx with hx | rfl
    · rcases h.cover x hx with hp | hp
      · exact Or.inl hp
      · exact Or.inr (by rw [List.map_append]; exact List.mem_append_left _ hp)
    · exact Or.inr (by simp)
  · intro x hx
    rw [List.map_append, List.mem_append] at hx
    rcases hx with hx | hx
    · simp [h.sub x hx]
    · simp at hx; simp [hx]
  · intro x hx
    rw [List.map_append, List.mem_append] at hx
    rcases hx with hx | hx
    · exact h.disj x hx
    · simp at hx; subst hx; exact hno
  · rw [List.map_append, List.nodup_append]
    refine ⟨h.nodup, by simp, ?_⟩
    rintro a ha b hb rfl
    simp at hb; subst hb
    exact hn (h.sub _ ha)
  · exact h.link
  · intro x hx
    rw [List.mem_append, List.mem_singleton] at hx
    rcases hx with hx | rfl
    · exact h.mem x hx
    · exact hm

theorem p1_pass1 {msgs : List Msg} : ∀ (l : List Msg) (dn : List Str) (r : Replies) (maybe : List Msg),
    P1 msgs dn r maybe → (∀ m ∈ l, m ∈ msgs) → (dn ++ l.map (·.mid)).Nodup →
    P1 msgs (dn ++ l.map (·.mid)) (pass1 (msgs.map (·.mid)) l (r, maybe)).1 (pass1 (msgs.map (·.mid)) l (r, maybe)).2 := by
  intro l
  induction l with
  | nil => intro dn r maybe h _ _; simpa [pass1] using h
  | cons m l ih =>
    intro dn r maybe h hm hnd
    have hn : m.mid ∉ dn := by
      intro hc
      rw [List.nodup_append] at hnd
      exact hnd.2.2 _ hc m.mid (by simp) rfl
    have e : dn ++ (m :: l).map (·.mid) = (dn ++ [m.mid]) ++ l.map (·.mid) := by simp
    rw [e] at hnd ⊢
    rw [pass1]
    cases hv : viaInReplyTo (msgs.map (·.mid)) r m with
    | some r' => exact ih _ r' maybe (p1_via h (hm m (by simp)) hn hv) (fun x hx => hm x (by simp [hx])) hnd
    | none => exact ih _ r _ (p1_maybe h (hm m (by simp)) hn) (fun x hx => hm x (by simp [hx])) hnd

theorem p1_first {msgs : List Msg} {dn : List Str} {first : Msg} {s : Replies × List Msg} (h : P1 msgs dn s.1 s.2)
    (hm : first ∈ msgs) (hn : first.mid ∉ dn) :
    P1 msgs (dn ++ [first.mid]) (passFirst (msgs.map (·.mid)) first s).1 (passFirst (msgs.map (·.mid)) first s).2 ∧
      (passFirst (msgs.map (·.mid)) first s).2 ≠ [] := by
  unfold passFirst
  split
  · exact ⟨p1_maybe h hm hn, by simp⟩
  · rename_i hne
    cases hv : viaInReplyTo (msgs.map (·.mid)) s.1 first with
    | some r' => exact ⟨p1_via h hm hn hv, by simpa using hne⟩
    | none => exact ⟨p1_maybe h hm hn, by simp⟩

/-- While the candidates `todo` are placed. -/
structure P3 (msgs : List Msg) (r : Replies) (top : List Str) (todo : List Msg) : Prop where
  forest : Forest r
  within : Within (msgs.map (·.mid)) r
  cover : ∀ x ∈ msgs.map (·.mid), (∃ p, x ∈ r p) ∨ x ∈ top ∨ x ∈ todo.map (·.mid)
  topsub : ∀ x ∈ top, x ∈ msgs.map (·.mid)
  topfree : ∀ x ∈ top, ∀ p, x ∉ r p
  topnodup : top.Nodup
  todofree : ∀ m ∈ todo, m ∈ msgs ∧ m.mid ∉ top ∧ ∀ p, m.mid ∉ r p
  todonodup : (todo.map (·.mid)).Nodup
  link : ∀ p c, c ∈ r p → ∃ m ∈ msgs, m.mid = c ∧ (m.irt = p ∨ p ∈ m.refs)

theorem chooseParent_mem {ids : List Str} {depth : Str → Nat} {refs : List Str} {p : Str}
    (h : chooseParent ids depth refs = some p) : p ∈ ids ∧ p ∈ refs := by
  have gen : ∀ (l : List Str) (s : Nat × Option Str), (∀ q, s.2 = some q → q ∈ ids ∧ q ∈ refs) →
      (∀ x ∈ l, x ∈ refs) → ∀ q, (l.foldl (fun (s : Nat × Option Str) ref =>
      if ref ∈ ids then
        if depth ref > s.1 ∨ s.2 = none then (depth ref, some ref) else s
      else s) s).2 = some q → q ∈ ids ∧ q ∈ refs := by
    intro l
    induction l with
    | nil => intro s hs _; simpa using hs
    | cons a l ih =>
      intro s hs hl q
      rw [List.foldl_cons]
      apply ih
      · intro q' hq'
        split at hq'
        · split at hq'
          · rename_i ha _
            have : a = q' := by simpa using hq'
            subst this
            exact ⟨ha, hl a (by simp)⟩
          · exact hs q' hq'
        · exact hs q' hq'
      · exact fun x hx => hl x (by simp [hx])
  exact gen refs (0, none) (by simp) (fun x hx => hx) p h

theorem p3_reply {msgs : List Msg} {r : Replies} {top : List Str} {m : Msg} {todo : List Msg} {p : Str}
    (h : P3 msgs r top (m :: todo)) (hp : p ∈ msgs.map (·.mid)) (hr : p ∈ m.refs) :
    P3 msgs (addReply r p m.mid) top todo := by
  obtain ⟨hm, hnt, hnr⟩ := h.todofree m (by simp)
  have hnd := h.todonodup
  rw [List.map_cons, List.nodup_cons] at hnd
  constructor
  · exact forest_addReply h.forest hnr
  · intro q c hc
    rw [mem_addReply] at hc
    rcases hc with hc | ⟨rfl, rfl⟩
    · exact h.within q c hc
    · exact ⟨hp, List.mem_map_of_mem hm⟩
  · intro x hx
    rcases h.cover x hx with ⟨q, hq⟩ | hq | hq
    · exact Or.inl ⟨q, mem_addReply.2 (Or.inl hq)⟩
    · exact Or.inr (Or.inl hq)
    · rw [List.map_cons, List.mem_cons] at hq
      rcases hq with rfl | hq
      · exact Or.inl ⟨p, mem_addReply.2 (Or.inr ⟨rfl, rfl⟩)⟩
      · exact Or.inr (Or.inr hq)
  · exact h.topsub
  · intro x hx q hq
    rw [mem_addReply] at hq
    rcases hq with hq | ⟨rfl, rfl⟩
    · exact h.topfree x hx q hq
    · exact hnt hx
  · exact h.topnodup
  · intro m' hm'
    obtain ⟨h1, h2, h3⟩ := h.todofree m' (by simp [hm'])
    refine ⟨h1, h2, fun q hq => ?_⟩
    rw [mem_addReply] at hq
    rcases hq with hq | ⟨rfl, e⟩
    · exact h3 q hq
    · exact hnd.1 (e ▸ List.mem_map_of_mem hm')
  · exact hnd.2
  · intro q c hc
    rw [mem_addReply] at hc
    rcases hc with hc | ⟨rfl, rfl⟩
    · exact h.link q c hc
    · exact ⟨m, hm, rfl, Or.inr hr⟩

theorem p3_top {msgs : List Msg} {r : Replies} {top : List Str} {m : Msg} {todo : List Msg}
    (h : P3 msgs r top (m :: todo)) : P3 msgs r (top ++ [m.mid]) todo := by
  obtain ⟨hm, hnt, hnr⟩ := h.todofree m (by simp)
  have hnd := h.todonodup
  rw [List.map_cons, List.nodup_cons] at hnd
  constructor
  · exact h.forest
  · exact h.within
  · intro x hx
    rcases h.cover x hx with hq | hq | hq
    · exact Or.inl hq
    · exact Or.inr (Or.inl (by simp [hq]))
    · rw [List.map_cons, List.mem_cons] at hq
      rcases hq with rfl | hq
      · exact Or.inr (Or.inl (by simp))
      · exact Or.inr (Or.inr hq)
  · intro x hx
    rw [List.mem_append, List.mem_singleton] at hx
    rcases hx with hx | rfl
    · exact h.topsub x hx
    · exact List.mem_map_of_mem hm
  · intro x hx
    rw [List.mem_append, List.mem_singleton] at hx
    rcases hx with hx | rfl
    · exact h.topfree x hx
    · exact hnr
  · rw [List.nodup_append]
    refine ⟨h.topnodup, by simp, ?_⟩
    rintro a ha b hb rfl
    simp at hb; subst hb
    exact hnt ha
  · intro m' hm'
    obtain ⟨h1, h2, h3⟩ := h.todofree m' (by simp [hm'])
    refine ⟨h1, ?_, h3⟩
    rw [List.mem_append, List.mem_singleton]
    rintro (hx | hx)
    · exact h2 hx
    · exact hnd.1 (hx ▸ List.mem_map_of_mem hm')
  · exact hnd.2
  · exact h.link

theorem p3_pass3 {msgs : List Msg} (depth : Str → Nat) : ∀ (todo : List Msg) (r : Replies) (top : List Str),
    P3 msgs r top todo →
    P3 msgs (pass3 (msgs.map (·.mid)) depth todo (r, top)).1 (pass3 (msgs.map (·.mid)) depth todo (r, top)).2 [] ∧
    (todo ≠ [] ∨ top ≠ [] → (pass3 (msgs.map (·.mid)) depth todo (r, top)).2 ≠ []) ∧
    (∀ p c, c ∈ r p → c ∈ (pass3 (msgs.map (·.mid)) depth todo (r, top)).1 p) := by
  intro todo
  induction todo with
  | nil => intro r top h; exact ⟨by simpa [pass3] using h, by simp [pass3], by simp [pass3]⟩
  | cons m todo ih =>
    intro r top h
    rw [pass3]
    split
    · rename_i hc
      unfold parentOrToplevel
      split
      · rename_i p hp
        obtain ⟨h1, h2⟩ := chooseParent_mem hp
        obtain ⟨i1, i2, i3⟩ := ih _ _ (p3_reply h h1 h2)
        refine ⟨i1, fun _ => i2 (by simpa using hc), fun q c hq => i3 q c (mem_addReply.2 (Or.inl hq))⟩
      · obtain ⟨i1, i2, i3⟩ := ih _ _ (p3_top h)
        exact ⟨i1, fun _ => i2 (Or.inr (by simp)), i3⟩
    · obtain ⟨i1, i2, i3⟩ := ih _ _ (p3_top h)
      exact ⟨i1, fun _ => i2 (Or.inr (by simp)), i3⟩

/-- A message answering one in the thread is put under it by the first loop. -/
theorem pass1_mono {ids : List Str} : ∀ (l : List Msg) (r : Replies) (maybe : List Msg) (p c : Str), c ∈ r p →
    c ∈ (pass1 ids l (r, maybe)).1 p := by
  intro l
  induction l with
  | nil => intro r maybe p c h; exact h
  | cons m l ih =>
    intro r maybe p c h
    rw [pass1]
    cases hv : viaInReplyTo ids r m with
    | some r' =>
      apply ih
      unfold viaInReplyTo at hv
      split at hv
      · have : r' = addReply r m.irt m.mid := by simpa using hv.symm
        subst this
        exact mem_addReply.2 (Or.inl h)
      · simp at hv
    | none => exact ih _ _ _ _ h

theorem pass1_reply {ids : List Str} : ∀ (l : List Msg) (r : Replies) (maybe : List Msg) (m : Msg), m ∈ l →
    m.irt ≠ [] → m.irt ∈ ids → m.mid ∈ (pass1 ids l (r, maybe)).1 m.irt := by
  intro l
  induction l with
  | nil => intro r maybe m hm; simp at hm
  | cons a l ih =>
    intro r maybe m hm h1 h2
    rw [pass1]
    rcases List.mem_cons.1 hm with rfl | hm
    · have : viaInReplyTo ids r m = some (addReply r m.irt m.mid) := by
        unfold viaInReplyTo; rw [if_pos ⟨h1, h2⟩]
      rw [this]
      exact pass1_mono l _ _ _ _ (mem_addReply.2 (Or.inr ⟨rfl, rfl⟩))
    · cases viaInReplyTo ids r a with
      | some r' => exact ih r' maybe m hm h1 h2
      | none => exact ih r _ m hm h1 h2

theorem passFirst_mono {ids : List Str} {first : Msg} {s : Replies × List Msg} {p c : Str} (h : c ∈ s.1 p) :
    c ∈ (passFirst ids first s).1 p := by
  unfold passFirst
  split
  · exact h
  · cases hv : viaInReplyTo ids s.1 first with
    | some r' =>
      unfold viaInReplyTo at hv
      split at hv
      · have : r' = addReply s.1 first.irt first.mid := by simpa using hv.symm
        subst this
        exact mem_addReply.2 (Or.inl h)
      · simp at hv
    | none => exact h

/-- The result of the linking. -/
theorem links_spec (msgs : List Msg) (hnd : (msgs.map (·.mid)).Nodup) :
    ∃ r top, links msgs = some (r, top) ∧ P3 msgs r top [] ∧ (msgs ≠ [] → top ≠ []) ∧
      (∀ m ∈ msgs.tail, m.irt ≠ [] → m.irt ∈ msgs.map (·.mid) → m.mid ∈ r m.irt) := by
  cases msgs with
  | nil =>
    refine ⟨fun _ => [], [], rfl, ?_, by simp, by simp⟩
    exact ⟨⟨by simp, by simp⟩, by intro p c h; simp at h, by simp, by simp, by simp, by simp, by simp, by simp, by simp⟩
  | cons first rest =>
    generalize hmsgs : first :: rest = msgs at *
    have hrest : ∀ m ∈ rest, m ∈ msgs := by intro m hm; rw [← hmsgs]; simp [hm]
    have hfirst : first ∈ msgs := by rw [← hmsgs]; simp
    have hnd' := hnd
    rw [← hmsgs, List.map_cons, List.nodup_cons] at hnd'
    have h0 : P1 msgs [] (fun _ => []) [] :=
      ⟨⟨by simp, by simp⟩, by simp, by simp, by simp, by simp, by simp, by simp, by simp⟩
    have h1 := p1_pass1 rest [] _ _ h0 hrest (by simpa using hnd'.2)
    obtain ⟨h2, hne⟩ := p1_first (first := first) h1 hfirst (by simpa using hnd'.1)
    have hmem : ∀ x, x ∈ [] ++ rest.map (·.mid) ++ [first.mid] ↔ x ∈ msgs.map (·.mid) := by
      intro x; rw [← hmsgs]; simp [or_comm]
    generalize hs : passFirst (msgs.map (·.mid)) first (pass1 (msgs.map (·.mid)) rest (fun _ => [], [])) = s at *
    have hw : Within (msgs.map (·.mid)) s.1 := fun p c hc => ⟨(h2.within p c hc).1, (hmem c).1 (h2.within p c hc).2⟩
    obtain ⟨depth, hdepth⟩ := (label_some h2.forest hw (msgs.length + 1)).2 (s.2.map (·.mid)) 0 (fun _ => 0) (by
      intro c hc
      exact ⟨(hmem c).1 (h2.sub c hc), [c], .root (h2.disj c hc), by simp⟩)
    have h3 : P3 msgs s.1 [] s.2 := by
      refine ⟨h2.forest, hw, ?_, by simp, by simp, by simp, ?_, h2.nodup, ?_⟩
      · intro x hx
        rcases h2.cover x ((hmem x).2 hx) with h | h
        · exact Or.inl h
        · exact Or.inr (Or.inr h)
      · intro m hm
        exact ⟨h2.mem m hm, by simp, h2.disj _ (List.mem_map_of_mem hm)⟩
      · intro p c hc
        obtain ⟨m, hm, e1, e2⟩ := h2.link p c hc
        exact ⟨m, hm, e1, Or.inl e2⟩
    obtain ⟨i1, i2, i3⟩ := p3_pass3 depth s.2 s.1 [] h3
    refine ⟨_, _, ?_, i1, fun _ => i2 (Or.inl hne), ?_⟩
    · rw [← hmsgs]
      simp only [links]
      rw [hmsgs, hs, hdepth]
    · intro m hm h4 h5
      apply i3
      rw [← hs]
      apply passFirst_mono
      apply pass1_reply
      · rw [← hmsgs] at hm; simpa using hm
      · exact h4
      · exact h5

end Notmuch.ThreadTree
