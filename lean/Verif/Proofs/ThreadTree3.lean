import Verif.Proofs.ThreadTree2

namespace Notmuch.ThreadTree
open Notmuch.ThreadTreeSpec

/-- Distance along replies. -/
inductive Dist (r : Replies) : Str → Str → Nat → Prop
  | refl (a : Str) : Dist r a a 0
  | step {a b c : Str} {n : Nat} : Dist r a b n → c ∈ r b → Dist r a c (n + 1)

theorem Dist.reach {r : Replies} {a b : Str} {n : Nat} (h : Dist r a b n) : Reach r a b := by
  induction h with
  | refl => exact .refl _
  | step _ hc ih => exact .step ih hc

theorem Dist.head {r : Replies} {a b : Str} {n : Nat} (h : Dist r a b n) :
    (a = b ∧ n = 0) ∨ ∃ c ∈ r a, ∃ k, n = k + 1 ∧ Dist r c b k := by
  induction h with
  | refl => exact Or.inl ⟨rfl, rfl⟩
  | @step b c n _ hc ih =>
    right
    rcases ih with ⟨rfl, rfl⟩ | ⟨d, hd, k, rfl, hk⟩
    · exact ⟨_, hc, 0, rfl, .refl _⟩
    · exact ⟨d, hd, k + 1, rfl, .step hk hc⟩

theorem label_spec {r : Replies} (hf : Forest r) (n : Nat) : ∀ (m : Str) (depth : Nat) (lab lab' : Str → Nat),
    label r n depth m lab = some lab' → (∃ t0, (∀ p, t0 ∉ r p) ∧ Reach r t0 m) →
    (∀ x k, Dist r m x k → lab' x = depth + k) ∧ (∀ x, ¬ Reach r m x → lab' x = lab x) := by
  induction n with
  | zero => intro m depth lab lab' h; simp [label] at h
  | succ n ih =>
    intro m depth lab lab' h hroot
    obtain ⟨t0, ht0, hr0⟩ := hroot
    rw [label] at h
    have gen : ∀ (cs : List Str) (lab lab' : Str → Nat), labelLoop (label r n (depth + 1)) cs lab = some lab' → cs.Nodup →
        (∀ c ∈ cs, c ∈ r m) →
        (∀ c ∈ cs, ∀ x k, Dist r c x k → lab' x = depth + 1 + k) ∧ (∀ x, (∀ c ∈ cs, ¬ Reach r c x) → lab' x = lab x) := by
      intro cs
      induction cs with
      | nil =>
        intro lab lab' h _ _
        have : lab = lab' := by simpa [labelLoop] using h
        subst this
        exact ⟨by simp, fun _ _ => rfl⟩
      | cons c cs ihc =>
        intro lab lab' h hnd hm
        rw [labelLoop] at h
        rw [List.nodup_cons] at hnd
        cases hl : label r n (depth + 1) c lab with
        | none => rw [hl] at h; simp at h
        | some lab1 =>
          rw [hl] at h
          have i1 := ih c (depth + 1) lab lab1 hl ⟨t0, ht0, .step hr0 (hm c (by simp))⟩
          have i2 := ihc lab1 lab' h hnd.2 (fun c hc => hm c (by simp [hc]))
          constructor
          · intro d hd x k hx
            rcases List.mem_cons.1 hd with rfl | hd
            · rw [i2.2 x, i1.1 x k hx]
              intro e he hr
              have := siblings hf ht0 hr0 (hm d (by simp)) (hm e (by simp [he])) hx.reach hr
              subst this
              exact hnd.1 he
            · exact i2.1 d hd x k hx
          · intro x hx
            rw [i2.2 x (fun d hd => hx d (by simp [hd])), i1.2 x (hx c (by simp))]
    have g := gen (r m) _ _ h (hf.nodup m) (fun _ hc => hc)
    constructor
    · intro x k hx
      rcases hx.head with ⟨rfl, rfl⟩ | ⟨c, hc, k', rfl, hk⟩
      · rw [g.2 m (fun c hc => acyclic hf ht0 hr0 c hc)]
        simp
      · rw [g.1 c hc x k' hk]; omega
    · intro x hx
      rw [g.2 x]
      · have : x ≠ m := fun e => hx (e ▸ .refl _)
        simp [this]
      · intro c hc hr
        exact hx (Reach.trans (.step (.refl m) hc) hr)

theorem labelAll_spec {r : Replies} (hf : Forest r) (n : Nat) : ∀ (cs : List Str) (lab lab' : Str → Nat),
    labelAll r n 0 cs lab = some lab' → cs.Nodup → (∀ c ∈ cs, ∀ p, c ∉ r p) →
    (∀ c ∈ cs, ∀ x k, Dist r c x k → lab' x = k) ∧ (∀ x, (∀ c ∈ cs, ¬ Reach r c x) → lab' x = lab x) := by
  intro cs
  induction cs with
  | nil =>
    intro lab lab' h _ _
    have : lab = lab' := by simpa [labelAll_nil] using h
    subst this
    exact ⟨by simp, fun _ _ => rfl⟩
  | cons c cs ih =>
    intro lab lab' h hnd ht
    rw [labelAll_cons] at h
    rw [List.nodup_cons] at hnd
    cases hl : label r n 0 c lab with
    | none => rw [hl] at h; simp at h
    | some lab1 =>
      rw [hl] at h
      have i1 := label_spec hf n c 0 lab lab1 hl ⟨c, ht c (by simp), .refl _⟩
      have i2 := ih lab1 lab' h hnd.2 (fun c hc => ht c (by simp [hc]))
      constructor
      · intro d hd x k hx
        rcases List.mem_cons.1 hd with rfl | hd
        · rw [i2.2 x, i1.1 x k hx, Nat.zero_add]
          intro e he hr
          have := roots_disjoint hf (ht d (by simp)) (ht e (by simp [he])) hx.reach hr
          subst this
          exact hnd.1 he
        · exact i2.1 d hd x k hx
      · intro x hx
        rw [i2.2 x (fun d hd => hx d (by simp [hd])), i1.2 x (hx c (by simp))]

/-- The choice of the parent. -/
theorem chooseParent_spec (ids : List Str) (depth : Str → Nat) (refs : List Str) :
    (chooseParent ids depth refs = none ↔ ∀ x ∈ refs, x ∉ ids) ∧
    (∀ p, chooseParent ids depth refs = some p → p ∈ refs ∧ p ∈ ids ∧ ∀ q ∈ refs, q ∈ ids → depth q ≤ depth p) := by
  have gen : ∀ (l : List Str) (s : Nat × Option Str), (∀ q, s.2 = some q → s.1 = depth q) →
      ∀ s', l.foldl (fun (s : Nat × Option Str) ref =>
      if ref ∈ ids then
        if depth ref > s.1 ∨ s.2 = none then (depth ref, some ref) else s
      else s) s = s' →
      (∀ q, s'.2 = some q → s'.1 = depth q) ∧
      (s'.2 = none ↔ s.2 = none ∧ ∀ x ∈ l, x ∉ ids) ∧
      (∀ q ∈ l, q ∈ ids → depth q ≤ s'.1) ∧ (s.2 ≠ none → s.1 ≤ s'.1) := by
    intro l
    induction l with
    | nil => intro s hs s' h; simp at h; subst h; exact ⟨hs, by simp, by simp, by simp⟩
    | cons a l ih =>
      intro s hs s' h
      rw [List.foldl_cons] at h
      by_cases ha : a ∈ ids
      · rw [if_pos ha] at h
        by_cases hc : depth a > s.1 ∨ s.2 = none
        · rw [if_pos hc] at h
          obtain ⟨j1, j2, j3, j4⟩ := ih (depth a, some a) (by rintro q hq; simp at hq; subst hq; rfl) s' h
          refine ⟨j1, ?_, ?_, ?_⟩
          · constructor
            · intro hn; have := (j2.1 hn).1; simp at this
            · rintro ⟨_, hx⟩; exact absurd ha (hx a (by simp))
          · intro q hq hqi
            rcases List.mem_cons.1 hq with rfl | hq
            · exact j4 (by simp)
            · exact j3 q hq hqi
          · intro hn
            have := j4 (by simp)
            rcases hc with hc | hc
            · simp at this; omega
            · exact absurd hc hn
        · rw [if_neg hc] at h
          obtain ⟨j1, j2, j3, j4⟩ := ih s hs s' h
          have hc1 : s.2 ≠ none := fun e => hc (Or.inr e)
          have hc2 : depth a ≤ s.1 := by
            apply Nat.le_of_not_lt
            exact fun e => hc (Or.inl e)
          refine ⟨j1, ?_, ?_, j4⟩
          · constructor
            · intro hn; exact absurd (j2.1 hn).1 hc1
            · rintro ⟨hn, _⟩; exact absurd hn hc1
          · intro q hq hqi
            rcases List.mem_cons.1 hq with rfl | hq
            · exact Nat.le_trans hc2 (j4 hc1)
            · exact j3 q hq hqi
      · rw [if_neg ha] at h
        obtain ⟨j1, j2, j3, j4⟩ := ih s hs s' h
        refine ⟨j1, ?_, ?_, j4⟩
        · rw [j2]
          constructor
          · rintro ⟨h1, h2⟩
            refine ⟨h1, fun x hx => ?_⟩
            rcases List.mem_cons.1 hx with rfl | hx
            · exact ha
            · exact h2 x hx
          · rintro ⟨h1, h2⟩; exact ⟨h1, fun x hx => h2 x (by simp [hx])⟩
        · intro q hq hqi
          rcases List.mem_cons.1 hq with rfl | hq
          · exact absurd hqi ha
          · exact j3 q hq hqi
  obtain ⟨j1, j2, j3, _⟩ := gen refs (0, none) (by simp) _ rfl
  constructor
  · unfold chooseParent
    rw [j2]; simp
  · intro p hp
    obtain ⟨h1, h2⟩ := chooseParent_mem hp
    refine ⟨h2, h1, fun q hq hqi => ?_⟩
    unfold chooseParent at hp
    rw [← j1 p hp]
    exact j3 q hq hqi

theorem pass3_mono {ids : List Str} {depth : Str → Nat} : ∀ (todo : List Msg) (s : Replies × List Str),
    (∀ p c, c ∈ s.1 p → c ∈ (pass3 ids depth todo s).1 p) ∧ (∀ x ∈ s.2, x ∈ (pass3 ids depth todo s).2) := by
  intro todo
  induction todo with
  | nil => intro s; exact ⟨fun _ _ h => h, fun _ h => h⟩
  | cons m todo ih =>
    intro s
    rw [pass3]
    split
    · obtain ⟨i1, i2⟩ := ih (parentOrToplevel ids depth s m)
      constructor
      · intro p c hc
        apply i1
        unfold parentOrToplevel
        split
        · exact mem_addReply.2 (Or.inl hc)
        · exact hc
      · intro x hx
        apply i2
        unfold parentOrToplevel
        split
        · exact hx
        · simp [hx]
    · obtain ⟨i1, i2⟩ := ih (s.1, s.2 ++ [m.mid])
      exact ⟨fun p c hc => i1 p c hc, fun x hx => i2 x (by simp [hx])⟩

/-- Where a candidate that is not the last one goes. -/
theorem pass3_place {ids : List Str} {depth : Str → Nat} (m last : Msg) : ∀ (todo : List Msg) (s : Replies × List Str),
    m ∈ todo →
    (∀ p, chooseParent ids depth m.refs = some p → m.mid ∈ (pass3 ids depth (todo ++ [last]) s).1 p) ∧
    (chooseParent ids depth m.refs = none → m.mid ∈ (pass3 ids depth (todo ++ [last]) s).2) := by
  intro todo
  induction todo with
  | nil => intro s h; simp at h
  | cons a todo ih =>
    intro s hm
    rw [List.cons_append, pass3, if_pos (Or.inl (by simp))]
    rcases List.mem_cons.1 hm with rfl | hm
    · obtain ⟨i1, i2⟩ := pass3_mono (ids := ids) (depth := depth) (todo ++ [last]) (parentOrToplevel ids depth s m)
      constructor
      · intro p hp
        apply i1
        unfold parentOrToplevel
        rw [hp]
        exact mem_addReply.2 (Or.inr ⟨rfl, rfl⟩)
      · intro hp
        apply i2
        unfold parentOrToplevel
        rw [hp]
        simp
    · exact ih _ hm

theorem pass1_maybe {ids : List Str} : ∀ (l : List Msg) (r : Replies) (maybe : List Msg) (m : Msg),
    m ∈ l ∨ m ∈ maybe → ¬ (m ∈ l ∧ m.irt ≠ [] ∧ m.irt ∈ ids) → m ∈ (pass1 ids l (r, maybe)).2 := by
  intro l
  induction l with
  | nil =>
    intro r maybe m hm _
    rcases hm with h | h
    · simp at h
    · exact h
  | cons a l ih =>
    intro r maybe m hm hno
    rw [pass1]
    have hno' : ¬ (m ∈ l ∧ m.irt ≠ [] ∧ m.irt ∈ ids) := fun h => hno ⟨by simp [h.1], h.2⟩
    cases hv : viaInReplyTo ids r a with
    | some r' =>
      apply ih _ _ _ _ hno'
      rcases hm with hm | hm
      · rcases List.mem_cons.1 hm with rfl | hm
        · exfalso
          unfold viaInReplyTo at hv
          split at hv
          · rename_i hc; exact hno ⟨by simp, hc⟩
          · simp at hv
        · exact Or.inl hm
      · exact Or.inr hm
    | none =>
      apply ih _ _ _ _ hno'
      rcases hm with hm | hm
      · rcases List.mem_cons.1 hm with rfl | hm
        · exact Or.inr (by simp)
        · exact Or.inl hm
      · exact Or.inr (by simp [hm])

/-- A message that answers nothing in the thread goes below the deepest of its references, or to the top. -/
theorem links_orphan (first : Msg) (rest : List Msg) (hnd : ((first :: rest).map (·.mid)).Nodup)
    (hfirst : ¬ Answers (first :: rest) first) (m : Msg) (hm : m ∈ rest) (ho : ¬ Answers (first :: rest) m) :
    ∃ r top, links (first :: rest) = some (r, top) ∧
      ((∀ x ∈ m.refs, x ∉ (first :: rest).map (·.mid)) → m.mid ∈ top) ∧
      ((∃ x ∈ m.refs, x ∈ (first :: rest).map (·.mid)) → ∃ p ∈ m.refs, m.mid ∈ r p ∧
        ∀ q ∈ m.refs, ∀ k, Depth (first :: rest) q (k + 1) → ∃ k' ≥ k + 1, Depth (first :: rest) p k') := by
  generalize hmsgs : first :: rest = msgs at *
  have hrest : ∀ m ∈ rest, m ∈ msgs := by intro m hm; rw [← hmsgs]; simp [hm]
  have hfm : first ∈ msgs := by rw [← hmsgs]; simp
  have hnd' := hnd
  rw [← hmsgs, List.map_cons, List.nodup_cons] at hnd'
  have h0 : P1 msgs [] (fun _ => []) [] :=
    ⟨⟨by simp, by simp⟩, by simp, by simp, by simp, by simp, by simp, by simp, by simp⟩
  have h1 := p1_pass1 rest [] _ _ h0 hrest (by simpa using hnd'.2)
  obtain ⟨h2, hne⟩ := p1_first (first := first) h1 hfm (by simpa using hnd'.1)
  have hmem : ∀ x, x ∈ [] ++ rest.map (·.mid) ++ [first.mid] ↔ x ∈ msgs.map (·.mid) := by
    intro x; rw [← hmsgs]; simp [or_comm]
  have hpf : passFirst (msgs.map (·.mid)) first (pass1 (msgs.map (·.mid)) rest (fun _ => [], [])) =
      ((pass1 (msgs.map (·.mid)) rest (fun _ => [], [])).1, (pass1 (msgs.map (·.mid)) rest (fun _ => [], [])).2 ++ [first]) := by
    unfold passFirst
    split
    · rfl
    · have : viaInReplyTo (msgs.map (·.mid)) (pass1 (msgs.map (·.mid)) rest (fun _ => [], [])).1 first = none := by
        unfold viaInReplyTo; exact if_neg hfirst
      rw [this]
  generalize hs1 : pass1 (msgs.map (·.mid)) rest (fun _ => [], []) = s1 at *
  rw [hpf] at h2
  simp only at h2
  have hmaybe : m ∈ s1.2 := by
    rw [← hs1]
    exact pass1_maybe _ _ _ _ (Or.inl hm) (fun h => ho h.2)
  have hw : Within (msgs.map (·.mid)) s1.1 := fun p c hc => ⟨(h2.within p c hc).1, (hmem c).1 (h2.within p c hc).2⟩
  obtain ⟨depth, hdepth⟩ := (label_some h2.forest hw (msgs.length + 1)).2 ((s1.2 ++ [first]).map (·.mid)) 0 (fun _ => 0) (by
    intro c hc
    exact ⟨(hmem c).1 (h2.sub c hc), [c], .root (h2.disj c hc), by simp⟩)
  have hlab := labelAll_spec h2.forest _ _ _ _ hdepth h2.nodup h2.disj
  -- depths
  have huniq : ∀ a ∈ msgs, ∀ b ∈ msgs, a.mid = b.mid → a = b := by
    intro a ha b hb e
    clear h2 hdepth hlab hmem hw
    induction msgs generalizing first rest with
    | nil => simp at ha
    | cons x l ih =>
      rw [List.map_cons, List.nodup_cons] at hnd
      rcases List.mem_cons.1 ha with ha' | ha' <;> rcases List.mem_cons.1 hb with hb' | hb'
      · rw [ha', hb']
      · exact absurd (by rw [← ha', e]; exact List.mem_map_of_mem hb') hnd.1
      · exact absurd (by rw [← hb', ← e]; exact List.mem_map_of_mem ha') hnd.1
      · have gen : ∀ l : List Msg, (l.map (·.mid)).Nodup → a ∈ l → b ∈ l → a = b := by
          intro l
          induction l with
          | nil => intro _ h; simp at h
          | cons y l ih =>
            intro hnd ha hb
            rw [List.map_cons, List.nodup_cons] at hnd
            rcases List.mem_cons.1 ha with ha' | ha' <;> rcases List.mem_cons.1 hb with hb' | hb'
            · rw [ha', hb']
            · exact absurd (by rw [← ha', e]; exact List.mem_map_of_mem hb') hnd.1
            · exact absurd (by rw [← hb', ← e]; exact List.mem_map_of_mem ha') hnd.1
            · exact ih hnd.2 ha' hb'
        exact gen l hnd.2 ha' hb'
  have hfwd : ∀ x k, Depth msgs x k → ∃ c ∈ (s1.2 ++ [first]).map (·.mid), Dist s1.1 c x k := by
    intro x k hd
    induction hd with
    | @orphan a ha hna =>
      refine ⟨a.mid, ?_, .refl _⟩
      apply List.mem_map_of_mem
      rw [← hmsgs] at ha
      rcases List.mem_cons.1 ha with rfl | ha
      · simp
      · rw [List.mem_append]; left
        rw [← hs1]
        exact pass1_maybe _ _ _ _ (Or.inl ha) (fun h => hna h.2)
    | @answer a n ha haa _ ih =>
      obtain ⟨c, hc, hd⟩ := ih
      refine ⟨c, hc, .step hd ?_⟩
      have har : a ∈ rest := by
        rw [← hmsgs] at ha
        rcases List.mem_cons.1 ha with rfl | ha
        · exact absurd haa hfirst
        · exact ha
      rw [← hs1]
      exact pass1_reply _ _ _ _ har haa.1 haa.2
  have horph : ∀ a ∈ s1.2 ++ [first], a ∈ msgs ∧ ¬ Answers msgs a := by
    intro a ha
    have ham := h2.mem a ha
    refine ⟨ham, fun haa => ?_⟩
    have har : a ∈ rest := by
      have := ham
      rw [← hmsgs] at this
      rcases List.mem_cons.1 this with rfl | h
      · exact absurd haa hfirst
      · exact h
    have := pass1_reply (ids := msgs.map (·.mid)) rest (fun _ => []) [] a har haa.1 haa.2
    rw [hs1] at this
    exact h2.disj a.mid (List.mem_map_of_mem ha) _ this
  have hbwd : ∀ c ∈ (s1.2 ++ [first]).map (·.mid), ∀ x k, Dist s1.1 c x k → Depth msgs x k := by
    intro c hc x k hd
    induction hd with
    | refl =>
      rw [List.mem_map] at hc
      obtain ⟨a, ha, rfl⟩ := hc
      obtain ⟨h3, h4⟩ := horph a ha
      exact .orphan h3 h4
    | @step b c' n _ hcb ih =>
      obtain ⟨a, ha, e1, e2⟩ := h2.link _ _ hcb
      subst e1; subst e2
      by_cases haa : Answers msgs a
      · exact .answer ha haa ih
      · exfalso
        -- an orphan is a candidate and not a reply
        have : a ∈ s1.2 ++ [first] := by
          have ha' := ha
          rw [← hmsgs] at ha'
          rcases List.mem_cons.1 ha' with rfl | ha'
          · simp
          · rw [List.mem_append]; left
            rw [← hs1]
            exact pass1_maybe _ _ _ _ (Or.inl ha') (fun h => haa h.2)
        exact h2.disj _ (List.mem_map_of_mem this) _ hcb
  have hreachdist : ∀ c x, Reach s1.1 c x → ∃ k, Dist s1.1 c x k := by
    intro c x h
    induction h with
    | refl => exact ⟨0, .refl _⟩
    | step _ hc ih => obtain ⟨k, hk⟩ := ih; exact ⟨k + 1, .step hk hc⟩
  have hdep : ∀ x k, Depth msgs x k → depth x = k := by
    intro x k hd
    obtain ⟨c, hc, hdist⟩ := hfwd x k hd
    exact hlab.1 c hc x k hdist
  have hdep2 : ∀ x, 0 < depth x → Depth msgs x (depth x) := by
    intro x hx
    by_cases hr : ∃ c ∈ (s1.2 ++ [first]).map (·.mid), Reach s1.1 c x
    · obtain ⟨c, hc, hr⟩ := hr
      obtain ⟨k, hk⟩ := hreachdist c x hr
      rw [hlab.1 c hc x k hk]
      exact hbwd c hc x k hk
    · have := hlab.2 x (fun c hc hr' => hr ⟨c, hc, hr'⟩)
      omega
  obtain ⟨c1, c2⟩ := chooseParent_spec (msgs.map (·.mid)) depth m.refs
  have hplace := pass3_place (ids := msgs.map (·.mid)) (depth := depth) m first s1.2 (s1.1, []) hmaybe
  refine ⟨(pass3 (msgs.map (·.mid)) depth (s1.2 ++ [first]) (s1.1, [])).1,
    (pass3 (msgs.map (·.mid)) depth (s1.2 ++ [first]) (s1.1, [])).2, ?_, ?_, ?_⟩
  · rw [← hmsgs]
    simp only [links]
    rw [hmsgs, hs1, hpf]
    simp only
    rw [hdepth]
  · intro hno
    exact hplace.2 (c1.2 hno)
  · rintro ⟨x, hx, hxi⟩
    cases hch : chooseParent (msgs.map (·.mid)) depth m.refs with
    | none => exact absurd hxi (c1.1 hch x hx)
    | some p =>
      obtain ⟨j1, j2, j3⟩ := c2 p hch
      refine ⟨p, j1, hplace.1 p hch, ?_⟩
      intro q hq k hk
      have hqi : q ∈ msgs.map (·.mid) := by
        generalize hkk : k + 1 = kk at hk
        cases hk with
        | orphan ha _ => exact List.mem_map_of_mem ha
        | answer ha _ _ => exact List.mem_map_of_mem ha
      have := j3 q hq hqi
      rw [hdep q _ hk] at this
      exact ⟨depth p, this, hdep2 p (by omega)⟩

end Notmuch.ThreadTree
