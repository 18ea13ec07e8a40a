import Verif.Proofs.ShowCrypto3

/-! # Signatures and encryption in `notmuch show`: the layers of a message (C69) -/

namespace Notmuch.ShowCrypto
open Notmuch.Mime (Part Policy Smime Decrypted As Legacy repairMixedUp legacyDisplay insertKey as_unique legacy_iff repair_some repair_none repair_mixedUp protectedSubject)

/-- The message's status after a layer. -/
def step (m : Msg) (x : Layer) : Msg :=
  let m := if x.opened then { m with status := .full } else m
  match x.looked with
  | some s => { m with sigs := s, sigsEncrypted := if m.status = .full then true else m.sigsEncrypted }
  | none => m

theorem step_payload (m : Msg) (x : Layer) : (step m x).payload = m.payload ∧ (step m x).subject = m.subject := by
  unfold step
  by_cases h : x.opened = true
  · rw [if_pos h]; cases x.looked <;> exact ⟨rfl, rfl⟩
  · rw [if_neg h]; cases x.looked <;> exact ⟨rfl, rfl⟩

theorem setUp_layer {E : Env} {p f : Part} {par : Option Part} {c : Nat} {st : St} {r : Set_ × St} (ha : As p f) (hu : ∀ i, f ≠ .unknown i) (h : layer E f (count f) st = some r) :
    setUp E p par c st = some r := by
  unfold setUp setUpOnce
  rw [as_shape ha hu]
  simp only [Option.map_some, h]

/-! ## Single parts -/

theorem single_walk {E : Env} {d : Nat} {par : Option Part} {s : Part} {c : Nat} {st st' : St} {n : Node} (hs : Single s) (h : walk E d par s c st = .ok (n, st')) :
    n = .node s noMarks [] ∧ st' = { st with msg := (notePayload s par c st.msg).2 } := by
  obtain ⟨i, t, a, f, co, rfl⟩ := hs
  obtain ⟨d', s1, st1, ns, rfl, h1, h2, rfl⟩ := walk_ok h
  have e : setUp E (.leaf i t a f co) par c st = some (⟨.leaf i t a f co, 0, none, noMarks⟩, { st with msg := (notePayload (.leaf i t a f co) par c st.msg).2 }) := by
    unfold setUp setUpOnce shape
    simp only [Option.map_some, layer]
    have hl : legacyDisplay (.leaf i t a f co) = none := rfl
    rw [hl]
    by_cases hb : ((notePayload (.leaf i t a f co) par c st.msg).1 && decide ((notePayload (.leaf i t a f co) par c st.msg).2.status = .full)) = true
    · rw [if_pos hb]
    · rw [if_neg hb]
  rw [e] at h1
  injection h1 with h1; injection h1 with e1 e2; subst e1 e2
  obtain ⟨rfl, rfl⟩ := walkList_nil h2
  exact ⟨rfl, rfl⟩

/-- The status is the same, but for the payload. -/
def Core (m m' : Msg) : Prop := m'.sigs = m.sigs ∧ m'.sigsEncrypted = m.sigsEncrypted ∧ (m'.status = .full ↔ m.status = .full)

theorem core_payload {m0 : Msg} (p : Part) (par : Option Part) (c : Nat) {m : Msg} (h : Core m0 m) : Core m0 (notePayload p par c m).2 := by
  unfold notePayload
  split
  · exact h
  · split
    · exact h
    · split
      · exact h
      · split <;> exact h

theorem payload_twice {p : Part} {par : Option Part} {c : Nat} {m : Msg} (h : m.payload = true) : (notePayload p par c m).2 = m := by
  unfold notePayload
  rw [if_pos h]

theorem payload_first {p : Part} {par : Option Part} {c : Nat} {m : Msg} (h : m.payload = false) (hc : isControl p par c = false) :
    (notePayload p par c m).2.payload = true ∧ ((notePayload p par c m).2.subject = if m.status = .full ∨ m.sigs ≠ none then (protectedSubject p).or m.subject else m.subject) := by
  unfold notePayload
  rw [if_neg (by rw [h]; decide), if_neg (by rw [hc]; decide)]
  by_cases hn : m.status ≠ .full ∧ m.sigs = none
  · rw [if_pos hn, if_neg (by rintro (h | h); exact hn.1 h; exact h hn.2)]
    exact ⟨rfl, rfl⟩
  · rw [if_neg hn, if_pos (by grind)]
    cases protectedSubject p <;> exact ⟨rfl, rfl⟩

/-! ## Decryption of a layer -/

theorem noteSigs_step {m : Msg} {x : Layer} {s : Option Sigs} (h : m.payload = false) (hl : x.looked = some s) (ho : x.opened = false) : noteSigs s m = step m x := by
  unfold noteSigs step
  rw [if_neg (by rw [h]; decide), ho, hl]
  rfl

theorem decryption_step {m : Msg} {x : Layer} {s : Option Sigs} (h : m.payload = false) (hl : x.looked = s.map some) (ho : x.opened = true) {ks : List Str} {lg : List Eff} :
    (decryptedSigs s ⟨noteDecryption m, ks, lg⟩).msg = step m x := by
  rw [decryptedSigs_msg]
  unfold step noteDecryption
  rw [ho, hl, h]
  cases s with
  | none => rfl
  | some s =>
    simp only [Option.map_some, Bool.not_false, if_true, noteSigs, h, Bool.false_eq_true, if_false]

theorem opens_node {E : Env} {keys keys' : List Str} {p q : Part} {sigs : Option Sigs} {n : Nat} {st : St} (h : Opens E keys p q sigs keys') (hk : st.keys = keys)
    (hpl : st.msg.payload = false) {x : Layer} (hl : x.looked = sigs.map some) (ho : x.opened = true) :
    ∃ st1, decryptNode E p n st = (⟨p, n, some q, ⟨true, true, sigs.isSome, sigs⟩⟩, st1) ∧ st1.keys = keys' ∧ st1.msg = step st.msg x := by
  subst hk
  have hp : E.policy ≠ .false := by
    cases h with
    | session h _ => exact h
    | secret h _ _ => rw [h]; simp
    | none h _ _ => rw [h]; simp
    | stash h _ _ => rw [h]; simp
  rcases decryptNode_spec E p n st hp with ⟨q', s', l, k, r, sk, h1, h2, h3, e⟩ | ⟨hlk, hauto, e⟩ | ⟨hlk, hp2, hd, e⟩ | ⟨q', s', sk, hlk, hp2, hd, e⟩
  · have hnl : ¬ Locked E st.keys p := fun hh => by rw [hh k (by rw [h1]; simp)] at h3; cases h3
    cases h with
    | session _ hu =>
      obtain ⟨l', k', r', sk', g1, g2, g3⟩ := hu
      have : q' = q ∧ s' = sigs := by
        rw [h1] at g1
        have key : ∀ (l l' : List Str), l ++ k :: r = l' ++ k' :: r' → (∀ x ∈ l, E.decrypt p (some x) = none) → (∀ x ∈ l', E.decrypt p (some x) = none) → k = k' := by
          intro l
          induction l with
          | nil =>
            intro l' hh _ b
            cases l' with
            | nil => injection hh
            | cons y l' =>
              injection hh with e1 _
              have := b y (by simp)
              rw [← e1, h3] at this
              cases this
          | cons x l ih =>
            intro l' hh a b
            cases l' with
            | nil =>
              injection hh with e1 _
              have := a x (by simp)
              rw [e1, g3] at this
              cases this
            | cons y l' =>
              injection hh with _ e2
              exact ih l' e2 (fun z hz => a z (by simp [hz])) (fun z hz => b z (by simp [hz]))
        have := key l l' g1 h2 g2
        subst this
        rw [h3] at g3
        injection g3 with g3; injection g3 with a b; injection b with b _
        exact ⟨a, b⟩
      obtain ⟨rfl, rfl⟩ := this
      exact ⟨_, e, by rw [decryptedSigs_keys], decryption_step hpl hl ho⟩
    | secret _ hh _ => exact absurd hh hnl
    | none _ hh _ => exact absurd hh hnl
    | stash _ hh _ => exact absurd hh hnl
  · cases h with
    | session _ hu =>
      obtain ⟨l', k', r', sk', g1, g2, g3⟩ := hu
      rw [hlk k' (by rw [g1]; simp)] at g3; cases g3
    | secret h _ _ => rw [h] at hauto; cases hauto
    | none h _ _ => rw [h] at hauto; cases hauto
    | stash h _ _ => rw [h] at hauto; cases hauto
  · cases h with
    | session _ hu =>
      obtain ⟨l', k', r', sk', g1, g2, g3⟩ := hu
      rw [hlk k' (by rw [g1]; simp)] at g3; cases g3
    | secret _ _ g => rw [hd] at g; cases g
    | none _ _ g => rw [hd] at g; cases g
    | stash _ _ g => rw [hd] at g; cases g
  · have same : ∀ {sk'}, E.decrypt p none = some (q, sigs, sk') → q' = q ∧ s' = sigs ∧ sk = sk' := by
      intro sk' g
      rw [hd] at g
      injection g with g; injection g with a b; injection b with b c
      exact ⟨a, b, c⟩
    cases h with
    | session _ hu =>
      obtain ⟨l', k', r', sk', g1, g2, g3⟩ := hu
      rw [hlk k' (by rw [g1]; simp)] at g3; cases g3
    | secret hn _ g =>
      obtain ⟨rfl, rfl, rfl⟩ := same g
      refine ⟨_, e, ?_, by rw [stash_msg]; exact decryption_step hpl hl ho⟩
      unfold stash
      rw [if_neg (by rw [hn]; simp), decryptedSigs_keys]
    | none ht _ g =>
      obtain ⟨rfl, rfl, rfl⟩ := same g
      refine ⟨_, e, ?_, by rw [stash_msg]; exact decryption_step hpl hl ho⟩
      unfold stash
      rw [if_pos ht, if_pos ht, decryptedSigs_keys]
    | stash ht _ g =>
      obtain ⟨rfl, rfl, rfl⟩ := same g
      refine ⟨_, e, ?_, by rw [stash_msg]; exact decryption_step hpl hl ho⟩
      unfold stash
      rw [if_pos ht, if_pos ht]
      show insertKey _ (decryptedSigs _ _).keys = _
      rw [decryptedSigs_keys]

theorem closed_node {E : Env} {keys : List Str} {p : Part} {n : Nat} {st : St} (h : Closed E keys p) (hk : st.keys = keys) :
    ∃ st1, decryptNode E p n st = (⟨p, n, none, ⟨!keys.isEmpty || E.policy != .auto, false, false, none⟩⟩, st1) ∧ st1.keys = keys ∧ st1.msg = st.msg := by
  subst hk
  obtain ⟨hp, hl, ho⟩ := h
  rcases decryptNode_spec E p n st hp with ⟨q', s', l, k, r, sk, h1, h2, h3, e⟩ | ⟨hlk, hauto, e⟩ | ⟨hlk, hp2, hd, e⟩ | ⟨q', s', sk, hlk, hp2, hd, e⟩
  · rw [hl k (by rw [h1]; simp)] at h3; cases h3
  · refine ⟨{ st with log := st.log ++ asks p st.keys }, ?_, rfl, rfl⟩
    rw [e, hauto]
    simp
  · refine ⟨{ st with log := st.log ++ asks p st.keys ++ [.askSecret p] }, ?_, rfl, rfl⟩
    rw [e]
    rcases hp2 with hp2 | hp2 <;> simp [hp2]
  · rcases ho with ho | ho
    · rw [ho] at hp2; rcases hp2 with hp2 | hp2 <;> cases hp2
    · rw [ho] at hd; cases hd

/-! ## The content -/

/-- What is shown for the content. -/
def ContentNode (f : Part) (m : Node) : Prop := m.part = f ∨ ∃ a b, Legacy f a b ∧ As b m.part

theorem notLayer {E : Env} {f : Part} {n : Nat} {st : St} (h : ¬ IsLayer E f) : layer E f n st = none := by
  unfold layer
  split
  · rw [if_neg]
    intro hp
    exact h (.inr (.inl ⟨_, _, rfl, hp⟩))
  · rw [if_neg]
    intro hp
    exact h (.inl ⟨_, _, rfl, hp⟩)
  · exact absurd (.inr (.inr (.inl ⟨_, _, rfl⟩))) h
  · rw [if_neg]
    intro hp
    exact h (.inr (.inr (.inr ⟨_, _, rfl, hp⟩)))
  · rfl

theorem content_walk {E : Env} {d : Nat} {par : Option Part} {p f : Part} {c : Nat} {st st' : St} {n : Node} (ha : As p f) (hf : ¬ IsLayer E f) (hpl : st.msg.payload = false)
    (hc : isControl f par c = false) (h : walk E d par p c st = .ok (n, st')) :
    ContentNode f n ∧ Settled (notePayload f par c st.msg).2 st'.msg := by
  obtain ⟨d', s, st1, ns, rfl, h1, h2, rfl⟩ := walk_ok h
  have hset : Settled (notePayload f par c st.msg).2 (notePayload f par c st.msg).2 := ⟨(payload_first hpl hc).1, rfl, rfl, rfl, Iff.rfl⟩
  have key : Settled (notePayload f par c st.msg).2 st1.msg ∧ (s.part = f ∨ ∃ a b, Legacy f a b ∧ As b s.part) := by
    unfold setUp at h1
    have hu : ∀ i, f ≠ .unknown i := by
      intro i e
      subst e
      have hs : shape p = none := by
        cases hs : shape p with
        | none => rfl
        | some r =>
          obtain ⟨f', m⟩ := r
          obtain ⟨a, _, b⟩ := shape_as hs
          have := as_unique a
          rw [as_unique ha] at this
          exact absurd this.symm (b i)
      have : setUpOnce E p par c st = none := by unfold setUpOnce; rw [hs]; rfl
      rw [this] at h1
      cases h1
    have honce : setUpOnce E p par c st = some
        (if (notePayload f par c st.msg).1 && (notePayload f par c st.msg).2.status = .full then
          match legacyDisplay f with
          | some q => (.inr q, { st with msg := (notePayload f par c st.msg).2 })
          | none => (.inl ⟨f, count f, none, noMarks⟩, { st with msg := (notePayload f par c st.msg).2 })
        else (.inl ⟨f, count f, none, noMarks⟩, { st with msg := (notePayload f par c st.msg).2 })) := by
      unfold setUpOnce
      rw [as_shape ha hu]
      simp only [Option.map_some, notLayer hf]
      rfl
    rw [honce] at h1
    by_cases hb : ((notePayload f par c st.msg).1 && decide ((notePayload f par c st.msg).2.status = .full)) = true
    · rw [if_pos hb] at h1
      cases hl : legacyDisplay f with
      | none =>
        rw [hl] at h1
        injection h1 with h1; injection h1 with e1 e2; subst e1 e2
        exact ⟨hset, .inl rfl⟩
      | some q =>
        rw [hl] at h1
        simp only at h1
        split at h1
        · rename_i s2 st2 hs2
          injection h1 with h1; injection h1 with e1 e2; subst e1 e2
          obtain ⟨a, hleg⟩ := legacy_iff.1 hl
          obtain ⟨f2, ha2, _, ⟨s, e, _, hp⟩ | ⟨_, _, e, _⟩⟩ := once_made hs2
          · injection e with e; subst e
            refine ⟨?_, .inr ⟨a, q, hleg, by rw [hp]; exact ha2⟩⟩
            exact keep_once (keeps_settled E _) hset hs2
          · cases e
        · cases h1
    · rw [if_neg hb] at h1
      injection h1 with h1; injection h1 with e1 e2; subst e1 e2
      exact ⟨hset, .inl rfl⟩
  refine ⟨key.2, ?_⟩
  exact keep_list (J := fun x => Settled (notePayload f par c st.msg).2 x.msg) (fun p c st n st' a b => keep_walk (keeps_settled E _) _ _ p c st n st' a b) _ _ _ _ _ key.1 h2

/-! ## All layers -/

/-- What a walk through the layers leaves, and what it shows. -/
structure Passed (E : Env) (m m' : Msg) (n : Node) (ls : List Layer) (pl : Option Part) : Prop where
  core : Core (ls.foldl step m) m'
  shown : ∃ inner, [n] = wrap ls inner ∧ (pl = none → inner = []) ∧ ∀ f, pl = some f → ∃ x, inner = [x] ∧ ContentNode f x
  subject : ∀ f, pl = some f → m'.payload = true ∧
    m'.subject = if (ls.foldl step m).status = .full ∨ (ls.foldl step m).sigs ≠ none then (protectedSubject f).or m.subject else m.subject

/-- One more layer around. -/
theorem passed_cons {E : Env} {m m' m'' : Msg} {n : Node} {ls : List Layer} {pl : Option Part} {x : Layer} (h : Passed E (step m x) m' n ls pl) (hc : Core m' m'')
    (hp : m'.payload = true → m'' = m') : Passed E m m'' (x.around [n]) (x :: ls) pl := by
  obtain ⟨h1, ⟨inner, e, a, b⟩, h3⟩ := h
  refine ⟨?_, ⟨inner, ?_, a, b⟩, ?_⟩
  · obtain ⟨c1, c2, c3⟩ := h1
    obtain ⟨d1, d2, d3⟩ := hc
    exact ⟨d1.trans c1, d2.trans c2, d3.trans c3⟩
  · rw [wrap, ← e]
  · intro f hf
    obtain ⟨k1, k2⟩ := h3 f hf
    rw [hp k1]
    refine ⟨k1, ?_⟩
    rw [(step_payload m x).2] at k2
    exact k2

theorem core_refl (m : Msg) : Core m m := ⟨rfl, rfl, Iff.rfl⟩

theorem layers_walk {E : Env} {keys : List Str} {p : Part} {ls : List Layer} {pl : Option Part} (hl : Layers E keys p ls pl) :
    ∀ (d : Nat) (par : Option Part) (c : Nat) (st : St) (n : Node) (st' : St), st.msg.payload = false → st.keys = keys → (∀ q, isControl q par c = false) →
      walk E d par p c st = .ok (n, st') → Passed E st.msg st'.msg n ls pl := by
  induction hl with
  | @content keys p f ha hf =>
    intro d par c st n st' hpl hk hc h
    obtain ⟨h1, h2⟩ := content_walk ha hf hpl (hc f) h
    obtain ⟨s1, s2, s3, s4, s5⟩ := h2
    obtain ⟨c1, c2, c3⟩ := core_payload f par c (core_refl st.msg)
    obtain ⟨_, p2⟩ := payload_first (p := f) (par := par) (c := c) hpl (hc f)
    refine ⟨⟨s2.trans c1, s3.trans c2, s5.trans c3⟩, ⟨[n], rfl, (fun e => by cases e), fun g hg => ?_⟩, fun g hg => ?_⟩
    · injection hg with hg; subst hg
      exact ⟨n, rfl, h1⟩
    · injection hg with hg; subst hg
      exact ⟨s1, s4.trans p2⟩
  | @signed keys p i co s ls pl ha hv hs hl ih =>
    intro d par c st n st' hpl hk hc h
    obtain ⟨d', s1, st1, ns, rfl, h1, h2, rfl⟩ := walk_ok h
    rw [setUp_layer (r := verifyNode E (.multipart .signed i [co, s]) 2 none st) ha (fun _ e => by cases e) (by simp only [layer, count, List.length_cons, List.length_nil, hv]; rfl)] at h1
    injection h1 with h1
    have e1 := congrArg Prod.fst h1
    have e2 := congrArg Prod.snd h1
    simp only at e1 e2
    have hm : st1.msg = step st.msg (.signed (.multipart .signed i [co, s]) s (E.verify (.multipart .signed i [co, s])).1) := by
      rw [← e2]
      exact noteSigs_step hpl rfl rfl
    have hk1 : st1.keys = keys := by rw [← e2, ← hk]; rfl
    subst e1
    have h2' : walkList (walk E d' (some (.multipart .signed i [co, s]))) 0 [some co, some s] st1 = .ok (ns, st') := h2
    obtain ⟨_, n1, st2, ns1, e, w1, w2, rfl⟩ := walkList_cons h2'
    injection e with e; subst e
    obtain ⟨_, n2, st3, ns2, e, w3, w4, rfl⟩ := walkList_cons w2
    injection e with e; subst e
    obtain ⟨rfl, rfl⟩ := walkList_nil w4
    have hin := ih _ _ _ _ _ _ (by rw [hm, (step_payload _ _).1]; exact hpl) hk1 (fun q => rfl) w1
    obtain ⟨rfl, rfl⟩ := single_walk hs w3
    rw [hm] at hin
    exact passed_cons hin (core_payload _ _ _ (core_refl _)) (fun hp => payload_twice hp)
  | @signedData keys i e sigs q ls pl hv hl ih =>
    intro d par c st n st' hpl hk hc h
    obtain ⟨d', s1, st1, ns, rfl, h1, h2, rfl⟩ := walk_ok h
    rw [setUp_layer (r := verifyNode E (.pkcs7 i .signedData e) 0 (E.verify (.pkcs7 i .signedData e)).2 st) (repair_none rfl) (fun _ e => by cases e) rfl] at h1
    injection h1 with h1
    have e1 := congrArg Prod.fst h1
    have e2 := congrArg Prod.snd h1
    simp only at e1 e2
    have hm : st1.msg = step st.msg (.signedData (.pkcs7 i .signedData e) sigs) := by
      rw [← e2]
      show noteSigs (E.verify (.pkcs7 i .signedData e)).1 st.msg = _
      rw [hv]
      exact noteSigs_step hpl rfl rfl
    have hk1 : st1.keys = keys := by rw [← e2, ← hk]; rfl
    subst e1
    have hch : childParts (verifyNode E (.pkcs7 i .signedData e) 0 (E.verify (.pkcs7 i .signedData e)).2 st).1 = [some q] := by rw [hv]; rfl
    rw [hch] at h2
    obtain ⟨_, n1, st2, ns1, e', w1, w2, rfl⟩ := walkList_cons h2
    injection e' with e'; subst e'
    obtain ⟨rfl, rfl⟩ := walkList_nil w2
    have hin := ih _ _ _ _ _ _ (by rw [hm, (step_payload _ _).1]; exact hpl) hk1 (fun q => rfl) w1
    rw [hm] at hin
    have hmk : (verifyNode E (.pkcs7 i .signedData e) 0 (E.verify (.pkcs7 i .signedData e)).2 st).1.marks = ⟨false, false, true, sigs⟩ := by
      show Marks.mk _ _ _ _ = _
      rw [hv]
    rw [hmk]
    exact passed_cons hin (core_refl _) (fun _ => rfl)
  | @unsigned keys i e sigs hv =>
    intro d par c st n st' hpl hk hc h
    obtain ⟨d', s1, st1, ns, rfl, h1, h2, rfl⟩ := walk_ok h
    rw [setUp_layer (r := verifyNode E (.pkcs7 i .signedData e) 0 (E.verify (.pkcs7 i .signedData e)).2 st) (repair_none rfl) (fun _ e => by cases e) rfl] at h1
    injection h1 with h1
    have e1 := congrArg Prod.fst h1
    have e2 := congrArg Prod.snd h1
    simp only at e1 e2
    have hm : st1.msg = step st.msg (.signedData (.pkcs7 i .signedData e) sigs) := by
      rw [← e2]
      show noteSigs (E.verify (.pkcs7 i .signedData e)).1 st.msg = _
      rw [hv]
      exact noteSigs_step hpl rfl rfl
    subst e1
    have hch : childParts (verifyNode E (.pkcs7 i .signedData e) 0 (E.verify (.pkcs7 i .signedData e)).2 st).1 = [] := by rw [hv]; rfl
    rw [hch] at h2
    obtain ⟨rfl, rfl⟩ := walkList_nil h2
    have hmk : (verifyNode E (.pkcs7 i .signedData e) 0 (E.verify (.pkcs7 i .signedData e)).2 st).1.marks = ⟨false, false, true, sigs⟩ := by
      show Marks.mk _ _ _ _ = _
      rw [hv]
    rw [hmk, hm]
    exact ⟨core_refl _, ⟨[], rfl, fun _ => rfl, fun f hf => by cases hf⟩, fun f hf => by cases hf⟩
  | @encrypted keys p i v co q sigs keys' ls pl ha hv ho hl ih =>
    intro d par c st n st' hpl hk hc h
    obtain ⟨d', s1, st1, ns, rfl, h1, h2, rfl⟩ := walk_ok h
    have hp : E.policy ≠ .false := by
      cases ho with
      | session h _ => exact h
      | secret h _ _ => rw [h]; simp
      | none h _ _ => rw [h]; simp
      | stash h _ _ => rw [h]; simp
    obtain ⟨st0, hd, hk0, hm⟩ := opens_node (n := 2) (x := .encrypted (.multipart .encrypted i [v, co]) v (some sigs) true) ho hk hpl (by cases sigs <;> rfl) rfl
    rw [setUp_layer (r := decryptNode E (.multipart .encrypted i [v, co]) 2 st) ha (fun _ e => by cases e)
      (by simp only [layer, count, List.length_cons, List.length_nil]; rw [if_pos hp]; rfl), hd] at h1
    injection h1 with h1; injection h1 with e1 e2; subst e1 e2
    have h2' : walkList (walk E d' (some (.multipart .encrypted i [v, co]))) 0 [some v, some q] st0 = .ok (ns, st') := h2
    obtain ⟨_, n1, st2, ns1, e, w1, w2, rfl⟩ := walkList_cons h2'
    injection e with e; subst e
    obtain ⟨_, n2, st3, ns2, e, w3, w4, rfl⟩ := walkList_cons w2
    injection e with e; subst e
    obtain ⟨rfl, rfl⟩ := walkList_nil w4
    have hpl0 : st0.msg.payload = false := by rw [hm, (step_payload _ _).1]; exact hpl
    obtain ⟨hvs, a, b, ht, hpr⟩ := hv
    obtain ⟨rfl, rfl⟩ := single_walk hvs w1
    have hctl : isControl v (some (.multipart .encrypted i [v, co])) 0 = true := by
      unfold isControl
      simp only [ht, hpr]
      simp
    have hsame : (notePayload v (some (.multipart .encrypted i [v, co])) 0 st0.msg).2 = st0.msg := by
      unfold notePayload
      rw [if_neg (by rw [hpl0]; decide), if_pos hctl]
    rw [hsame] at w3
    have hin := ih _ _ _ _ _ _ hpl0 hk0 (fun q => by simp [isControl]) w3
    rw [hm] at hin
    exact passed_cons hin (core_refl _) (fun _ => rfl)
  | @closed keys p i v co ls pl ha hv ho hl ih =>
    intro d par c st n st' hpl hk hc h
    obtain ⟨d', s1, st1, ns, rfl, h1, h2, rfl⟩ := walk_ok h
    have hp : E.policy ≠ .false := ho.1
    obtain ⟨st0, hd, hk0, hm⟩ := closed_node (n := 2) ho hk
    rw [setUp_layer (r := decryptNode E (.multipart .encrypted i [v, co]) 2 st) ha (fun _ e => by cases e)
      (by simp only [layer, count, List.length_cons, List.length_nil]; rw [if_pos hp]; rfl), hd] at h1
    injection h1 with h1; injection h1 with e1 e2; subst e1 e2
    have h2' : walkList (walk E d' (some (.multipart .encrypted i [v, co]))) 0 [some v, some co] st0 = .ok (ns, st') := h2
    obtain ⟨_, n1, st2, ns1, e, w1, w2, rfl⟩ := walkList_cons h2'
    injection e with e; subst e
    obtain ⟨_, n2, st3, ns2, e, w3, w4, rfl⟩ := walkList_cons w2
    injection e with e; subst e
    obtain ⟨rfl, rfl⟩ := walkList_nil w4
    have hpl0 : st0.msg.payload = false := by rw [hm]; exact hpl
    obtain ⟨hvs, a, b, ht, hpr⟩ := hv
    obtain ⟨rfl, rfl⟩ := single_walk hvs w1
    have hctl : isControl v (some (.multipart .encrypted i [v, co])) 0 = true := by
      unfold isControl
      simp only [ht, hpr]
      simp
    have hsame : (notePayload v (some (.multipart .encrypted i [v, co])) 0 st0.msg).2 = st0.msg := by
      unfold notePayload
      rw [if_neg (by rw [hpl0]; decide), if_pos hctl]
    rw [hsame] at w3
    have hin := ih _ _ _ _ _ _ hpl0 hk0 (fun q => by simp [isControl]) w3
    rw [hm] at hin
    exact passed_cons (x := .encrypted (.multipart .encrypted i [v, co]) v none (!keys.isEmpty || E.policy != .auto)) hin (core_refl _) (fun _ => rfl)
  | @enveloped keys i e q sigs keys' ls pl ho hl ih =>
    intro d par c st n st' hpl hk hc h
    obtain ⟨d', s1, st1, ns, rfl, h1, h2, rfl⟩ := walk_ok h
    have hp : E.policy ≠ .false := by
      cases ho with
      | session h _ => exact h
      | secret h _ _ => rw [h]; simp
      | none h _ _ => rw [h]; simp
      | stash h _ _ => rw [h]; simp
    obtain ⟨st0, hd, hk0, hm⟩ := opens_node (n := 0) (x := .enveloped (.pkcs7 i .envelopedData e) (some sigs) true) ho hk hpl (by cases sigs <;> rfl) rfl
    rw [setUp_layer (r := (⟨.pkcs7 i .envelopedData e, 1, some q, ⟨true, true, sigs.isSome, sigs⟩⟩, st0)) (repair_none rfl) (fun _ e => by cases e)
      (by simp only [layer, count, hd]; rw [if_pos hp]; rfl)] at h1
    injection h1 with h1; injection h1 with e1 e2; subst e1 e2
    have h2' : walkList (walk E d' (some (.pkcs7 i .envelopedData e))) 0 [some q] st0 = .ok (ns, st') := h2
    obtain ⟨_, n1, st2, ns1, e', w1, w2, rfl⟩ := walkList_cons h2'
    injection e' with e'; subst e'
    obtain ⟨rfl, rfl⟩ := walkList_nil w2
    have hin := ih _ _ _ _ _ _ (by rw [hm, (step_payload _ _).1]; exact hpl) hk0 (fun q => rfl) w1
    rw [hm] at hin
    exact passed_cons hin (core_refl _) (fun _ => rfl)
  | @sealed keys i e ho =>
    intro d par c st n st' hpl hk hc h
    obtain ⟨d', s1, st1, ns, rfl, h1, h2, rfl⟩ := walk_ok h
    have hp : E.policy ≠ .false := ho.1
    obtain ⟨st0, hd, hk0, hm⟩ := closed_node (n := 0) ho hk
    rw [setUp_layer (r := (⟨.pkcs7 i .envelopedData e, 0, none, ⟨!keys.isEmpty || E.policy != .auto, false, false, none⟩⟩, st0)) (repair_none rfl) (fun _ e => by cases e)
      (by simp only [layer, count, hd]; rw [if_pos hp]; rfl)] at h1
    injection h1 with h1; injection h1 with e1 e2; subst e1 e2
    obtain ⟨rfl, rfl⟩ := walkList_nil h2
    rw [hm]
    exact ⟨core_refl _, ⟨[], rfl, fun _ => rfl, fun f hf => by cases hf⟩, fun f hf => by cases hf⟩

end Notmuch.ShowCrypto
