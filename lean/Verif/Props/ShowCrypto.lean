import Verif.Proofs.ShowCrypto5

/-! # C69: signatures and encryption in `notmuch show` -/

namespace Notmuch.Props
open Notmuch.ShowCrypto
open Notmuch.Mime (Part Policy Smime Decrypted As Legacy Protects Info insertKey protects_iff)

/-! ## Keys -/

/-- **C69.** The agent is asked for secret keys only with the policies `nostash` and `true`, and only for a part that no session key of the message opens. -/
theorem C69_secret {E : ShowCrypto.Env} {d : Nat} {keys : List Str} {p : Part} {n : Node} {st : ShowCrypto.St} (h : showBody E d keys p = .ok (n, st)) (q : Part) (hq : .askSecret q ∈ st.log) :
    (E.policy = .nostash ∨ E.policy = .true) ∧ ∀ k ∈ keys, E.decrypt q (some k) = none :=
  (keep_walk (keeps_uses E keys) _ _ _ _ _ _ _ (uses_start E keys) h).secret q hq

/-- **C69.** A session key that is tried is one of the message, and none is tried with the policy `false`. -/
theorem C69_session {E : ShowCrypto.Env} {d : Nat} {keys : List Str} {p : Part} {n : Node} {st : ShowCrypto.St} (h : showBody E d keys p = .ok (n, st)) (q : Part) (k : Str)
    (hq : .askKey q k ∈ st.log) : k ∈ st.keys ∧ E.policy ≠ .false :=
  (keep_walk (keeps_uses E keys) _ _ _ _ _ _ _ (uses_start E keys) h).key q k hq

/-- **C69.** Showing a message takes no session key from it.  It adds exactly those that a secret key gave for one of the parts, and only with the policy `true`
(`--decrypt=stash`). -/
theorem C69_stash {E : ShowCrypto.Env} {d : Nat} {keys : List Str} {p : Part} {n : Node} {st : ShowCrypto.St} (h : showBody E d keys p = .ok (n, st)) (k : Str) :
    k ∈ st.keys ↔ k ∈ keys ∨ (E.policy = .true ∧ ∃ q c s, .askSecret q ∈ st.log ∧ E.decrypt q none = some (c, s, some k)) := by
  have hu := keep_walk (keeps_uses E keys) _ _ _ _ _ _ _ (uses_start E keys) h
  constructor
  · intro hk
    rcases hu.new k hk with h1 | h1
    · exact .inl h1
    · exact .inr (hu.stored k h1).2
  · rintro (h1 | ⟨hp, q, c, s, h1, h2⟩)
    · exact hu.kept k h1
    · exact (hu.stored k (hu.all hp q c s k h1 h2)).1

/-- **C69.** The message is indexed again after it was shown exactly if it has got a session key that it did not have. -/
theorem C69_reindex {E : ShowCrypto.Env} {d : Nat} {keys : List Str} {p : Part} {n : Node} {st : ShowCrypto.St} (h : showBody E d keys p = .ok (n, st)) :
    indexesAgain E keys st.keys = true ↔ ∃ k ∈ st.keys, k ∉ keys := by
  have hm := keep_walk (keeps_more E keys) _ _ _ _ _ _ _ (⟨fun _ h => h, .inl rfl⟩ : More keys (start keys)) h
  have hu := keep_walk (keeps_uses E keys) _ _ _ _ _ _ _ (uses_start E keys) h
  unfold indexesAgain
  rcases hm.2 with e | ⟨hl, k, hk, hn⟩
  · rw [e]
    simp
  · have hp : E.policy = .true := by
      rcases hu.new k hk with h1 | h1
      · exact absurd h1 hn
      · exact (hu.stored k h1).2.1
    rw [hp]
    simp only [beq_self_eq_true, Bool.true_and, decide_eq_true_eq]
    exact ⟨fun _ => ⟨k, hk, hn⟩, fun _ => hl⟩

/-- **C69.** Without verification, only PKCS#7 signed data is verified (it could not be read else). -/
theorem C69_verify {E : ShowCrypto.Env} {d : Nat} {keys : List Str} {p : Part} {n : Node} {st : ShowCrypto.St} (h : showBody E d keys p = .ok (n, st)) (q : Part) (hq : .verify q ∈ st.log) :
    E.verifies = true ∨ ∃ i e, q = .pkcs7 i .signedData e :=
  (keep_walk (keeps_uses E keys) _ _ _ _ _ _ _ (uses_start E keys) h).verify q hq

/-- **C69.** With the policy `false`, what is shown does not depend on what any key opens. -/
theorem C69_blind {E : ShowCrypto.Env} (hp : E.policy = .false) (g : Part → Option Str → Option (Part × Option Sigs × Option Str)) (d : Nat) (keys : List Str) (p : Part) :
    showBody { E with decrypt := g } d keys p = showBody E d keys p := by
  refine walk_congr (J := fun _ => True) ⟨fun _ _ _ _ _ => trivial, fun _ _ _ _ _ _ => trivial, fun _ _ _ _ _ => trivial⟩ (fun q n st _ => ?_) _ _ _ _ _ trivial
  cases q with
  | multipart k i l => cases k <;> simp only [layer, hp, ne_eq, not_true_eq_false, if_false] <;> rfl
  | message i s q => rfl
  | pkcs7 i t e => cases t <;> simp only [layer, hp, ne_eq, not_true_eq_false, if_false] <;> rfl
  | leaf _ _ _ _ _ => rfl
  | unknown _ => rfl

private theorem tryKeys_same {E : ShowCrypto.Env} {g : Part → Option Str → Option (Part × Option Sigs × Option Str)} (q : Part) : ∀ (ks : List Str) (st : ShowCrypto.St),
    (∀ k ∈ ks, g q (some k) = E.decrypt q (some k)) → ShowCrypto.tryKeys { E with decrypt := g } q ks st = ShowCrypto.tryKeys E q ks st
  | [], _, _ => rfl
  | k :: ks, st, h => by
    have e : ({ E with decrypt := g } : ShowCrypto.Env).decrypt q (some k) = E.decrypt q (some k) := h k List.mem_cons_self
    rw [ShowCrypto.tryKeys, ShowCrypto.tryKeys, e, tryKeys_same q ks _ (fun k' hk => h k' (List.mem_cons_of_mem _ hk))]

/-- **C69.** With the policy `auto` (the default), it depends only on what the session keys of the message open: not on any secret key. -/
theorem C69_auto_blind {E : ShowCrypto.Env} (hp : E.policy = .auto) (g : Part → Option Str → Option (Part × Option Sigs × Option Str)) (d : Nat) (keys : List Str)
    (hg : ∀ q, ∀ k ∈ keys, g q (some k) = E.decrypt q (some k)) (p : Part) : showBody { E with decrypt := g } d keys p = showBody E d keys p := by
  have hJ : Keeps E (fun st => st.keys = keys) := by
    refine ⟨fun p n st hpol h => ?_, fun _ _ _ _ _ h => h, fun _ _ _ _ h => h⟩
    have := keeps_more E keys
    rcases decryptNode_spec E p n st hpol with ⟨q, s, l, k, r, sk, _, _, _, e⟩ | ⟨_, _, e⟩ | ⟨_, _, _, e⟩ | ⟨q, s, sk, _, h2, _, e⟩
    · rw [e]; simp only [decryptedSigs_keys]; exact h
    · rw [e]; exact h
    · rw [e]; exact h
    · rw [hp] at h2
      rcases h2 with h2 | h2 <;> cases h2
  refine walk_congr hJ (fun q n st hk => ?_) _ _ _ _ _ rfl
  have hd : ∀ q n, decryptNode { E with decrypt := g } q n st = decryptNode E q n st := by
    intro q n
    have hc : ShowCrypto.cryptoDecrypt { E with decrypt := g } q st = ShowCrypto.cryptoDecrypt E q st := by
      unfold ShowCrypto.cryptoDecrypt
      rw [tryKeys_same q st.keys st (by rw [hk]; exact hg q)]
      simp only [hp, if_true]
    unfold decryptNode
    rw [hc]
    rfl
  cases q with
  | multipart k i l => cases k <;> simp only [layer, hd] <;> rfl
  | message i s q => rfl
  | pkcs7 i t e => cases t <;> simp only [layer, hd] <;> rfl
  | leaf _ _ _ _ _ => rfl
  | unknown _ => rfl

/-! ## What is shown -/

/-- **C69.** Each node tells the truth: it shows its own parts, or the cleartext in place of the encrypted one; `encstatus` is good exactly if it was decrypted, with the
signatures that the decryption or the verification gave. -/
theorem C69_nodes {E : ShowCrypto.Env} {d : Nat} {keys : List Str} {p : Part} {n : Node} {st : ShowCrypto.St} (h : showBody E d keys p = .ok (n, st)) :
    Shows p n.part ∧ ∀ m, ShowCrypto.Within n m → Honest E keys st.keys m :=
  ⟨walk_shows h, walk_honest _ _ _ _ _ _ _ (uses_start E keys) (fun _ h => h) h⟩

/-- **C69.** The message counts as decrypted, in part or in full, exactly if some node was. -/
theorem C69_decrypted {E : ShowCrypto.Env} {d : Nat} {keys : List Str} {p : Part} {n : Node} {st : ShowCrypto.St} (h : showBody E d keys p = .ok (n, st)) (outer : Option Str) :
    (cryptoMap st.msg outer).decrypted ≠ none ↔ ∃ m, ShowCrypto.Within n m ∧ m.marks.success = true := by
  have := walk_status _ _ _ _ _ _ _ h
  have h0 : (start keys).msg.status = .none := rfl
  rw [h0] at this
  simp only [ne_eq, not_true_eq_false, false_or] at this
  rw [show (∃ m, ShowCrypto.Within n m ∧ m.marks.success = true) = Decrypts n from rfl, ← this]
  unfold cryptoMap
  by_cases hs : st.msg.status = .none
  · simp [hs]
  · simp [hs]

/-- **C69.** The subject that is shown is another than that of the message only if the message counts as signed or as decrypted in full. -/
theorem C69_subject_guard {E : ShowCrypto.Env} {d : Nat} {keys : List Str} {p : Part} {n : Node} {st : ShowCrypto.St} (h : showBody E d keys p = .ok (n, st)) (outer : Option Str)
    (hs : shownSubject st.msg outer ≠ outer) : (cryptoMap st.msg outer).signed ≠ none ∨ ∃ x, (cryptoMap st.msg outer).decrypted = some (true, x) := by
  have hg := keep_walk (keeps_guarded E) _ _ _ _ _ _ _ (fun hh => absurd rfl hh : Guarded (start keys).msg) h
  have hn : st.msg.subject ≠ none := by
    intro e
    apply hs
    unfold shownSubject
    rw [e]
  rcases (hg hn).2 with hf | hf
  · refine .inr ⟨if st.msg.subject.isSome && st.msg.subject != outer then some outer else none, ?_⟩
    unfold cryptoMap
    rw [hf]
    rfl
  · refine .inl ?_
    unfold cryptoMap
    cases hx : st.msg.sigs with
    | none => exact absurd hx hf
    | some s => simp

/-- **C69.** The status of a message whose layers are as they should be: it is signed with what the innermost layer says that was verified; it counts as decrypted in full exactly
if a layer was decrypted; the signatures count as encrypted exactly if they are in such a layer.  All that is shown is the layers with the control parts that belong to them,
and the content. -/
theorem C69_layers {E : ShowCrypto.Env} {d : Nat} {keys : List Str} {p : Part} {n : Node} {st : ShowCrypto.St} (h : showBody E d keys p = .ok (n, st)) {ls : List Layer} {pl : Option Part}
    (hl : Layers E keys p ls pl) (outer : Option Str) :
    (∃ e u, (cryptoMap st.msg outer).signed = (signatures ls).map (fun s => (s, e, u)) ∧ (e = true ↔ SignedInside ls)) ∧
    ((∃ x, (cryptoMap st.msg outer).decrypted = some (true, x)) ↔ ∃ x ∈ ls, x.opened = true) ∧
    ∃ inner, [n] = wrap ls inner ∧ (pl = none → inner = []) ∧ ∀ f, pl = some f → ∃ x, inner = [x] ∧ (x.part = f ∨ ∃ a b, Legacy f a b ∧ As b x.part) := by
  have hp := layers_walk hl d none 0 (start keys) n st rfl rfl (fun _ => rfl) h
  obtain ⟨c1, c2, c3⟩ := hp.core
  obtain ⟨f1, f2⟩ := fold_start ls (start keys).msg rfl rfl rfl
  have ff := fold_full ls (start keys).msg
  refine ⟨⟨st.msg.sigsEncrypted, st.msg.subject.isSome, ?_, ?_⟩, ?_, hp.shown⟩
  · unfold cryptoMap
    rw [c1, f1]
  · rw [c2]; exact f2
  · have h0 : (start keys).msg.status = .none := rfl
    rw [h0] at ff
    simp only [reduceCtorEq, false_or] at ff
    rw [← ff, ← c3]
    unfold cryptoMap
    by_cases hf : st.msg.status = .full
    · simp [hf]
    · by_cases hn : st.msg.status = .none
      · simp [hn]
      · simp only [hn, if_false]
        constructor
        · rintro ⟨x, hx⟩
          injection hx with hx; injection hx with hx _
          have : (st.msg.status == .full) = false := by simp [hf]
          rw [this] at hx
          cases hx
        · exact fun hx => absurd hx hf

/-- **C69.** The subject that is shown for such a message is the one that its content protects, if there is one and the message is signed or decrypted; else its own. -/
theorem C69_subject {E : ShowCrypto.Env} {d : Nat} {keys : List Str} {p f : Part} {n : Node} {st : ShowCrypto.St} (h : showBody E d keys p = .ok (n, st)) {ls : List Layer}
    (hl : Layers E keys p ls (some f)) (outer : Option Str) :
    (∀ s, ((∃ x ∈ ls, x.opened = true) ∨ signatures ls ≠ none) → Protects f s → shownSubject st.msg outer = some s) ∧
    ((¬ ((∃ x ∈ ls, x.opened = true) ∨ signatures ls ≠ none) ∨ ∀ s, ¬ Protects f s) → shownSubject st.msg outer = outer) := by
  have hp := layers_walk hl d none 0 (start keys) n st rfl rfl (fun _ => rfl) h
  obtain ⟨_, hs⟩ := hp.subject f rfl
  obtain ⟨f1, _⟩ := fold_start ls (start keys).msg rfl rfl rfl
  have ff := fold_full ls (start keys).msg
  have h0 : (start keys).msg.status = .none := rfl
  rw [h0] at ff
  simp only [reduceCtorEq, false_or] at ff
  have h1 : (start keys).msg.subject = none := rfl
  rw [f1, h1, Option.or_none] at hs
  refine ⟨fun s ho hpr => ?_, fun ho => ?_⟩
  · rw [if_pos (ho.imp ff.2 id), (protects_iff f s).2 hpr] at hs
    unfold shownSubject
    rw [hs]
  · have : st.msg.subject = none := by
      rw [hs]
      rcases ho with ho | ho
      · rw [if_neg (fun hh => ho (hh.imp ff.1 id))]
      · split
        · cases hx : Mime.protectedSubject f with
          | none => rfl
          | some s => exact absurd ((protects_iff f s).1 hx) (ho s)
        · rfl
    unfold shownSubject
    rw [this]

/-- **C69.** The signature is said to be of the subject exactly if the content protects one; for a message that counts as decrypted in full, the subject outside is shown exactly if the
content protects another one. -/
theorem C69_headers {E : ShowCrypto.Env} {d : Nat} {keys : List Str} {p f : Part} {n : Node} {st : ShowCrypto.St} (h : showBody E d keys p = .ok (n, st)) {ls : List Layer}
    (hl : Layers E keys p ls (some f)) (outer : Option Str) :
    (∀ s e u, (cryptoMap st.msg outer).signed = some (s, e, u) → (u = true ↔ ∃ t, Protects f t)) ∧
    (∀ x, (cryptoMap st.msg outer).decrypted = some (true, x) → ∀ o, x = some o ↔ o = outer ∧ ∃ t, Protects f t ∧ some t ≠ outer) := by
  have hp := layers_walk hl d none 0 (start keys) n st rfl rfl (fun _ => rfl) h
  obtain ⟨_, hs⟩ := hp.subject f rfl
  obtain ⟨c1, _, c3⟩ := hp.core
  have h1 : (start keys).msg.subject = none := rfl
  rw [h1, Option.or_none, ← c1] at hs
  simp only [← c3] at hs
  have hpr : ∀ t, Mime.protectedSubject f = some t ↔ Protects f t := protects_iff f
  refine ⟨fun s e u hx => ?_, fun x hx o => ?_⟩
  · unfold cryptoMap at hx
    cases hg : st.msg.sigs with
    | none => rw [hg] at hx; cases hx
    | some g =>
      rw [hg] at hx
      simp only [Option.map_some, Option.some.injEq, Prod.mk.injEq] at hx
      obtain ⟨_, _, rfl⟩ := hx
      rw [if_pos (.inr (by rw [hg]; simp))] at hs
      rw [hs, Option.isSome_iff_exists]
      exact exists_congr hpr
  · unfold cryptoMap at hx
    simp only at hx
    split at hx
    · cases hx
    · injection hx with hx; injection hx with hx1 hx2
      have hf : st.msg.status = .full := by simpa using hx1
      rw [if_pos (.inl hf)] at hs
      rw [← hx2, hs]
      cases hq : Mime.protectedSubject f with
      | none =>
        simp only [Option.isSome_none, Bool.false_and, Bool.false_eq_true, if_false]
        constructor
        · intro h; cases h
        · rintro ⟨_, t, ht, _⟩
          rw [(hpr t).2 ht] at hq; cases hq
      | some t =>
        have ht := (hpr t).1 hq
        by_cases ho : some t = outer
        · simp only [ho, Option.isSome_some, Bool.true_and, bne_self_eq_false, Bool.and_false, Bool.false_eq_true, if_false]
          constructor
          · intro h; cases h
          · rintro ⟨_, t', ht', hn⟩
            rw [(hpr t').2 ht'] at hq
            exact absurd (hq ▸ ho) hn
        · have hb : (some t != outer) = true := by simpa using ho
          simp only [Option.isSome_some, hb, Bool.and_self, if_true, Option.some.injEq]
          exact ⟨fun h => ⟨h.symm, t, ht, ho⟩, fun h => h.1.symm⟩

/-- **C69.** If the first part of multipart/encrypted is not of the type that belongs to the encryption, then that part is the content: signatures in the cleartext do not count. -/
theorem C69_no_control {E : ShowCrypto.Env} {d : Nat} {keys keys' : List Str} {p v c q : Part} {i : Info} {sigs : Option Sigs} {n : Node} {st : ShowCrypto.St}
    (h : showBody E d keys p = .ok (n, st)) (ha : As p (.multipart .encrypted i [v, c])) (hs : Single v)
    (hv : i.protocol = none ∨ v.info.type = none ∨ ∃ e a b, i.protocol = some e ∧ v.info.type = some (a, b) ∧ a ++ bs "/" ++ b ≠ e)
    (ho : Opens E keys (.multipart .encrypted i [v, c]) q sigs keys') (outer : Option Str) :
    ((cryptoMap st.msg outer).signed = sigs.map fun s => (s, true, st.msg.subject.isSome)) ∧ (∃ x, (cryptoMap st.msg outer).decrypted = some (true, x)) ∧
    (∀ t, Protects v t → shownSubject st.msg outer = some t) ∧ ((∀ t, ¬ Protects v t) → shownSubject st.msg outer = outer) := by
  obtain ⟨d', s1, st1, ns, rfl, h1, h2, rfl⟩ := walk_ok h
  have hp : E.policy ≠ .false := by
    cases ho with
    | session h _ => exact h
    | secret h _ _ => rw [h]; simp
    | none h _ _ => rw [h]; simp
    | stash h _ _ => rw [h]; simp
  obtain ⟨st0, hd, hk0, hm⟩ := opens_node (n := 2) (st := start keys) (x := .encrypted (.multipart .encrypted i [v, c]) v (some sigs) true) ho rfl rfl (by cases sigs <;> rfl) rfl
  rw [setUp_layer (r := decryptNode E (.multipart .encrypted i [v, c]) 2 (start keys)) ha (fun _ e => by cases e)
    (by simp only [layer, count, List.length_cons, List.length_nil]; rw [if_pos hp]; rfl), hd] at h1
  injection h1 with h1; injection h1 with e1 e2; subst e1 e2
  have h2' : walkList (walk E d' (some (.multipart .encrypted i [v, c]))) 0 [some v, some q] st0 = .ok (ns, st) := h2
  obtain ⟨_, n1, st2, ns1, e, w1, w2, rfl⟩ := walkList_cons h2'
  injection e with e; subst e
  obtain ⟨_, n2, st3, ns2, e, w3, w4, rfl⟩ := walkList_cons w2
  injection e with e; subst e
  obtain ⟨rfl, rfl⟩ := walkList_nil w4
  have hpl0 : st0.msg.payload = false := by rw [hm, (step_payload _ _).1]; rfl
  obtain ⟨rfl, rfl⟩ := single_walk hs w1
  have hctl : isControl v (some (.multipart .encrypted i [v, c])) 0 = false := by
    unfold isControl
    rcases hv with h | h | ⟨e, a, b, h1, h2, h3⟩
    · simp [h]
    · simp only [h]; cases i.protocol <;> rfl
    · simp [h1, h2, h3]
      simpa using h3
  obtain ⟨p1, p2⟩ := payload_first hpl0 hctl
  obtain ⟨k1, k2, k3⟩ := core_payload v (some (.multipart .encrypted i [v, c])) 0 (core_refl st0.msg)
  have hset := keep_walk (keeps_settled E (notePayload v (some (.multipart .encrypted i [v, c])) 0 st0.msg).2) _ _ _ _ { st0 with msg := (notePayload v (some (.multipart .encrypted i [v, c])) 0 st0.msg).2 } _ _
    ⟨p1, rfl, rfl, rfl, Iff.rfl⟩ w3
  obtain ⟨_, s2, s3, s4, s5⟩ := hset
  have hfull0 : st0.msg.status = .full := by rw [hm]; cases sigs <;> rfl
  have hsig0 : st0.msg.sigs = sigs := by rw [hm]; cases sigs <;> rfl
  have hfull : st.msg.status = .full := s5.2 (k3.2 hfull0)
  have hsig : st.msg.sigs = sigs := by rw [s2, k1, hsig0]
  have hsub : st.msg.subject = Mime.protectedSubject v := by
    rw [s4, p2, if_pos (.inl hfull0), hm, (step_payload _ _).2]
    exact Option.or_none
  have henc : ∀ s, sigs = some s → st.msg.sigsEncrypted = true := by
    rintro s rfl
    rw [s3, k2, hm]; rfl
  refine ⟨?_, ⟨if st.msg.subject.isSome && st.msg.subject != outer then some outer else none, ?_⟩, fun t ht => ?_, fun ht => ?_⟩
  · unfold cryptoMap
    simp only [hsig]
    cases hx : sigs with
    | none => rfl
    | some s => simp [henc s hx]
  · unfold cryptoMap
    rw [hfull]
    rfl
  · unfold shownSubject
    rw [hsub, (protects_iff v t).2 ht]
  · unfold shownSubject
    rw [hsub]
    cases hx : Mime.protectedSubject v with
    | none => rfl
    | some t => exact absurd ((protects_iff v t).1 hx) (ht t)

/-- A signature part, or the first part of an encrypted one. -/
def ControlOf (x : Layer) (p : Part) : Prop :=
  match x with
  | .signed _ s _ => p = s
  | .encrypted _ v _ _ => p = v
  | _ => False

private theorem wrap_within : ∀ (ls : List Layer) (inner : List Node) (n m : Node), n ∈ wrap ls inner → ShowCrypto.Within n m →
    (∃ a x b, ls = a ++ x :: b ∧ (m = x.around (wrap b inner) ∨ (ControlOf x m.part ∧ m = .node m.part noMarks []))) ∨ ∃ y ∈ inner, ShowCrypto.Within y m
  | [], inner, n, m, h, hw => .inr ⟨n, h, hw⟩
  | x :: ls, inner, n, m, h, hw => by
    rw [wrap] at h
    simp only [List.mem_cons, List.not_mem_nil, or_false] at h
    subst h
    cases hw with
    | refl => exact .inl ⟨[], x, ls, rfl, .inl rfl⟩
    | @child _ c _ hc hw =>
      have leaf : ∀ q, c = .node q noMarks [] → m = .node q noMarks [] := by
        intro q e
        subst e
        cases hw with
        | refl => rfl
        | child h _ => cases h
      have inn : c ∈ wrap ls inner → _ := fun hc => wrap_within ls inner c m hc hw
      have up : ((∃ a y b, ls = a ++ y :: b ∧ (m = y.around (wrap b inner) ∨ (ControlOf y m.part ∧ m = .node m.part noMarks []))) ∨ ∃ y ∈ inner, ShowCrypto.Within y m) →
          (∃ a y b, x :: ls = a ++ y :: b ∧ (m = y.around (wrap b inner) ∨ (ControlOf y m.part ∧ m = .node m.part noMarks []))) ∨ ∃ y ∈ inner, ShowCrypto.Within y m := by
        rintro (⟨a, y, b, e, h⟩ | h)
        · exact .inl ⟨x :: a, y, b, by rw [e]; rfl, h⟩
        · exact .inr h
      cases x with
      | signed p s g =>
        rcases List.mem_append.1 hc with hc | hc
        · exact up (inn hc)
        · simp at hc
          have := leaf s hc
          exact .inl ⟨[], _, ls, rfl, .inr (by rw [this]; exact ⟨rfl, rfl⟩)⟩
      | signedData p g => exact up (inn hc)
      | encrypted p v g t =>
        rcases List.mem_cons.1 hc with hc | hc
        · have := leaf v hc
          exact .inl ⟨[], _, ls, rfl, .inr (by rw [this]; exact ⟨rfl, rfl⟩)⟩
        · exact up (inn hc)
      | enveloped p g t => exact up (inn hc)

/-- **C69.** So whatever is shown of such a message is a layer, a control part of one, or in the content; nothing that is shown is outside the layer that gives the message its
status but the layers around it and their control parts. -/
theorem C69_covered {E : ShowCrypto.Env} {d : Nat} {keys : List Str} {p f : Part} {n : Node} {st : ShowCrypto.St} (h : showBody E d keys p = .ok (n, st)) {ls : List Layer}
    (hl : Layers E keys p ls (some f)) : ∃ y, [n] = wrap ls [y] ∧ ∀ m, ShowCrypto.Within n m → ShowCrypto.Within y m ∨
      ∃ a x b, ls = a ++ x :: b ∧ (m = x.around (wrap b [y]) ∨ (ControlOf x m.part ∧ m = .node m.part noMarks [])) := by
  have hp := layers_walk hl d none 0 (start keys) n st rfl rfl (fun _ => rfl) h
  obtain ⟨inner, e, _, hc⟩ := hp.shown
  obtain ⟨y, rfl, _⟩ := hc f rfl
  refine ⟨y, e, fun m hm => ?_⟩
  rcases wrap_within ls [y] n m (by rw [← e]; simp) hm with h | ⟨z, hz, h⟩
  · exact .inr h
  · simp at hz; subst hz; exact .inl h

/-! ## A message that is signed and encrypted, with a protected subject -/

private def crInfo (a b : String) : Info := ⟨some (bs a, bs b), none, none, none, none⟩

private def crVersion : Part := .leaf (crInfo "application" "pgp-encrypted") false false none (bs "Version: 1")

private def crSealed : Part :=
  .multipart .encrypted { crInfo "multipart" "encrypted" with protocol := some (bs "application/pgp-encrypted") } [crVersion, .leaf (crInfo "application" "octet-stream") false false none (bs "cipher")]

private def crText : Part := .leaf (crInfo "text" "plain") true false none (bs "hidden")

private def crContent : Part := .multipart .other { crInfo "multipart" "mixed" with protectedHeaders := some (bs "v1"), subject := some (bs "plan") }
  [.leaf { crInfo "text" "plain" with protectedHeaders := some (bs "v1") } true false none (bs "Subject: plan"), crText]

private def crSignature : Part := .leaf (crInfo "application" "pgp-signature") false false none (bs "sig")

private def crSigned : Part := .multipart .signed (crInfo "multipart" "signed") [crContent, crSignature]

private def crCipherOf : Part → Option Str
  | .multipart .encrypted _ [_, .leaf _ _ _ _ c] => some c
  | _ => none

/-- The secret key opens it and gives a session key; the signature is good (7). -/
private def crWorld (pol : Policy) (v : Bool) : ShowCrypto.Env where
  decrypt p k := if crCipherOf p = some (bs "cipher") ∧ (k = none ∨ k = some (bs "key")) then some (crSigned, none, some (bs "key")) else none
  verify p := match p with
    | .multipart .signed _ [.multipart .other _ _, .leaf _ _ _ _ s] => (if s = bs "sig" then some 7 else none, none)
    | _ => (none, none)
  policy := pol
  verifies := v

mutual
/-- The texts that are shown. -/
private def crTexts : Node → List Str
  | .node (.leaf _ true _ _ c) _ _ => [c]
  | .node _ _ l => crTextsL l
private def crTextsL : List Node → List Str
  | [] => []
  | n :: l => crTexts n ++ crTextsL l
end

/-- The signatures, the decryption, the subject and the texts that are shown, the session keys afterwards, and whether it is indexed again. -/
private structure CrOutcome where
  signed : Option (Sigs × Bool × Bool)
  decrypted : Option (Bool × Option (Option Str))
  subject : Option Str
  texts : List Str
  keys : List Str
  again : Bool
  deriving DecidableEq

private def crOutcome (pol : Policy) (v : Bool) (keys : List Str) (p : Part) : Option CrOutcome :=
  match showBody (crWorld pol v) 9 keys p with
  | .ok (n, st) =>
    let m := cryptoMap st.msg (some (bs "..."))
    some ⟨m.signed, m.decrypted, shownSubject st.msg (some (bs "...")), crTexts n, st.keys, indexesAgain (crWorld pol v) keys st.keys⟩
  | _ => none

/-- **C69, a concrete case.** What each of the options shows of it. -/
theorem C69_example :
    crOutcome .false true [bs "key"] crSealed = some ⟨none, none, some (bs "..."), [], [bs "key"], false⟩ ∧
    crOutcome .auto true [] crSealed = some ⟨none, none, some (bs "..."), [], [], false⟩ ∧
    crOutcome .auto true [bs "key"] crSealed = some ⟨some (7, true, true), some (true, some (some (bs "..."))), some (bs "plan"), [bs "hidden"], [bs "key"], false⟩ ∧
    crOutcome .nostash true [] crSealed = some ⟨some (7, true, true), some (true, some (some (bs "..."))), some (bs "plan"), [bs "hidden"], [], false⟩ ∧
    crOutcome .true true [] crSealed = some ⟨some (7, true, true), some (true, some (some (bs "..."))), some (bs "plan"), [bs "hidden"], [bs "key"], true⟩ ∧
    crOutcome .true false [] crSigned = some ⟨none, none, some (bs "..."), [bs "Subject: plan", bs "hidden"], [], false⟩ ∧
    crOutcome .true true [] crSigned = some ⟨some (7, false, true), none, some (bs "plan"), [bs "Subject: plan", bs "hidden"], [], false⟩ := by
  refine ⟨?_, ?_, ?_, ?_, ?_, ?_, ?_⟩ <;> decide +kernel

/-- The same without the parameter `protocol`: the hypotheses of `C69_no_control` are met, and the signature does not count. -/
example : ∃ i v c, Single v ∧ i.protocol = none ∧ crOutcome .true true [] (.multipart .encrypted i [v, c]) =
    some ⟨none, some (true, none), some (bs "..."), [bs "Subject: plan", bs "hidden"], [bs "key"], true⟩ :=
  ⟨crInfo "multipart" "encrypted", crVersion, .leaf (crInfo "application" "octet-stream") false false none (bs "cipher"), ⟨_, _, _, _, _, rfl⟩, rfl, by decide +kernel⟩

private theorem cr_as {k i l} (h : k ≠ .other) : As (.multipart k i l) (.multipart k i l) := .inl ⟨rfl, by
  rintro ⟨b, c, i, j, att, f, t, e, _⟩
  cases e
  exact h rfl⟩

private theorem cr_content : As crContent crContent := .inl ⟨rfl, by
  rintro ⟨b, c, i, j, att, f, t, e, _⟩
  unfold crContent at e
  cases e⟩

private theorem cr_open (pol : Policy) (hp : pol = .true) (v : Bool) : Opens (crWorld pol v) [] crSealed crSigned none (insertKey (bs "key") []) := by
  refine .stash (k := bs "key") hp (fun _ h => by cases h) ?_
  unfold crWorld
  simp only
  rw [if_pos (by decide +kernel)]

/-- The hypotheses of `C69_layers`, `C69_subject` and `C69_covered` are met. -/
example : ∃ n st, showBody (crWorld .true true) 9 [] crSealed = .ok (n, st) ∧ ∃ x y, Layers (crWorld .true true) [] crSealed [x, y] (some crContent) ∧
    x.opened = true ∧ y.looked = some (some 7) ∧ Protects crContent (bs "plan") := by
  have hs : (crOutcome .true true [] crSealed).isSome := by rw [C69_example.2.2.2.2.1]; rfl
  unfold crOutcome at hs
  cases h : showBody (crWorld .true true) 9 [] crSealed with
  | deep => rw [h] at hs; cases hs
  | crash => rw [h] at hs; cases hs
  | ok r =>
    obtain ⟨n, st⟩ := r
    refine ⟨n, st, rfl, _, _, .encrypted (cr_as (by decide)) ⟨⟨_, _, _, _, _, rfl⟩, _, _, rfl, by decide +kernel⟩ (cr_open _ rfl true)
      (.signed (cr_as (by decide)) rfl ⟨_, _, _, _, _, rfl⟩ (.content cr_content ?_)), rfl, ?_, ?_⟩
    · rintro (⟨_, _, e, _⟩ | ⟨_, _, e, _⟩ | ⟨_, _, e⟩ | ⟨_, _, e, _⟩) <;> (unfold crContent at e; cases e)
    · show some ((crWorld .true true).verify crSigned).1 = some (some 7)
      decide +kernel
    · exact .inr ⟨fun _ _ _ e => (by cases e), ⟨bs "v1", rfl, by decide +kernel⟩, rfl⟩

/-! ## What the status of the message does not say -/

private def noInfo : Info := ⟨none, none, none, none, none⟩
private def crLeaf (s : Str) : Part := .leaf noInfo true false none s
private def crSig : Part := .leaf noInfo false false none []

/-- The signature of the inner message is good; the outer one has a text in place of a signature. -/
private def crMixed : Part := .multipart .signed noInfo [.multipart .signed noInfo [crLeaf [1], crSig], crLeaf [2]]

/-- Only the inner one is signed. -/
private def crInner : ShowCrypto.Env where
  decrypt _ _ := none
  verify p := match p with
    | .multipart .signed _ [.leaf _ _ _ _ _, _] => (some 7, none)
    | _ => (none, none)
  policy := .auto
  verifies := true

private def crMixedNode : Node := .node crMixed ⟨false, false, true, none⟩
  [.node (.multipart .signed noInfo [crLeaf [1], crSig]) ⟨false, false, true, some 7⟩ [.node (crLeaf [1]) noMarks [], .node crSig noMarks []], .node (crLeaf [2]) noMarks []]

/-- **C69, what does not hold.** A message counts as signed although a text that is shown is not in any part with this signature: it stands where the signature around it should be. -/
theorem C69_signed_counterexample :
    ¬ ∀ (E : ShowCrypto.Env) (d : Nat) (keys : List Str) (p : Part) (n : Node) (st : ShowCrypto.St) (outer : Option Str) (s : Sigs) (e u : Bool),
      showBody E d keys p = .ok (n, st) → (cryptoMap st.msg outer).signed = some (s, e, u) →
      ∀ m, ShowCrypto.Within n m → (∃ i a f c, m.part = .leaf i true a f c) → ∃ x, ShowCrypto.Within n x ∧ x.marks.sigs = some s ∧ ShowCrypto.Within x m := by
  intro h
  obtain ⟨x, hx, hs, hm⟩ := h crInner 4 [] crMixed crMixedNode ⟨⟨.none, some 7, true, none, false⟩, [], [.verify crMixed, .verify (.multipart .signed noInfo [crLeaf [1], crSig])]⟩
    none 7 false false rfl rfl (.node (crLeaf [2]) noMarks []) (.child (c := .node (crLeaf [2]) noMarks []) (by simp [crMixedNode, Node.children]) .refl) ⟨_, _, _, _, rfl⟩
  have leaf : ∀ {q m}, ShowCrypto.Within (.node q noMarks []) m → m = .node q noMarks [] := by
    intro q m h
    cases h with
    | refl => rfl
    | child h _ => cases h
  cases hx with
  | refl => cases hs
  | @child _ c _ hc hx =>
    simp only [crMixedNode, Node.children, List.mem_cons, List.not_mem_nil, or_false] at hc
    rcases hc with rfl | rfl
    · cases hx with
      | refl =>
        cases hm with
        | @child _ c _ hc hm =>
          simp only [Node.children, List.mem_cons, List.not_mem_nil, or_false] at hc
          rcases hc with rfl | rfl <;> (have := leaf hm; cases this)
      | @child _ c _ hc hx =>
        simp only [Node.children, List.mem_cons, List.not_mem_nil, or_false] at hc
        rcases hc with rfl | rfl <;> (have := leaf hx; subst this; cases hs)
    · have := leaf hx; subst this; cases hs

/-- An encrypted message with a text where the signature around it should be. -/
private def crAround : Part := .multipart .signed noInfo [.multipart .encrypted noInfo [crSig, crSig], crLeaf [2]]

/-- The secret key opens it; there are no signatures. -/
private def crOpen : ShowCrypto.Env where
  decrypt _ _ := some (crLeaf [1], none, none)
  verify _ := (none, none)
  policy := .nostash
  verifies := true

private def crAroundNode : Node := .node crAround ⟨false, false, true, none⟩
  [.node (.multipart .encrypted noInfo [crSig, crSig]) ⟨true, true, false, none⟩ [.node crSig noMarks [], .node (crLeaf [1]) noMarks []], .node (crLeaf [2]) noMarks []]

/-- **C69, what does not hold.** A message counts as decrypted in full although a text that is shown is not in any part that was decrypted. -/
theorem C69_full_counterexample :
    ¬ ∀ (E : ShowCrypto.Env) (d : Nat) (keys : List Str) (p : Part) (n : Node) (st : ShowCrypto.St) (outer : Option Str) (x : Option (Option Str)),
      showBody E d keys p = .ok (n, st) → (cryptoMap st.msg outer).decrypted = some (true, x) →
      ∀ m, ShowCrypto.Within n m → (∃ i a f c, m.part = .leaf i true a f c) → ∃ x, ShowCrypto.Within n x ∧ x.marks.success = true ∧ ShowCrypto.Within x m := by
  intro h
  obtain ⟨x, hx, hs, hm⟩ := h crOpen 4 [] crAround crAroundNode ⟨⟨.full, none, true, none, false⟩, [], [.verify crAround, .askSecret (.multipart .encrypted noInfo [crSig, crSig])]⟩
    none none rfl rfl (.node (crLeaf [2]) noMarks []) (.child (c := .node (crLeaf [2]) noMarks []) (by simp [crAroundNode, Node.children]) .refl) ⟨_, _, _, _, rfl⟩
  have leaf : ∀ {q m}, ShowCrypto.Within (.node q noMarks []) m → m = .node q noMarks [] := by
    intro q m h
    cases h with
    | refl => rfl
    | child h _ => cases h
  cases hx with
  | refl => cases hs
  | @child _ c _ hc hx =>
    simp only [crAroundNode, Node.children, List.mem_cons, List.not_mem_nil, or_false] at hc
    rcases hc with rfl | rfl
    · cases hx with
      | refl =>
        cases hm with
        | @child _ c _ hc hm =>
          simp only [Node.children, List.mem_cons, List.not_mem_nil, or_false] at hc
          rcases hc with rfl | rfl <;> (have := leaf hm; cases this)
      | @child _ c _ hc hx =>
        simp only [Node.children, List.mem_cons, List.not_mem_nil, or_false] at hc
        rcases hc with rfl | rfl <;> (have := leaf hx; subst this; cases hs)
    · have := leaf hx; subst this; cases hs

end Notmuch.Props
