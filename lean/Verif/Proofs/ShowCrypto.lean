import Verif.Spec.ShowCrypto
import Verif.Proofs.Mime

/-! # Signatures and encryption in `notmuch show`: proofs (C69) -/

namespace Notmuch.ShowCrypto
open Notmuch.Mime (Part Policy Smime Decrypted As Legacy repairMixedUp legacyDisplay insertKey as_unique legacy_iff repair_some repair_none repair_mixedUp)

/-! ## The shape of parts -/

/-- How many children. -/
def count : Part → Nat
  | .multipart _ _ l => l.length
  | .message _ _ _ => 1
  | _ => 0

theorem shape_as {p f : Part} {n : Nat} (h : shape p = some (f, n)) : As p f ∧ n = count f ∧ ∀ i, f ≠ .unknown i := by
  unfold shape at h
  split at h
  · rename_i k i l
    split at h
    · rename_i k' i' l' hr
      injection h with h; injection h with h1 h2; subst h1 h2
      exact ⟨repair_some hr, rfl, fun _ e => by cases e⟩
    · rename_i hr
      injection h with h; injection h with h1 h2; subst h1 h2
      refine ⟨repair_none ?_, rfl, fun _ e => by cases e⟩
      cases hq : repairMixedUp (.multipart k i l) with
      | none => rfl
      | some q =>
        obtain ⟨b, c, _, e⟩ := repair_mixedUp hq
        subst e
        exact absurd hq (hr _ _ _)
  · injection h with h; injection h with h1 h2; subst h1 h2
    exact ⟨repair_none rfl, rfl, fun _ e => by cases e⟩
  · injection h with h; injection h with h1 h2; subst h1 h2
    exact ⟨repair_none rfl, rfl, fun _ e => by cases e⟩
  · injection h with h; injection h with h1 h2; subst h1 h2
    exact ⟨repair_none rfl, rfl, fun _ e => by cases e⟩
  · cases h

theorem as_shape {p f : Part} (h : As p f) (hu : ∀ i, f ≠ .unknown i) : shape p = some (f, count f) := by
  have e := as_unique h
  cases hs : shape p with
  | some r =>
    obtain ⟨f', n⟩ := r
    obtain ⟨h1, h2, _⟩ := shape_as hs
    have e' := as_unique h1
    rw [e] at e'
    subst e' h2
    rfl
  | none =>
    exfalso
    unfold shape at hs
    split at hs
    · split at hs <;> cases hs
    · cases hs
    · cases hs
    · cases hs
    · rename_i i
      have : f = .unknown i := e.symm
      exact hu i this

/-! ## What is kept in a walk -/

/-- It is kept by each step. -/
structure Keeps (E : Env) (J : St → Prop) : Prop where
  decrypt : ∀ p n st, E.policy ≠ .false → J st → J (decryptNode E p n st).2
  verify : ∀ p n u st, (E.verifies = true ∨ ∃ i d, p = .pkcs7 i .signedData d) → J st → J (verifyNode E p n u st).2
  payload : ∀ p par c st, J st → J { st with msg := (notePayload p par c st.msg).2 }

theorem keep_layer {E : Env} {J : St → Prop} (hJ : Keeps E J) {p : Part} {n : Nat} {st st' : St} {s : Set_} (h : J st) (hl : layer E p n st = some (s, st')) : J st' := by
  unfold layer at hl
  split at hl
  · split at hl
    · rename_i hp
      split at hl
      · injection hl with hl; injection hl with h1 h2; subst h2; exact h
      · injection hl with hl
        have := hJ.decrypt (.multipart .encrypted ‹_› ‹_›) n st hp h
        rw [hl] at this
        exact this
    · cases hl
  · split at hl
    · rename_i hv
      split at hl
      · injection hl with hl; injection hl with h1 h2; subst h2; exact h
      · injection hl with hl
        have := hJ.verify (.multipart .signed ‹_› ‹_›) n none st (.inl hv) h
        rw [hl] at this
        exact this
    · cases hl
  · injection hl with hl
    rename_i i d
    have := hJ.verify (.pkcs7 i .signedData d) n (E.verify (.pkcs7 i .signedData d)).2 st (.inr ⟨i, d, rfl⟩) h
    rw [hl] at this
    exact this
  · split at hl
    · rename_i i d hp
      injection hl with hl; injection hl with h1 h2; subst h2
      exact hJ.decrypt _ n st hp h
    · cases hl
  · cases hl

theorem keep_once {E : Env} {J : St → Prop} (hJ : Keeps E J) {p : Part} {par : Option Part} {c : Nat} {st st' : St} {s : Set_ ⊕ Part} (h : J st)
    (hl : setUpOnce E p par c st = some (s, st')) : J st' := by
  unfold setUpOnce at hl
  cases hs : shape p with
  | none => rw [hs] at hl; cases hl
  | some r =>
    obtain ⟨f, n⟩ := r
    rw [hs] at hl
    simp only [Option.map_some] at hl
    injection hl with hl
    split at hl
    · rename_i s1 st1 h1
      injection hl with _ h2; subst h2
      exact keep_layer hJ h h1
    · have hp := hJ.payload f par c st h
      split at hl
      · split at hl <;> (injection hl with _ h2; subst h2; exact hp)
      · injection hl with _ h2; subst h2; exact hp

theorem keep_setUp {E : Env} {J : St → Prop} (hJ : Keeps E J) {p : Part} {par : Option Part} {c : Nat} {st st' : St} {s : Set_} (h : J st)
    (hl : setUp E p par c st = some (s, st')) : J st' := by
  unfold setUp at hl
  split at hl
  · cases hl
  · rename_i h1
    injection hl with hl; injection hl with _ h2; subst h2
    exact keep_once hJ h h1
  · rename_i h1
    have h2 := keep_once hJ h h1
    split at hl
    · rename_i h3
      injection hl with hl; injection hl with _ h4; subst h4
      exact keep_once hJ h2 h3
    · cases hl

theorem keep_list {J : St → Prop} {w : Part → Nat → St → Res (Node × St)} (hw : ∀ p c st n st', J st → w p c st = .ok (n, st') → J st') :
    ∀ (l : List (Option Part)) (c : Nat) (st : St) (ns : List Node) (st' : St), J st → walkList w c l st = .ok (ns, st') → J st'
  | [], c, st, ns, st', h, hl => by
    rw [walkList] at hl
    injection hl with hl; injection hl with _ h2; subst h2; exact h
  | none :: l, c, st, ns, st', h, hl => by rw [walkList] at hl; cases hl
  | some p :: l, c, st, ns, st', h, hl => by
    rw [walkList] at hl
    split at hl
    · cases hl
    · cases hl
    · rename_i n st1 h1
      split at hl
      · cases hl
      · cases hl
      · rename_i ns2 st2 h2
        injection hl with hl; injection hl with _ h3; subst h3
        exact keep_list hw l (c + 1) st1 ns2 _ (hw _ _ _ _ _ h h1) h2

theorem keep_walk {E : Env} {J : St → Prop} (hJ : Keeps E J) : ∀ (d : Nat) (par : Option Part) (p : Part) (c : Nat) (st : St) (n : Node) (st' : St),
    J st → walk E d par p c st = .ok (n, st') → J st'
  | 0, _, _, _, _, _, _, _, hl => by rw [walk] at hl; cases hl
  | d + 1, par, p, c, st, n, st', h, hl => by
    rw [walk] at hl
    split at hl
    · cases hl
    · rename_i s st1 h1
      split at hl
      · cases hl
      · cases hl
      · rename_i ns st2 h2
        injection hl with hl; injection hl with _ h3; subst h3
        exact keep_list (fun p c st n st' => keep_walk hJ d _ p c st n st') _ _ _ _ _ (keep_setUp hJ h h1) h2

/-! ## Decryption -/

/-- What is written while the session keys are tried. -/
def asks (p : Part) (ks : List Str) : List Eff := ks.map (Eff.askKey p)

theorem tryKeys_spec (E : Env) (p : Part) : ∀ (ks : List Str) (st : St),
    (Locked E ks p ∧ tryKeys E p ks st = (none, { st with log := st.log ++ asks p ks })) ∨
    (∃ q s l k r sk, ks = l ++ k :: r ∧ (∀ k' ∈ l, E.decrypt p (some k') = none) ∧ E.decrypt p (some k) = some (q, s, sk) ∧
      tryKeys E p ks st = (some (q, s), { st with log := st.log ++ asks p (l ++ [k]) }))
  | [], st => .inl ⟨(fun _ h => by cases h), by rw [tryKeys]; simp [asks]⟩
  | k :: ks, st => by
    rw [tryKeys]
    cases hd : E.decrypt p (some k) with
    | some x =>
      obtain ⟨q, s, sk⟩ := x
      exact .inr ⟨q, s, [], k, ks, sk, rfl, (fun _ h => by cases h), hd, rfl⟩
    | none =>
      simp only
      rcases tryKeys_spec E p ks (st.put (.askKey p k)) with ⟨h1, h2⟩ | ⟨q, s, l, k', r, sk, h1, h2, h3, h4⟩
      · refine .inl ⟨fun x hx => ?_, ?_⟩
        · rcases List.mem_cons.1 hx with rfl | hx
          · exact hd
          · exact h1 x hx
        · rw [h2]
          simp [St.put, asks]
      · refine .inr ⟨q, s, k :: l, k', r, sk, by rw [h1]; rfl, fun x hx => ?_, h3, ?_⟩
        · rcases List.mem_cons.1 hx with rfl | hx
          · exact hd
          · exact h2 x hx
        · rw [h4]
          simp [St.put, asks]

/-- What a decryption does: with a session key; with none that fits; with the secret key. -/
theorem decryptNode_spec (E : Env) (p : Part) (n : Nat) (st : St) (hp : E.policy ≠ .false) :
    (∃ q s l k r sk, st.keys = l ++ k :: r ∧ (∀ k' ∈ l, E.decrypt p (some k') = none) ∧ E.decrypt p (some k) = some (q, s, sk) ∧
      decryptNode E p n st = (⟨p, n, some q, ⟨true, true, s.isSome, s⟩⟩, decryptedSigs s { st with log := st.log ++ asks p (l ++ [k]), msg := noteDecryption st.msg })) ∨
    (Locked E st.keys p ∧ E.policy = .auto ∧ decryptNode E p n st = (⟨p, n, none, ⟨!st.keys.isEmpty, false, false, none⟩⟩, { st with log := st.log ++ asks p st.keys })) ∨
    (Locked E st.keys p ∧ (E.policy = .nostash ∨ E.policy = .true) ∧ E.decrypt p none = none ∧
      decryptNode E p n st = (⟨p, n, none, ⟨true, false, false, none⟩⟩, { st with log := st.log ++ asks p st.keys ++ [.askSecret p] })) ∨
    (∃ q s sk, Locked E st.keys p ∧ (E.policy = .nostash ∨ E.policy = .true) ∧ E.decrypt p none = some (q, s, sk) ∧
      decryptNode E p n st = (⟨p, n, some q, ⟨true, true, s.isSome, s⟩⟩,
        stash E (if E.policy = .true then sk else none) (decryptedSigs s { st with log := st.log ++ asks p st.keys ++ [.askSecret p], msg := noteDecryption st.msg }))) := by
  unfold decryptNode cryptoDecrypt
  rcases tryKeys_spec E p st.keys st with ⟨h1, h2⟩ | ⟨q, s, l, k, r, sk, h1, h2, h3, h4⟩
  · rw [h2]
    simp only
    by_cases ha : E.policy = .auto
    · rw [if_pos ha]
      exact .inr (.inl ⟨h1, ha, rfl⟩)
    · rw [if_neg ha]
      have hpol : E.policy = .nostash ∨ E.policy = .true := by
        cases he : E.policy <;> simp_all
      cases hd : E.decrypt p none with
      | none => exact .inr (.inr (.inl ⟨h1, hpol, rfl, rfl⟩))
      | some x =>
        obtain ⟨q, s, sk⟩ := x
        exact .inr (.inr (.inr ⟨q, s, sk, h1, hpol, rfl, rfl⟩))
  · rw [h4]
    refine .inl ⟨q, s, l, k, r, sk, h1, h2, h3, ?_⟩
    simp only [stash]
    split <;> rfl

theorem decryptedSigs_keys (s : Option Sigs) (st : St) : (decryptedSigs s st).keys = st.keys := by
  unfold decryptedSigs; split <;> rfl

theorem decryptedSigs_log (s : Option Sigs) (st : St) : (decryptedSigs s st).log = st.log := by
  unfold decryptedSigs; split <;> rfl

theorem stash_msg (E : Env) (k : Option Str) (st : St) : (stash E k st).msg = st.msg := by
  unfold stash; split
  · split <;> rfl
  · rfl

theorem decryptedSigs_msg (s : Option Sigs) (st : St) : (decryptedSigs s st).msg = (match s with | some s => noteSigs (some s) st.msg | none => st.msg) := by
  unfold decryptedSigs; split <;> rfl

end Notmuch.ShowCrypto
