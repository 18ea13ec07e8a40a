import Verif.Proofs.ShowCrypto2

/-! # Signatures and encryption in `notmuch show`: nodes and layers (C69) -/

namespace Notmuch.ShowCrypto
open Notmuch.Mime (Part Policy Smime Decrypted As Legacy repairMixedUp legacyDisplay insertKey as_unique legacy_iff repair_some repair_none repair_mixedUp)

theorem walk_ok {E : Env} {d : Nat} {par : Option Part} {p : Part} {c : Nat} {st st' : St} {n : Node} (h : walk E d par p c st = .ok (n, st')) :
    ∃ d' s st1 ns, d = d' + 1 ∧ setUp E p par c st = some (s, st1) ∧ walkList (walk E d' (some s.part)) 0 (childParts s) st1 = .ok (ns, st') ∧ n = .node s.part s.marks ns := by
  cases d with
  | zero => rw [walk] at h; cases h
  | succ d =>
    rw [walk] at h
    split at h
    · cases h
    · rename_i s st1 h1
      split at h
      · cases h
      · cases h
      · rename_i ns st2 h2
        injection h with h; injection h with e1 e2; subst e1 e2
        exact ⟨d, s, st1, ns, rfl, h1, h2, rfl⟩

theorem walkList_cons {w : Part → Nat → St → Res (Node × St)} {c : Nat} {o : Option Part} {l : List (Option Part)} {st st' : St} {ns : List Node}
    (h : walkList w c (o :: l) st = .ok (ns, st')) : ∃ p n st1 ns', o = some p ∧ w p c st = .ok (n, st1) ∧ walkList w (c + 1) l st1 = .ok (ns', st') ∧ ns = n :: ns' := by
  cases o with
  | none => rw [walkList] at h; cases h
  | some p =>
    rw [walkList] at h
    split at h
    · cases h
    · cases h
    · rename_i n st1 h1
      split at h
      · cases h
      · cases h
      · rename_i ns' st2 h2
        injection h with h; injection h with e1 e2; subst e1 e2
        exact ⟨p, n, st1, ns', rfl, h1, h2, rfl⟩

theorem walkList_nil {w : Part → Nat → St → Res (Node × St)} {c : Nat} {st st' : St} {ns : List Node} (h : walkList w c [] st = .ok (ns, st')) : ns = [] ∧ st' = st := by
  rw [walkList] at h
  injection h with h; injection h with e1 e2
  exact ⟨e1.symm, e2.symm⟩

/-- What was set up: with a layer, or as it is. -/
inductive Made (E : Env) (f : Part) (st : St) : Set_ → Prop
  | plain : Made E f st ⟨f, count f, none, noMarks⟩
  | layer {s st'} : layer E f (count f) st = some (s, st') → Made E f st s

theorem layer_part {E : Env} {f : Part} {n : Nat} {st st' : St} {s : Set_} (h : layer E f n st = some (s, st')) : s.part = f := by
  have hd : ∀ p n st, (decryptNode E p n st).1.part = p := by
    intro p n st
    unfold decryptNode
    split <;> rfl
  unfold layer at h
  split at h
  · split at h
    · split at h
      · injection h with h; injection h with e1 e2; subst e1; rfl
      · injection h with h
        have := congrArg (fun x => x.1.part) h
        simp only [hd] at this
        exact this.symm
    · cases h
  · split at h
    · split at h <;> (injection h with h; injection h with e1 e2; subst e1; rfl)
    · cases h
  · injection h with h; injection h with e1 e2; subst e1; rfl
  · split at h
    · injection h with h; injection h with e1 e2; subst e1; rfl
    · cases h
  · cases h

theorem once_made {E : Env} {p : Part} {par : Option Part} {c : Nat} {st st' : St} {r : Set_ ⊕ Part} (h : setUpOnce E p par c st = some (r, st')) :
    ∃ f, As p f ∧ (∀ i, f ≠ .unknown i) ∧ ((∃ s, r = .inl s ∧ Made E f st s ∧ s.part = f) ∨ ∃ q a, r = .inr q ∧ Legacy f a q) := by
  unfold setUpOnce at h
  cases hs : shape p with
  | none => rw [hs] at h; cases h
  | some x =>
    obtain ⟨f, n⟩ := x
    obtain ⟨h1, h2, h3⟩ := shape_as hs
    subst h2
    rw [hs] at h
    simp only [Option.map_some] at h
    injection h with h
    refine ⟨f, h1, h3, ?_⟩
    split at h
    · rename_i s1 st1 hl
      injection h with e1 _; subst e1
      exact .inl ⟨_, rfl, .layer hl, layer_part hl⟩
    · split at h
      · split at h
        · rename_i q hq
          injection h with e1 _; subst e1
          obtain ⟨a, ha⟩ := legacy_iff.1 hq
          exact .inr ⟨q, a, rfl, ha⟩
        · injection h with e1 _; subst e1
          exact .inl ⟨_, rfl, .plain, rfl⟩
      · injection h with e1 _; subst e1
        exact .inl ⟨_, rfl, .plain, rfl⟩

theorem setUp_made {E : Env} {p : Part} {par : Option Part} {c : Nat} {st st' : St} {s : Set_} (h : setUp E p par c st = some (s, st')) :
    Shows p s.part ∧ ∃ st0, (∀ J, Keeps E J → J st → J st0) ∧ (∀ J, Keeps E J → J st0 → J st') ∧ Made E s.part st0 s := by
  unfold setUp at h
  split at h
  · cases h
  · rename_i s1 st1 h1
    injection h with h; injection h with e1 e2; subst e1 e2
    obtain ⟨f, ha, _, ⟨s, e, hm, hp⟩ | ⟨_, _, e, _⟩⟩ := once_made h1
    · injection e with e; subst e
      rw [hp]
      exact ⟨.plain ha, st, fun _ _ h => h, fun J hJ h => keep_once hJ h h1, hm⟩
    · cases e
  · rename_i q st1 h1
    obtain ⟨f, ha, _, ⟨s, e, _, _⟩ | ⟨q', a, e, hleg⟩⟩ := once_made h1
    · cases e
    · injection e with e; subst e
      split at h
      · rename_i s2 st2 h2
        injection h with h; injection h with e1 e2; subst e1 e2
        obtain ⟨f2, ha2, _, ⟨s, e, hm, hp⟩ | ⟨_, _, e, _⟩⟩ := once_made h2
        · injection e with e; subst e
          rw [hp]
          exact ⟨.skipped ha hleg ha2, st1, fun J hJ h => keep_once hJ h h1, fun J hJ h => keep_once hJ h h2, hm⟩
        · cases e
      · cases h

theorem walk_shows {E : Env} {d : Nat} {par : Option Part} {p : Part} {c : Nat} {st st' : St} {n : Node} (h : walk E d par p c st = .ok (n, st')) : Shows p n.part := by
  obtain ⟨d', s, st1, ns, rfl, h1, _, rfl⟩ := walk_ok h
  exact (setUp_made h1).1

theorem walkList_shows {E : Env} {d : Nat} {par : Option Part} : ∀ {l : List Part} {c : Nat} {st st' : St} {ns : List Node},
    walkList (walk E d par) c (l.map some) st = .ok (ns, st') → ShowsAll l ns
  | [], c, st, st', ns, h => by
    obtain ⟨rfl, _⟩ := walkList_nil h
    exact .nil
  | p :: l, c, st, st', ns, h => by
    rw [List.map_cons] at h
    obtain ⟨p', n, st1, ns', e, h1, h2, rfl⟩ := walkList_cons h
    injection e with e; subst e
    exact .cons (walk_shows h1) (walkList_shows h2)

theorem childParts_plain {E : Env} {d : Nat} {par : Option Part} {f : Part} {m : Marks} {n : Nat} {st st' : St} {ns : List Node} (hn : n = count f)
    (h : walkList (walk E d par) 0 (childParts ⟨f, n, none, m⟩) st = .ok (ns, st')) : ShowsAll (partsOf f) ns := by
  cases f with
  | multipart k i l => exact walkList_shows h
  | message i s q =>
    cases q with
    | some q => exact walkList_shows (l := [q]) h
    | none =>
      obtain ⟨_, _, _, _, e, _⟩ := walkList_cons h
      cases e
  | pkcs7 i t e =>
    subst hn
    obtain ⟨rfl, _⟩ := walkList_nil h
    exact .nil
  | leaf _ _ _ _ _ =>
    obtain ⟨rfl, _⟩ := walkList_nil h
    exact .nil
  | unknown _ =>
    obtain ⟨rfl, _⟩ := walkList_nil h
    exact .nil

theorem decrypt_honest {E : Env} {d : Nat} {f : Part} {n n' : Nat} {st st1 st2 : St} {ns : List Node} {keys keys' : List Str} (hu : Uses E keys st)
    (hk : ∀ k ∈ st.keys, k ∈ keys') (hp : E.policy ≠ .false)
    (hn : n' = if (decryptNode E f n st).1.unwrapped.isSome && n == 0 then 1 else n) (hf : (∃ i l, f = .multipart .encrypted i l ∧ n = l.length) ∨ ∃ i e, f = .pkcs7 i .envelopedData e ∧ n = 0)
    (h : walkList (walk E d (some f)) 0 (childParts ⟨f, n', (decryptNode E f n st).1.unwrapped, (decryptNode E f n st).1.marks⟩) st1 = .ok (ns, st2)) :
    Honest E keys keys' (.node f (decryptNode E f n st).1.marks ns) := by
  have good : ∀ q, (decryptNode E f n st).1.unwrapped = some q → ShowsAll (partsWith q f) ns := by
    intro q hq
    rw [hq] at h hn
    rcases hf with ⟨i, l, rfl, rfl⟩ | ⟨i, e, rfl, rfl⟩
    · exact walkList_shows h
    · subst hn
      exact walkList_shows (l := [q]) h
  have bad : (decryptNode E f n st).1.unwrapped = none → ShowsAll (partsOf f) ns := by
    intro hq
    rw [hq] at h hn
    refine childParts_plain ?_ h
    rw [hn]
    rcases hf with ⟨i, l, rfl, rfl⟩ | ⟨i, e, rfl, rfl⟩ <;> rfl
  have hlk : ∀ {x}, Locked E st.keys x → Locked E keys x := fun hl k hk => hl k (hu.kept k hk)
  rcases decryptNode_spec E f n st hp with ⟨q, s, l, k, r, sk, h1, _, h3, e⟩ | ⟨hl, hauto, e⟩ | ⟨hl, hp2, hd, e⟩ | ⟨q, s, sk, hl, hp2, hd, e⟩
  · have := good q (by rw [e])
    rw [e]
    exact .session hp (hk k (by rw [h1]; simp)) h3 this
  · have := bad (by rw [e])
    rw [e]
    refine .failed ⟨hp, hlk hl, .inl hauto⟩ (fun ht => ⟨?_, hauto⟩) (fun ht _ hk' => ?_) this
    · have he : st.keys = [] := by simpa using ht
      cases keys with
      | nil => rfl
      | cons x l => have := hu.kept x (by simp); rw [he] at this; cases this
    · cases hx : st.keys with
      | nil => rw [hx] at ht; cases ht
      | cons x l => have := hk x (by rw [hx]; simp); rw [hk'] at this; cases this
  · have := bad (by rw [e])
    rw [e]
    refine .failed ⟨hp, hlk hl, .inr hd⟩ (fun ht => by cases ht) (fun _ ha => ?_) this
    rw [ha] at hp2
    rcases hp2 with hp2 | hp2 <;> cases hp2
  · have := good q (by rw [e])
    rw [e]
    exact .secret hp2 (hlk hl) hd this

theorem made_honest {E : Env} {d : Nat} {s : Set_} {st0 st1 st2 : St} {ns : List Node} {keys keys' : List Str} (hu : Uses E keys st0) (hk : ∀ k ∈ st0.keys, k ∈ keys')
    (hm : Made E s.part st0 s) (h : walkList (walk E d (some s.part)) 0 (childParts s) st1 = .ok (ns, st2)) : Honest E keys keys' (.node s.part s.marks ns) := by
  generalize hf : s.part = f at hm h
  cases hm with
  | plain => exact .plain (childParts_plain rfl h)
  | @layer s st' hl =>
    unfold layer at hl
    split at hl
    · split at hl
      · rename_i i l hp
        split at hl
        · injection hl with hl; injection hl with e1 e2; subst e1
          exact .plain (childParts_plain rfl h)
        · injection hl with hl
          have e1 := congrArg Prod.fst hl
          simp only at e1
          subst e1
          have hs : (decryptNode E (.multipart .encrypted i l) l.length st0).1 =
              ⟨.multipart .encrypted i l, l.length, (decryptNode E (.multipart .encrypted i l) l.length st0).1.unwrapped, (decryptNode E (.multipart .encrypted i l) l.length st0).1.marks⟩ := by
            unfold decryptNode
            split <;> rfl
          refine decrypt_honest (n' := l.length) hu hk hp ?_ (.inl ⟨i, l, rfl, rfl⟩) (hs ▸ h)
          rename_i h2
          have h2 : l.length = 2 := by simpa [count] using h2
          have h3 : (count (.multipart .encrypted i l) == 0) = false := by show (l.length == 0) = false; rw [h2]; rfl
          rw [h3, Bool.and_false]
          rfl
      · cases hl
    · split at hl
      · rename_i i l hv
        split at hl
        · injection hl with hl; injection hl with e1 e2; subst e1
          exact .plain (childParts_plain rfl h)
        · injection hl with hl; injection hl with e1 e2; subst e1
          exact .verified (.inl hv) (.inl ⟨_, _, rfl⟩) (childParts_plain (n := if (none : Option Part).isSome then 1 else count (.multipart .signed i l)) rfl h)
      · cases hl
    · rename_i i e
      injection hl with hl; injection hl with e1 e2; subst e1
      cases hv : (E.verify (.pkcs7 i .signedData e)).2 with
      | none =>
        rw [hv] at h
        exact .verified (.inr ⟨_, _, rfl⟩) (.inr hv) (childParts_plain (n := if (none : Option Part).isSome then 1 else count (.pkcs7 i .signedData e)) rfl h)
      | some q =>
        rw [hv] at h
        exact .unwrapped hv (walkList_shows (l := [q]) h)
    · split at hl
      · rename_i i e hp
        injection hl with hl; injection hl with e1 e2; subst e1
        exact decrypt_honest (n := 0) hu hk hp rfl (.inr ⟨i, e, rfl, rfl⟩) h
      · cases hl
    · cases hl

theorem keeps_keys (E : Env) (K : List Str) : Keeps E (fun st => ∀ k ∈ K, k ∈ st.keys) where
  decrypt p n st hp h := by
    rcases decryptNode_spec E p n st hp with ⟨q, s, l, k, r, sk, _, _, _, e⟩ | ⟨_, _, e⟩ | ⟨_, _, _, e⟩ | ⟨q, s, sk, _, _, _, e⟩
    · rw [e]; simp only [decryptedSigs_keys]; exact h
    · rw [e]; exact h
    · rw [e]; exact h
    · rw [e]
      simp only
      intro k hk
      generalize (if E.policy = .true then sk else none) = key
      rcases stash_cases E key (decryptedSigs s { st with log := st.log ++ asks p st.keys ++ [.askSecret p], msg := noteDecryption st.msg }) with e | ⟨x, _, _, e⟩
      · rw [e, decryptedSigs_keys]; exact h k hk
      · rw [e]
        show k ∈ insertKey x _
        rw [mem_insertKey, decryptedSigs_keys]
        exact .inr (h k hk)
  verify _ _ _ _ _ h := h
  payload _ _ _ _ h := h

theorem honest_list {E : Env} {keys keys' : List Str} {w : Part → Nat → St → Res (Node × St)}
    (hw : ∀ p c st n st', Uses E keys st → (∀ k ∈ st'.keys, k ∈ keys') → w p c st = .ok (n, st') → ∀ m, Within n m → Honest E keys keys' m)
    (hu : ∀ p c st n st', Uses E keys st → w p c st = .ok (n, st') → Uses E keys st')
    (hmono : ∀ (K : List Str) p c st n st', (∀ k ∈ K, k ∈ st.keys) → w p c st = .ok (n, st') → ∀ k ∈ K, k ∈ st'.keys) :
    ∀ (l : List (Option Part)) (c : Nat) (st : St) (ns : List Node) (st' : St), Uses E keys st → (∀ k ∈ st'.keys, k ∈ keys') → walkList w c l st = .ok (ns, st') →
      ∀ n ∈ ns, ∀ m, Within n m → Honest E keys keys' m
  | [], c, st, ns, st', _, _, h => by
    obtain ⟨rfl, _⟩ := walkList_nil h
    intro n hn; cases hn
  | o :: l, c, st, ns, st', h1, h2, h => by
    obtain ⟨p, n, st1, ns', rfl, e1, e2, rfl⟩ := walkList_cons h
    have h3 := hu _ _ _ _ _ h1 e1
    intro x hx
    rcases List.mem_cons.1 hx with rfl | hx
    · refine hw _ _ _ _ _ h1 (fun k hk => h2 k ?_) e1
      exact keep_list (J := fun st => ∀ k ∈ st1.keys, k ∈ st.keys) (fun p c st n st' a b => hmono _ p c st n st' a b) _ _ _ _ _ (fun _ h => h) e2 k hk
    · exact honest_list hw hu hmono l _ _ _ _ h3 h2 e2 x hx

theorem walk_honest {E : Env} {keys keys' : List Str} : ∀ (d : Nat) (par : Option Part) (p : Part) (c : Nat) (st : St) (n : Node) (st' : St), Uses E keys st → (∀ k ∈ st'.keys, k ∈ keys') →
    walk E d par p c st = .ok (n, st') → ∀ m, Within n m → Honest E keys keys' m
  | 0, par, p, c, st, n, st', _, _, h => by obtain ⟨_, _, _, _, e, _⟩ := walk_ok h; cases e
  | d + 1, par, p, c, st, n, st', hu, hk, h => by
    obtain ⟨d', s, st1, ns, e, h1, h2, rfl⟩ := walk_ok h
    injection e with e; subst e
    obtain ⟨_, st0, k1, k2, hm⟩ := setUp_made h1
    have hu0 := k1 _ (keeps_uses E keys) hu
    have hu1 := k2 _ (keeps_uses E keys) hu0
    have hk0 : ∀ k ∈ st0.keys, k ∈ keys' := by
      intro k hk'
      refine hk k ?_
      have a := k2 _ (keeps_keys E st0.keys) (fun _ h => h)
      exact keep_list (J := fun st => ∀ k ∈ st0.keys, k ∈ st.keys) (fun p c st n st' x y => keep_walk (keeps_keys E st0.keys) _ _ p c st n st' x y) _ _ _ _ _ a h2 k hk'
    intro m hm'
    cases hm' with
    | refl => exact made_honest hu0 hk0 hm h2
    | child hc hw =>
      exact honest_list (fun p c st n st' a b e => walk_honest d _ p c st n st' a b e) (fun p c st n st' a e => keep_walk (keeps_uses E keys) _ _ p c st n st' a e)
        (fun K p c st n st' a e => keep_walk (keeps_keys E K) _ _ p c st n st' a e) _ _ _ _ _ hu1 hk h2 _ hc _ hw

end Notmuch.ShowCrypto
