import Verif.Proofs.Mime

namespace Notmuch.Mime

/-! ## Decryption -/

theorem tryKeys_keep (E : Env) (p : Part) : ∀ (ks : List Str) (st : St), (tryKeys E p ks st).2.keys = st.keys ∧ (tryKeys E p ks st).2.payload = st.payload ∧
    (tryKeys E p ks st).2.status = st.status ∧ (tryKeys E p ks st).2.subject = st.subject
  | [], _ => ⟨rfl, rfl, rfl, rfl⟩
  | k :: ks, st => by
    unfold tryKeys
    simp only
    cases E.decrypt p (some k) with
    | some x => exact ⟨rfl, rfl, rfl, rfl⟩
    | none => exact tryKeys_keep E p ks _

theorem tryKeys_some (E : Env) (p : Part) {q : Part} : ∀ (ks : List Str) (st : St), (tryKeys E p ks st).1 = some q ↔ Unlocks E ks p q
  | [], st => by simp [tryKeys, Unlocks]
  | k :: ks, st => by
    unfold tryKeys
    simp only
    cases hd : E.decrypt p (some k) with
    | some x =>
      simp only [Option.some.injEq]
      constructor
      · rintro rfl; exact ⟨[], k, ks, x.2, rfl, by simp, hd⟩
      · rintro ⟨l, k', r, sk, e, hl, hk⟩
        cases l with
        | nil => cases e; rw [hd] at hk; cases hk; rfl
        | cons a l =>
          cases e
          have := hl k List.mem_cons_self
          rw [hd] at this; cases this
    | none =>
      simp only
      rw [tryKeys_some E p ks _]
      constructor
      · rintro ⟨l, k', r, sk, rfl, hl, hk⟩
        refine ⟨k :: l, k', r, sk, rfl, ?_, hk⟩
        intro x hx
        rcases List.mem_cons.mp hx with rfl | hx
        · exact hd
        · exact hl x hx
      · rintro ⟨l, k', r, sk, e, hl, hk⟩
        cases l with
        | nil => cases e; rw [hd] at hk; cases hk
        | cons a l =>
          cases e
          exact ⟨l, k', r, sk, rfl, fun x hx => hl x (List.mem_cons_of_mem _ hx), hk⟩

theorem tryKeys_none (E : Env) (p : Part) : ∀ (ks : List Str) (st : St), (tryKeys E p ks st).1 = none ↔ Locked E ks p
  | [], st => by simp [tryKeys, Locked]
  | k :: ks, st => by
    unfold tryKeys
    simp only
    cases hd : E.decrypt p (some k) with
    | some x =>
      constructor
      · intro h; cases h
      · intro h; have := h k List.mem_cons_self; rw [hd] at this; cases this
    | none =>
      simp only
      rw [tryKeys_none E p ks _]
      constructor
      · intro h x hx
        rcases List.mem_cons.mp hx with rfl | hx
        · exact hd
        · exact h x hx
      · intro h x hx; exact h x (List.mem_cons_of_mem _ hx)

theorem unlocks_or_locked (E : Env) (ks : List Str) (p : Part) : (∃ q, Unlocks E ks p q) ∨ Locked E ks p := by
  cases h : (tryKeys E p ks ⟨[], [], false, .none, none⟩).1 with
  | none => exact .inr ((tryKeys_none E p ks _).mp h)
  | some q => exact .inl ⟨q, (tryKeys_some E p ks _).mp h⟩

theorem unlocks_unique {E : Env} {ks : List Str} {p q q' : Part} (h : Unlocks E ks p q) (h' : Unlocks E ks p q') : q = q' := by
  have h1 := (tryKeys_some E p ks ⟨[], [], false, .none, none⟩).mpr h
  rw [(tryKeys_some E p ks ⟨[], [], false, .none, none⟩).mpr h'] at h1
  cases h1; rfl

theorem unlocks_not_locked {E : Env} {ks : List Str} {p q : Part} (h : Unlocks E ks p q) : ¬ Locked E ks p := by
  obtain ⟨l, k, r, sk, rfl, _, hk⟩ := h
  intro h
  have := h k (by simp)
  rw [hk] at this; cases this

/-- The three ways `_notmuch_crypto_decrypt` ends when the policy is not `false`. -/
theorem crypto_cases (E : Env) (pol : Policy) (hp : pol ≠ .false) (p : Part) (st : St) :
    (∃ q, Unlocks E st.keys p q ∧ cryptoDecrypt E pol p st = (true, some (q, none), (tryKeys E p st.keys st).2)) ∨
    (Locked E st.keys p ∧ pol = .auto ∧ cryptoDecrypt E pol p st = (!st.keys.isEmpty, none, (tryKeys E p st.keys st).2)) ∨
    (Locked E st.keys p ∧ pol ≠ .auto ∧ cryptoDecrypt E pol p st =
      (true, (E.decrypt p none).map (fun x => (x.1, if pol = .true then x.2 else none)), (tryKeys E p st.keys st).2.put (.askSecret p))) := by
  unfold cryptoDecrypt
  rw [if_neg hp]
  cases ht : tryKeys E p st.keys st with
  | mk o st' =>
    cases o with
    | some q =>
      refine .inl ⟨q, (tryKeys_some E p st.keys st).mp (by rw [ht]), ?_⟩
      rfl
    | none =>
      have hl := (tryKeys_none E p st.keys st).mp (by rw [ht])
      by_cases ha : pol = .auto
      · subst ha; exact .inr (.inl ⟨hl, rfl, rfl⟩)
      · refine .inr (.inr ⟨hl, ha, ?_⟩)
        simp [ha]

theorem crypto_keys (E : Env) (pol : Policy) (p : Part) (st : St) : (cryptoDecrypt E pol p st).2.2.keys = st.keys ∧
    (cryptoDecrypt E pol p st).2.2.payload = st.payload ∧ (cryptoDecrypt E pol p st).2.2.status = st.status ∧ (cryptoDecrypt E pol p st).2.2.subject = st.subject := by
  have hk := tryKeys_keep E p st.keys st
  by_cases hp : pol = .false
  · subst hp; exact ⟨rfl, rfl, rfl, rfl⟩
  · rcases crypto_cases E pol hp p st with ⟨q, _, e⟩ | ⟨_, _, e⟩ | ⟨_, _, e⟩
    · rw [e]; exact hk
    · rw [e]; exact hk
    · rw [e]; exact hk

theorem potential_keep (p : Part) (st : St) : (potentialPayload p st).2.keys = st.keys ∧ (potentialPayload p st).2.status = st.status ∧ (potentialPayload p st).2.payload = true := by
  unfold potentialPayload
  split
  · rename_i h; exact ⟨rfl, rfl, h⟩
  · split
    · exact ⟨rfl, rfl, rfl⟩
    · cases protectedSubject p <;> exact ⟨rfl, rfl, rfl⟩

/-! ## The views -/

def Quiet (keys : List Str) (st : St) : Prop := st.keys = keys ∧ st.status ≠ .full

theorem inv_view (E : Env) (keys : List Str) (hp : E.policy ≠ some .true) : Inv E (view E keys) (Quiet keys) where
  put _ _ h := h
  payload p st h := ⟨(potential_keep p st).1.trans h.1, by rw [(potential_keep p st).2.1]; exact h.2⟩
  decrypted h := absurd h hp
  stash h := absurd h hp
  skips st h hs := absurd hs h.2
  opened pol p st q key st' hpol h e := by
    by_cases hf : pol = .false
    · subst hf; cases e
    · have ht : pol ≠ .true := fun e => hp (e ▸ hpol)
      rcases crypto_cases E pol hf p st with ⟨q', hu, e'⟩ | ⟨hl, ha, e'⟩ | ⟨hl, ha, e'⟩
      · rw [e] at e'
        cases e'
        rw [h.1] at hu
        cases pol with
        | auto => exact .inl ⟨hpol, hu⟩
        | nostash => exact .inr ⟨hpol, .inl hu⟩
        | false => exact absurd rfl hf
        | true => exact absurd rfl ht
      · rw [e] at e'; exact absurd (congrArg (fun x => x.2.1) e') (by simp)
      · rw [e] at e'
        rw [h.1] at hl
        cases pol with
        | auto => exact absurd rfl ha
        | nostash =>
          cases hd : E.decrypt p none with
          | none => rw [hd] at e'; cases e'
          | some x => rw [hd] at e'; cases e'; exact .inr ⟨hpol, .inr ⟨hl, x.2, hd⟩⟩
        | false => exact absurd rfl hf
        | true => exact absurd rfl ht
  failed pol p st st' hpol h e := by
    by_cases hf : pol = .false
    · subst hf; cases e
    · have ht : pol ≠ .true := fun e => hp (e ▸ hpol)
      rcases crypto_cases E pol hf p st with ⟨q', hu, e'⟩ | ⟨hl, ha, e'⟩ | ⟨hl, ha, e'⟩
      · rw [e] at e'; exact absurd (congrArg (fun x => x.2.1) e') (by simp)
      · rw [e] at e'
        rw [h.1] at hl e'
        subst ha
        refine .inl ⟨hpol, ?_, hl⟩
        rintro rfl
        cases e'
      · rw [e] at e'
        rw [h.1] at hl
        cases pol with
        | auto => exact absurd rfl ha
        | nostash =>
          cases hd : E.decrypt p none with
          | none => exact .inr ⟨hpol, hl, hd⟩
          | some x => rw [hd] at e'; cases e'
        | false => exact absurd rfl hf
        | true => exact absurd rfl ht

theorem inv_view' (E : Env) (keys : List Str) (hp : E.policy ≠ some .true) : Inv' E (view E keys) (Quiet keys) where
  put _ _ h := h
  payload p st h := ⟨(potential_keep p st).1.trans h.1, by rw [(potential_keep p st).2.1]; exact h.2⟩
  decrypted h := absurd h hp
  stash h := absurd h hp
  skips st h hs := absurd hs h.2
  opens p q st h hc := by
    rcases hc with ⟨hpol, hu⟩ | ⟨hpol, hu⟩
    · refine ⟨.auto, ?_⟩
      rcases crypto_cases E .auto (by decide) p st with ⟨q', hu', e'⟩ | ⟨hl, ha, e'⟩ | ⟨hl, ha, e'⟩
      · rw [h.1] at hu'
        rw [unlocks_unique hu hu']
        exact ⟨_, _, hpol, by decide, e'⟩
      · rw [h.1] at hl; exact absurd hl (unlocks_not_locked hu)
      · exact absurd rfl ha
    · refine ⟨.nostash, ?_⟩
      rcases crypto_cases E .nostash (by decide) p st with ⟨q', hu', e'⟩ | ⟨hl, ha, e'⟩ | ⟨hl, ha, e'⟩
      · rw [h.1] at hu'
        rcases hu with hu | ⟨hl, _⟩
        · rw [unlocks_unique hu hu']
          exact ⟨_, _, hpol, by decide, e'⟩
        · exact absurd hl (unlocks_not_locked hu')
      · cases ha
      · rw [h.1] at hl
        rcases hu with hu | ⟨_, sk, hd⟩
        · exact absurd hl (unlocks_not_locked hu)
        · rw [hd] at e'
          exact ⟨_, _, hpol, by decide, e'⟩
  fails p st h hc := by
    rcases hc with ⟨hpol, hne, hl⟩ | ⟨hpol, hl, hd⟩
    · refine ⟨.auto, ?_⟩
      rcases crypto_cases E .auto (by decide) p st with ⟨q', hu', e'⟩ | ⟨_, ha, e'⟩ | ⟨_, ha, e'⟩
      · rw [h.1] at hu'; exact absurd hl (unlocks_not_locked hu')
      · rw [h.1] at e'
        refine ⟨(tryKeys E p keys st).2, hpol, by decide, ?_⟩
        rw [e']
        cases keys with
        | nil => exact absurd rfl hne
        | cons => rfl
      · exact absurd rfl ha
    · refine ⟨.nostash, ?_⟩
      rcases crypto_cases E .nostash (by decide) p st with ⟨q', hu', e'⟩ | ⟨_, ha, e'⟩ | ⟨_, ha, e'⟩
      · rw [h.1] at hu'; exact absurd hl (unlocks_not_locked hu')
      · cases ha
      · rw [hd] at e'
        exact ⟨_, hpol, by decide, e'⟩

theorem inv_any (E : Env) (hp : E.policy = some .true) : Inv E (anyView E) (fun _ => True) where
  put _ _ _ := trivial
  payload _ _ _ := trivial
  decrypted _ _ _ := trivial
  stash _ _ _ _ := trivial
  skips _ _ _ := trivial
  opened pol p st q key st' hpol _ e := by
    by_cases hf : pol = .false
    · subst hf; cases e
    · rcases crypto_cases E pol hf p st with ⟨q', hu, e'⟩ | ⟨hl, ha, e'⟩ | ⟨hl, ha, e'⟩
      · rw [e] at e'; cases e'
        obtain ⟨l, k, r, sk, _, _, hd⟩ := hu
        exact ⟨some k, sk, hd⟩
      · rw [e] at e'; exact absurd (congrArg (fun x => x.2.1) e') (by simp)
      · rw [e] at e'
        cases hd : E.decrypt p none with
        | none => rw [hd] at e'; cases e'
        | some x => rw [hd] at e'; cases e'; exact ⟨none, x.2, hd⟩
  failed pol p st st' hpol _ e := by
    rw [hp] at hpol
    cases hpol
    rcases crypto_cases E .true (by decide) p st with ⟨q', hu, e'⟩ | ⟨hl, ha, e'⟩ | ⟨hl, ha, e'⟩
    · rw [e] at e'; cases e'
    · cases ha
    · rw [e] at e'
      cases hd : E.decrypt p none with
      | none => exact hd
      | some x => rw [hd] at e'; cases e'

theorem inv_secret (E : Env) (hp : E.policy = some .true) (h1 : OneClear E) : Inv' E (secretView E) (fun _ => True) where
  put _ _ _ := trivial
  payload _ _ _ := trivial
  decrypted _ _ _ := trivial
  stash _ _ _ _ := trivial
  skips _ _ _ := trivial
  opens p q st _ hc := by
    obtain ⟨sk, hd⟩ := hc
    refine ⟨.true, ?_⟩
    rcases crypto_cases E .true (by decide) p st with ⟨q', hu, e'⟩ | ⟨hl, ha, e'⟩ | ⟨hl, ha, e'⟩
    · obtain ⟨l, k, r, sk', _, _, hd'⟩ := hu
      rw [h1 p _ _ _ _ _ _ hd hd']
      exact ⟨_, _, hp, by decide, e'⟩
    · cases ha
    · rw [hd] at e'
      exact ⟨_, _, hp, by decide, e'⟩
  fails p st _ hc := by
    refine ⟨.true, ?_⟩
    rcases crypto_cases E .true (by decide) p st with ⟨q', hu, e'⟩ | ⟨hl, ha, e'⟩ | ⟨hl, ha, e'⟩
    · obtain ⟨l, k, r, sk', _, _, hd'⟩ := hu
      rw [hc] at hd'; cases hd'
    · cases ha
    · rw [hc none] at e'
      exact ⟨_, hp, by decide, e'⟩

/-! ## Invariants of the whole run -/

theorem doc_prop {k v : Str} (h : k ≠ bs "session-key") : Doc (.prop k v) := h

/-- A property of the state that every step keeps. -/
structure Keep (E : Env) (J : St → Prop) : Prop where
  put : ∀ st e, Doc e → J st → J (st.put e)
  payload : ∀ p st, J st → J (potentialPayload p st).2
  decrypt : ∀ pol p st, E.policy = some pol → pol ≠ .false → J st →
    ((cryptoDecrypt E pol p st).1 = false ∨ (cryptoDecrypt E pol p st).2.1 = none → J (cryptoDecrypt E pol p st).2.2) ∧
    ∀ q key, (cryptoDecrypt E pol p st).2.1 = some (q, key) → J (remember pol key (cryptoDecrypt E pol p st).2.2)

section Keep
variable {E : Env} {J : St → Prop} (hJ : Keep E J)
include hJ

theorem keep_type (p : Part) {st : St} (h : J st) : J (indexContentType p st) := by
  rcases indexContentType_cases p st with e | ⟨a, b, _, e⟩
  · rw [e]; exact h
  · rw [e]; exact hJ.put _ _ trivial h

theorem keep_payload (p : Part) {st : St} (h : J st) : J (payload p st).2 := by
  have h1 := hJ.payload p st h
  rcases payload_eq p st with e | ⟨_, q, _, e⟩
  · rw [e]; exact h1
  · rw [e]; exact hJ.put _ _ (doc_prop (by decide +kernel)) h1

theorem keep_encrypted {rec : Option Part → St → Option St} (hrec : ∀ q st st', J st → rec q st = some st' → J st') (f : Part) {st st' : St} (h : J st)
    (hr : indexEncrypted E rec f st = some st') : J st' := by
  unfold indexEncrypted at hr
  split at hr
  · cases hr; exact h
  · rename_i pol hpol
    split at hr
    · cases hr; exact h
    · rename_i hf
      obtain ⟨h1, h2⟩ := hJ.decrypt pol f st hpol hf h
      split at hr
      · rename_i e; rw [e] at h1; cases hr; exact h1 (.inl rfl)
      · rename_i e; rw [e] at h1; cases hr; exact hJ.put _ _ (doc_prop (by decide +kernel)) (h1 (.inr rfl))
      · rename_i clear key st1 e
        rw [e] at h1 h2
        simp only at hr
        cases hrr : rec (some (payload clear (remember pol key st1)).1) (payload clear (remember pol key st1)).2 with
        | none => rw [hrr] at hr; cases hr
        | some st4 =>
          rw [hrr] at hr
          cases hr
          exact hJ.put _ _ (doc_prop (by decide +kernel)) (hrec _ _ _ (keep_payload hJ clear (h2 _ _ rfl)) hrr)

theorem keep_children {rec : Option Part → St → Option St} (hrec : ∀ q st st', J st → rec q st = some st' → J st') (k : Multi) (f : Part) :
    ∀ (l : List Part) (n : Nat) (st st' : St), J st → indexChildren E rec k f n l st = some st' → J st'
  | [], n, st, st', h, hr => by cases hr; exact h
  | c :: l, n, st, st', h, hr => by
    have ih := fun st st' => keep_children hrec k f l (n + 1) st st'
    unfold indexChildren at hr
    split at hr
    · exact ih _ _ (keep_type hJ c h) hr
    · split at hr
      · split at hr
        · cases hx : indexEncrypted E rec f (indexContentType c st) with
          | none => rw [hx] at hr; cases hr
          | some st1 => rw [hx] at hr; exact ih _ _ (keep_encrypted hJ hrec f (keep_type hJ c h) hx) hr
        · exact ih _ _ (keep_type hJ c h) hr
      · simp only at hr
        cases hx : rec (some (payload c st).1) (payload c st).2 with
        | none => rw [hx] at hr; cases hr
        | some st1 => rw [hx] at hr; exact ih _ _ (hrec _ _ _ (keep_payload hJ c h) hx) hr

theorem keep_repaired {rec : Option Part → St → Option St} (hrec : ∀ q st st', J st → rec q st = some st' → J st') (f : Part) {st st' : St} (h : J st)
    (hr : indexRepaired E rec f st = some st') : J st' := by
  unfold indexRepaired at hr
  have h1 := keep_type hJ f h
  generalize indexContentType f st = st1 at h1 hr
  simp only at hr
  split at hr
  · rename_i k i l
    have h2 : J (if k = .signed then st1.put (.tag (bs "signed")) else st1) := by split; exact hJ.put st1 (.tag _) trivial h1; exact h1
    generalize (if k = .signed then st1.put (.tag (bs "signed")) else st1) = st2 at h2 hr
    have h3 : J (if k = .encrypted then st2.put (.tag (bs "encrypted")) else st2) := by split; exact hJ.put st2 (.tag _) trivial h2; exact h2
    exact keep_children hJ hrec _ _ _ _ _ _ h3 hr
  · exact hrec _ _ _ h1 hr
  · rename_i i t d
    unfold indexPkcs7 at hr
    have h2 := keep_type hJ (.pkcs7 i t d) h1
    generalize indexContentType (.pkcs7 i t d) st1 = st2 at h2 hr
    simp only at hr
    split at hr
    · split at hr
      · cases hr; exact h2
      · exact hrec _ _ _ (keep_payload hJ _ (hJ.put st2 (.tag _) trivial h2)) hr
    · exact keep_encrypted hJ hrec _ (hJ.put st2 (.tag _) trivial h2) hr
    · cases hr; exact h2
  · rename_i i t att fn c
    cases hr
    unfold indexLeaf
    have h2 : J (if att = true then attachmentTerms fn st1 else st1) := by
      split
      · cases fn with
        | none => exact hJ.put st1 (.tag _) trivial h1
        | some f => exact hJ.put _ (.attachment _) trivial (hJ.put st1 (.tag _) trivial h1)
      · exact h1
    generalize (if att = true then attachmentTerms fn st1 else st1) = st2 at h2
    simp only
    split
    · exact h2
    · exact hJ.put _ (.body _) trivial h2
  · cases hr; exact h1

theorem keep_part : ∀ (fuel : Nat) (q : Option Part) (st st' : St), J st → indexPart E fuel q st = some st' → J st'
  | 0, _, _, _, _, hr => by cases hr
  | fuel + 1, none, st, st', h, hr => by cases hr; exact h
  | fuel + 1, some p, st, st', h, hr => by
    have ih := keep_part fuel
    rw [indexPart] at hr
    cases hm : repairMixedUp p with
    | none => rw [hm] at hr; exact keep_repaired hJ ih _ h hr
    | some q => rw [hm] at hr; exact keep_repaired hJ ih _ (hJ.put _ _ (doc_prop (by decide +kernel)) h) hr

end Keep

/-! ## Two environments -/

/-- The same but for decryption. -/
structure Same (E E' : Env) : Prop where
  verify : E'.verify = E.verify
  policy : E'.policy = E.policy
  asText : E'.asText = E.asText
  charset : E'.charset = E.charset

section Same
variable {E E' : Env} {J : St → Prop} (hS : Same E E') (hJ : Keep E J)
  (hd : ∀ pol p st, E.policy = some pol → pol ≠ .false → J st → cryptoDecrypt E' pol p st = cryptoDecrypt E pol p st)
include hS hJ hd

theorem same_encrypted {rec rec' : Option Part → St → Option St} (hrec : ∀ q st, J st → rec' q st = rec q st) (f : Part) {st : St} (h : J st) :
    indexEncrypted E' rec' f st = indexEncrypted E rec f st := by
  unfold indexEncrypted
  rw [hS.policy]
  cases hpol : E.policy with
  | none => rfl
  | some pol =>
    simp only
    by_cases hf : pol = .false
    · rw [if_pos hf, if_pos hf]
    · rw [if_neg hf, if_neg hf, hd pol f st hpol hf h]
      obtain ⟨h1, h2⟩ := hJ.decrypt pol f st hpol hf h
      cases hc : cryptoDecrypt E pol f st with
      | mk b x =>
        obtain ⟨o, st1⟩ := x
        rw [hc] at h1 h2
        cases b with
        | false => rfl
        | true =>
          cases o with
          | none => rfl
          | some y =>
            obtain ⟨clear, key⟩ := y
            simp only
            rw [hrec _ _ (keep_payload hJ clear (h2 _ _ rfl))]

theorem same_children {rec rec' : Option Part → St → Option St} (hrec : ∀ q st, J st → rec' q st = rec q st)
    (hk : ∀ q st st', J st → rec q st = some st' → J st') (k : Multi) (f : Part) :
    ∀ (l : List Part) (n : Nat) (st : St), J st → indexChildren E' rec' k f n l st = indexChildren E rec k f n l st
  | [], _, _, _ => rfl
  | c :: l, n, st, h => by
    have ih := fun st => same_children hrec hk k f l (n + 1) st
    unfold indexChildren
    split
    · exact ih _ (keep_type hJ c h)
    · split
      · split
        · rw [same_encrypted hS hJ hd hrec f (keep_type hJ c h)]
          cases hx : indexEncrypted E rec f (indexContentType c st) with
          | none => rfl
          | some st1 => exact ih _ (keep_encrypted hJ hk f (keep_type hJ c h) hx)
        · exact ih _ (keep_type hJ c h)
      · simp only
        rw [hrec _ _ (keep_payload hJ c h)]
        cases hx : rec (some (payload c st).1) (payload c st).2 with
        | none => rfl
        | some st1 => exact ih _ (hk _ _ _ (keep_payload hJ c h) hx)

theorem same_repaired {rec rec' : Option Part → St → Option St} (hrec : ∀ q st, J st → rec' q st = rec q st)
    (hk : ∀ q st st', J st → rec q st = some st' → J st') (f : Part) {st : St} (h : J st) : indexRepaired E' rec' f st = indexRepaired E rec f st := by
  have h1 := keep_type hJ f h
  unfold indexRepaired
  cases f with
  | multipart k i l =>
    simp only
    have h2 : J (if k = .signed then (indexContentType (.multipart k i l) st).put (.tag (bs "signed")) else indexContentType (.multipart k i l) st) := by
      split; exact hJ.put _ (.tag _) trivial h1; exact h1
    generalize (if k = .signed then (indexContentType (.multipart k i l) st).put (.tag (bs "signed")) else indexContentType (.multipart k i l) st) = st2 at h2
    have h3 : J (if k = .encrypted then st2.put (.tag (bs "encrypted")) else st2) := by split; exact hJ.put st2 (.tag _) trivial h2; exact h2
    exact same_children hS hJ hd hrec hk k _ l 0 _ h3
  | message i s q => exact hrec _ _ h1
  | pkcs7 i t d =>
    simp only
    unfold indexPkcs7
    have h2 := keep_type hJ (.pkcs7 i t d) h1
    cases t with
    | signedData =>
      simp only
      rw [hS.verify]
      cases E.verify (.pkcs7 i .signedData d) with
      | none => rfl
      | some m => exact hrec _ _ (keep_payload hJ _ (hJ.put _ (.tag _) trivial h2))
    | envelopedData => exact same_encrypted hS hJ hd hrec _ (hJ.put _ (.tag _) trivial h2)
    | other => rfl
  | leaf i t att fn c =>
    have e1 : indexableAsText E' (.leaf i t att fn c) = indexableAsText E (.leaf i t att fn c) := by unfold indexableAsText; rw [hS.asText]
    have e2 : bodyText E' i c = bodyText E i c := by unfold bodyText; rw [hS.charset]
    simp only [indexLeaf, e1, e2]
  | unknown i => rfl

theorem same_part : ∀ (fuel : Nat) (q : Option Part) (st : St), J st → indexPart E' fuel q st = indexPart E fuel q st
  | 0, _, _, _ => rfl
  | fuel + 1, none, st, h => rfl
  | fuel + 1, some p, st, h => by
    have ih := same_part fuel
    have hk := keep_part hJ fuel
    rw [indexPart, indexPart]
    cases repairMixedUp p with
    | none => exact same_repaired hS hJ hd ih hk _ h
    | some q => exact same_repaired hS hJ hd ih hk _ (hJ.put _ _ (doc_prop (by decide +kernel)) h)

end Same

/-! ## The end of the run -/

section Total
variable {E : Env} {r : Part → Nat} (hr : ∀ p f q, As p f → Within E (anyView E) f q → r q < r p)
include hr

theorem inside_rank {p q : Part} (h : Inside E (anyView E) p q) : r q ≤ r p := by
  induction h with
  | refl => exact Nat.le_refl _
  | step ha hw _ ih => have := hr _ _ _ ha hw; omega

omit hr in
theorem opened_any {pol : Policy} {p q : Part} {st st' : St} {key : Option Str} (e : cryptoDecrypt E pol p st = (true, some (q, key), st')) : (anyView E).clear p q := by
  by_cases hf : pol = .false
  · subst hf; cases e
  · rcases crypto_cases E pol hf p st with ⟨q', hu, e'⟩ | ⟨hl, ha, e'⟩ | ⟨hl, ha, e'⟩
    · rw [e] at e'; cases e'
      obtain ⟨l, k, r, sk, _, _, hd⟩ := hu
      exact ⟨some k, sk, hd⟩
    · rw [e] at e'; exact absurd (congrArg (fun x => x.2.1) e') (by simp)
    · rw [e] at e'
      cases hd : E.decrypt p none with
      | none => rw [hd] at e'; cases e'
      | some x => rw [hd] at e'; cases e'; exact ⟨none, x.2, hd⟩

theorem total_encrypted {rec : Option Part → St → Option St} {p f : Part} (ha : As p f) (he : Encrypted f)
    (hrec : ∀ q st, r q < r p → rec (some q) st ≠ none) (st : St) : indexEncrypted E rec f st ≠ none := by
  unfold indexEncrypted
  split
  · exact Option.some_ne_none _
  · rename_i pol _
    split
    · exact Option.some_ne_none _
    · split
      · exact Option.some_ne_none _
      · exact Option.some_ne_none _
      · rename_i clear key st1 e
        simp only
        have h1 := hr _ _ _ ha (.clear he (opened_any e))
        have h2 := inside_rank hr (payload_inside (E := E) (V := anyView E) clear (remember pol key st1))
        have := hrec (payload clear (remember pol key st1)).1 (payload clear (remember pol key st1)).2 (by omega)
        intro h
        simp only [Option.map_eq_none_iff] at h
        exact this h

theorem total_children {rec : Option Part → St → Option St} {p f : Part} (ha : As p f) {k : Multi} {i : Info} {all : List Part}
    (hf : f = .multipart k i all) (hrec : ∀ q st, r q < r p → rec (some q) st ≠ none) :
    ∀ (l : List Part) (n : Nat) (st : St), (∀ m c, l[m]? = some c → all[n + m]? = some c) → indexChildren E rec k f n l st ≠ none
  | [], _, _, _ => Option.some_ne_none _
  | c :: l, n, st, hall => by
    have hc : all[n]? = some c := by simpa using hall 0 c rfl
    have hnext : ∀ m c', l[m]? = some c' → all[n + 1 + m]? = some c' := by
      intro m c' hm
      have := hall (m + 1) c' (by simpa using hm)
      rw [← this]; congr 1; omega
    have ih := fun st => total_children ha hf hrec l (n + 1) st hnext
    unfold indexChildren
    split
    · exact ih _
    · rename_i hns
      split
      · rename_i he
        subst he
        split
        · rename_i hn
          subst hn
          have henc : Encrypted f := .inl ⟨i, all, hf, by
            obtain ⟨hlt, _⟩ := List.getElem?_eq_some_iff.mp hc
            exact hlt⟩
          cases hx : indexEncrypted E rec f (indexContentType c st) with
          | none => exact absurd hx (total_encrypted hr ha henc hrec _)
          | some st1 => exact ih _
        · exact ih _
      · rename_i hne
        simp only
        have h1 : r c < r p := by
          refine hr _ _ _ ha ?_
          cases k with
          | encrypted => exact absurd rfl hne
          | signed => exact .signed hf (fun e => hns ⟨rfl, e⟩) hc
          | other => exact .child hf (List.mem_of_getElem? hc)
        have h2 := inside_rank hr (payload_inside (E := E) (V := anyView E) c st)
        cases hx : rec (some (payload c st).1) (payload c st).2 with
        | none => exact absurd hx (hrec _ _ (by omega))
        | some st1 => exact ih _

theorem total_part : ∀ (fuel : Nat) (p : Part) (st : St), r p + 2 ≤ fuel → indexPart E fuel (some p) st ≠ none
  | 0, _, _, h => by omega
  | fuel + 1, p, st, h => by
    have hrec : ∀ q st, r q < r p → indexPart E fuel (some q) st ≠ none := fun q st hq => total_part fuel q st (by omega)
    have hnone : ∀ st, indexPart E fuel none st ≠ none := by
      intro st
      cases fuel with
      | zero => omega
      | succ n => exact Option.some_ne_none _
    have key : ∀ f st, As p f → indexRepaired E (indexPart E fuel) f st ≠ none := by
      intro f st ha
      unfold indexRepaired
      cases f with
      | multipart k i l => exact total_children hr ha rfl hrec l 0 _ (fun m c hm => by simpa using hm)
      | message i s q =>
        cases q with
        | none => exact hnone _
        | some q => exact hrec _ _ (hr _ _ _ ha (.message rfl))
      | pkcs7 i t d =>
        simp only
        unfold indexPkcs7
        cases t with
        | signedData =>
          simp only
          cases hv : E.verify (.pkcs7 i .signedData d) with
          | none => exact Option.some_ne_none _
          | some m =>
            have h1 := hr _ _ _ ha (.verified rfl hv)
            have h2 := inside_rank hr (payload_inside (E := E) (V := anyView E) m ((indexContentType (.pkcs7 i .signedData d) (indexContentType (.pkcs7 i .signedData d) st)).put (.tag (bs "signed"))))
            exact hrec _ _ (by omega)
        | envelopedData => exact total_encrypted hr ha (.inr ⟨i, d, rfl⟩) hrec _
        | other => exact Option.some_ne_none _
      | leaf i t att fn c => exact Option.some_ne_none _
      | unknown i => exact Option.some_ne_none _
    rw [indexPart]
    cases hm : repairMixedUp p with
    | none => exact key _ _ (repair_none hm)
    | some q => exact key _ _ (repair_some hm)

end Total

/-! ## The protected subject -/

theorem keep_subject (E : Env) (s : Option Str) : Keep E (fun st => st.payload = true ∧ st.subject = s) where
  put _ _ _ h := h
  payload p st h := by
    unfold potentialPayload
    rw [if_pos h.1]; exact h
  decrypt pol p st _ _ h := by
    obtain ⟨_, h2, _, h4⟩ := crypto_keys E pol p st
    refine ⟨fun _ => ⟨h2.trans h.1, h4.trans h.2⟩, ?_⟩
    intro q key _
    have h5 : (cryptoDecrypt E pol p st).2.2.payload = true := h2.trans h.1
    have h6 := h4.trans h.2
    generalize (cryptoDecrypt E pol p st).2.2 = st1 at h5 h6
    have hsd : (successfulDecryption st1).payload = true ∧ (successfulDecryption st1).subject = s := by
      unfold successfulDecryption
      rw [h5]
      simp only [Bool.not_true, Bool.false_eq_true, if_false]
      split
      · exact ⟨rfl, h6⟩
      · exact ⟨h5, h6⟩
    unfold remember
    split
    · cases key with
      | none => exact hsd
      | some k => exact hsd
    · exact ⟨h5, h6⟩

/-- Nothing met yet. -/
def Fresh (st : St) : Prop := st.payload = false ∧ st.status = .none ∧ st.subject = none

theorem fresh_type (p : Part) {st : St} (h : Fresh st) : Fresh (indexContentType p st) := by
  rcases indexContentType_cases p st with e | ⟨a, b, _, e⟩
  · rw [e]; exact h
  · rw [e]; exact h

/-- A payload outside of encryption ends the search. -/
theorem fresh_payload (p : Part) {st : St} (h : Fresh st) : (payload p st).2.payload = true ∧ (payload p st).2.subject = none := by
  have h1 : (potentialPayload p st).2.payload = true ∧ (potentialPayload p st).2.subject = none ∧ (potentialPayload p st).2.status = .none := by
    unfold potentialPayload
    rw [if_neg (by rw [h.1]; decide), if_pos (by rw [h.2.1]; decide)]
    exact ⟨rfl, h.2.2, h.2.1⟩
  rcases payload_eq p st with e | ⟨hs, q, _, e⟩
  · rw [e]; exact ⟨h1.1, h1.2.1⟩
  · rw [h1.2.2] at hs; cases hs

/-- Still nothing, or a payload whose subject counts. -/
def Found (E : Env) (p : Part) (st : St) : Prop := Fresh st ∨ (st.payload = true ∧ (st.subject = none ∨
  E.policy = some .true ∧ ∃ q s, Covered E p q ∧ protectedSubject q = some s ∧ st.subject = some s))

theorem subject_encrypted {E : Env} {rec : Option Part → St → Option St} (hk : ∀ s q st st', (st.payload = true ∧ st.subject = s) → rec q st = some st' → st'.payload = true ∧ st'.subject = s)
    {p f : Part} (ha : As p f) (he : Encrypted f) {st st' : St} (h : Fresh st) (hr : indexEncrypted E rec f st = some st') : Found E p st' := by
  unfold indexEncrypted at hr
  split at hr
  · cases hr; exact .inl h
  · rename_i pol hpol
    split at hr
    · cases hr; exact .inl h
    · obtain ⟨_, c2, c3, c4⟩ := crypto_keys E pol f st
      have hfr : Fresh (cryptoDecrypt E pol f st).2.2 := ⟨c2.trans h.1, c3.trans h.2.1, c4.trans h.2.2⟩
      split at hr
      · rename_i e; rw [e] at hfr; cases hr; exact .inl hfr
      · rename_i e; rw [e] at hfr; cases hr; exact .inl hfr
      · rename_i clear key st1 e
        rw [e] at hfr
        simp only at hr
        obtain ⟨k, sk, hd⟩ := opened_any e
        cases hrr : rec (some (payload clear (remember pol key st1)).1) (payload clear (remember pol key st1)).2 with
        | none => rw [hrr] at hr; cases hr
        | some st4 =>
          rw [hrr] at hr
          cases hr
          by_cases ht : pol = .true
          · subst ht
            have hrem : (remember .true key st1).payload = false ∧ (remember .true key st1).status = .full ∧ (remember .true key st1).subject = none := by
              have : (successfulDecryption st1).payload = false ∧ (successfulDecryption st1).status = .full ∧ (successfulDecryption st1).subject = none := by
                unfold successfulDecryption
                rw [if_pos (by rw [hfr.1]; rfl)]
                exact ⟨hfr.1, rfl, hfr.2.2⟩
              unfold remember
              rw [if_pos rfl]
              cases key with
              | none => exact this
              | some k => exact this
            generalize remember .true key st1 = st2 at hrem hrr
            have hpp : (potentialPayload clear st2).2.payload = true ∧ (potentialPayload clear st2).2.subject = protectedSubject clear := by
              unfold potentialPayload
              rw [if_neg (by rw [hrem.1]; decide), if_neg (by rw [hrem.2.1]; decide)]
              cases protectedSubject clear with
              | none => exact ⟨rfl, hrem.2.2⟩
              | some s => exact ⟨rfl, rfl⟩
            have hp : (payload clear st2).2.payload = true ∧ (payload clear st2).2.subject = protectedSubject clear := by
              rcases payload_eq clear st2 with e' | ⟨_, q, _, e'⟩
              · rw [e']; exact hpp
              · rw [e']; exact hpp
            have := hk _ _ _ _ hp hrr
            refine .inr ⟨this.1, ?_⟩
            cases hs : protectedSubject clear with
            | none => exact .inl (this.2.trans hs)
            | some s => exact .inr ⟨hpol, clear, s, .encrypted ha he hd, hs, this.2.trans hs⟩
          · have hrem : remember pol key st1 = st1 := by unfold remember; rw [if_neg ht]
            rw [hrem] at hrr
            have := hk _ _ _ _ (fresh_payload clear hfr) hrr
            exact .inr ⟨this.1, .inl this.2⟩

theorem subject_children {E : Env} {rec : Option Part → St → Option St} (hk : ∀ s q st st', (st.payload = true ∧ st.subject = s) → rec q st = some st' → st'.payload = true ∧ st'.subject = s)
    {p f : Part} (ha : As p f) {k : Multi} {i : Info} {all : List Part} (hf : f = .multipart k i all) :
    ∀ (l : List Part) (n : Nat) (st st' : St), (∀ m c, l[m]? = some c → all[n + m]? = some c) → Found E p st → (n ≤ 1 → Fresh st ∨ k ≠ .encrypted) →
      indexChildren E rec k f n l st = some st' → Found E p st'
  | [], _, _, _, _, h, _, hr => by cases hr; exact h
  | c :: l, n, st, st', hall, h, hn1, hr => by
    have hc : all[n]? = some c := by simpa using hall 0 c rfl
    have hnext : ∀ m c', l[m]? = some c' → all[n + 1 + m]? = some c' := by
      intro m c' hm
      have := hall (m + 1) c' (by simpa using hm)
      rw [← this]; congr 1; omega
    have ih := fun st => subject_children (E := E) hk ha hf l (n + 1) st st' hnext
    have htype : ∀ {st}, Found E p st → Found E p (indexContentType c st) := by
      intro st h
      rcases indexContentType_cases c st with e | ⟨a, b, _, e⟩
      · rw [e]; exact h
      · rw [e]; exact h
    unfold indexChildren at hr
    split at hr
    · rename_i hs
      refine ih _ (htype h) (fun _ => .inr (by rw [hs.1]; decide)) hr
    · split at hr
      · rename_i he
        have hfr : n ≤ 1 → Fresh st := fun hn => (hn1 hn).resolve_right (fun hh => hh he)
        split at hr
        · rename_i hn
          subst hn
          have henc : Encrypted f := by
            subst he
            exact .inl ⟨i, all, hf, by
              obtain ⟨hlt, _⟩ := List.getElem?_eq_some_iff.mp hc
              exact hlt⟩
          cases hx : indexEncrypted E rec f (indexContentType c st) with
          | none => rw [hx] at hr; cases hr
          | some st1 =>
            rw [hx] at hr
            exact ih _ (subject_encrypted hk ha henc (fresh_type c (hfr (Nat.le_refl _))) hx) (fun hh => absurd hh (by decide)) hr
        · rename_i hn
          exact ih _ (htype h) (fun hh => .inl (fresh_type c (hfr (by omega)))) hr
      · rename_i hne
        simp only at hr
        have hp : ∃ s, ((payload c st).2.payload = true ∧ (payload c st).2.subject = s) ∧ (s = none ∨ E.policy = some .true ∧ ∃ q s', Covered E p q ∧ protectedSubject q = some s' ∧ s = some s') := by
          rcases h with h | ⟨h1, h2⟩
          · exact ⟨none, fresh_payload c h, .inl rfl⟩
          · refine ⟨st.subject, keep_payload (keep_subject E st.subject) c ⟨h1, rfl⟩, h2⟩
        obtain ⟨s, hp, hs⟩ := hp
        cases hx : rec (some (payload c st).1) (payload c st).2 with
        | none => rw [hx] at hr; cases hr
        | some st1 =>
          rw [hx] at hr
          have := hk _ _ _ _ hp hx
          refine ih _ (.inr ⟨this.1, ?_⟩) (fun _ => .inr hne) hr
          rw [this.2]; exact hs

theorem subject_part (E : Env) : ∀ (fuel : Nat) (q : Option Part) (st st' : St), Fresh st → indexPart E fuel q st = some st' →
    (q = none → Fresh st') ∧ ∀ p, q = some p → Found E p st'
  | 0, _, _, _, _, hr => by cases hr
  | fuel + 1, none, st, st', h, hr => by cases hr; exact ⟨fun _ => h, fun p e => by cases e⟩
  | fuel + 1, some p, st, st', h, hr => by
    have ih := subject_part E fuel
    have hk : ∀ s q st st', (st.payload = true ∧ st.subject = s) → indexPart E fuel q st = some st' → st'.payload = true ∧ st'.subject = s :=
      fun s q st st' h hr => keep_part (keep_subject E s) fuel q st st' h hr
    have key : ∀ f st, As p f → Fresh st → indexRepaired E (indexPart E fuel) f st = some st' → Found E p st' := by
      intro f st ha h hr
      unfold indexRepaired at hr
      have h1 := fresh_type f h
      generalize indexContentType f st = st1 at h1 hr
      simp only at hr
      split at hr
      · rename_i k i l
        have h2 : Fresh (if k = .signed then st1.put (.tag (bs "signed")) else st1) := by split <;> exact h1
        generalize (if k = .signed then st1.put (.tag (bs "signed")) else st1) = st2 at h2 hr
        have h3 : Fresh (if k = .encrypted then st2.put (.tag (bs "encrypted")) else st2) := by split <;> exact h2
        exact subject_children hk ha rfl l 0 _ _ (fun m c hm => by simpa using hm) (.inl h3) (fun _ => .inl h3) hr
      · rename_i i s q
        cases q with
        | none => exact .inl ((ih _ _ _ h1 hr).1 rfl)
        | some q =>
          rcases (ih _ _ _ h1 hr).2 q rfl with hf | ⟨hp, hs⟩
          · exact .inl hf
          · refine .inr ⟨hp, ?_⟩
            rcases hs with hs | ⟨ht, q', s', hc, hx⟩
            · exact .inl hs
            · exact .inr ⟨ht, q', s', .message ha hc, hx⟩
      · rename_i i t d
        unfold indexPkcs7 at hr
        have h2 := fresh_type (.pkcs7 i t d) h1
        generalize indexContentType (.pkcs7 i t d) st1 = st2 at h2 hr
        simp only at hr
        split at hr
        · split at hr
          · cases hr; exact .inl h2
          · rename_i m hv
            have := hk _ _ _ _ (fresh_payload m (st := st2.put (.tag (bs "signed"))) h2) hr
            exact .inr ⟨this.1, .inl this.2⟩
        · exact subject_encrypted hk ha (.inr ⟨i, d, rfl⟩) (st := st2.put (.tag (bs "encrypted"))) h2 hr
        · cases hr; exact .inl h2
      · rename_i i t att fn c
        cases hr
        unfold indexLeaf
        have h2 : Fresh (if att = true then attachmentTerms fn st1 else st1) := by
          split
          · cases fn <;> exact h1
          · exact h1
        generalize (if att = true then attachmentTerms fn st1 else st1) = st2 at h2
        simp only
        split <;> exact .inl h2
      · cases hr; exact .inl h1
    refine ⟨fun e => (by cases e), fun p' e => ?_⟩
    cases e
    rw [indexPart] at hr
    cases hm : repairMixedUp p with
    | none => rw [hm] at hr; exact key _ _ (repair_none hm) h hr
    | some q => rw [hm] at hr; exact key _ (st.put _) (repair_some hm) h hr

/-! ## The protected subject is found -/

theorem subject_opened {E : Env} {rec : Option Part → St → Option St} (hk : ∀ s q st st', (st.payload = true ∧ st.subject = s) → rec q st = some st' → st'.payload = true ∧ st'.subject = s)
    (hpol : E.policy = some .true) (h1 : OneClear E) {f q : Part} {sk : Option Str} (hd : E.decrypt f none = some (q, sk))
    {st st' : St} (h : Fresh st) (hr : indexEncrypted E rec f st = some st') : st'.subject = protectedSubject q := by
  obtain ⟨pol, key, st1, hp, _, e⟩ := (inv_secret E hpol h1).opens f q st trivial ⟨sk, hd⟩
  rw [hpol] at hp; cases hp
  obtain ⟨_, c2, c3, c4⟩ := crypto_keys E .true f st
  rw [e] at c2 c3 c4
  have hfr : Fresh st1 := ⟨c2.trans h.1, c3.trans h.2.1, c4.trans h.2.2⟩
  unfold indexEncrypted at hr
  rw [hpol] at hr
  simp only [reduceCtorEq, if_false, e] at hr
  cases hrr : rec (some (payload q (remember .true key st1)).1) (payload q (remember .true key st1)).2 with
  | none => rw [hrr] at hr; cases hr
  | some st4 =>
    rw [hrr] at hr
    cases hr
    have hrem : (remember .true key st1).payload = false ∧ (remember .true key st1).status = .full ∧ (remember .true key st1).subject = none := by
      have : (successfulDecryption st1).payload = false ∧ (successfulDecryption st1).status = .full ∧ (successfulDecryption st1).subject = none := by
        unfold successfulDecryption
        rw [if_pos (by rw [hfr.1]; rfl)]
        exact ⟨hfr.1, rfl, hfr.2.2⟩
      unfold remember
      rw [if_pos rfl]
      cases key with
      | none => exact this
      | some k => exact this
    generalize remember .true key st1 = st2 at hrem hrr
    have hpp : (potentialPayload q st2).2.payload = true ∧ (potentialPayload q st2).2.subject = protectedSubject q := by
      unfold potentialPayload
      rw [if_neg (by rw [hrem.1]; decide), if_neg (by rw [hrem.2.1]; decide)]
      cases protectedSubject q with
      | none => exact ⟨rfl, hrem.2.2⟩
      | some s => exact ⟨rfl, rfl⟩
    have hp : (payload q st2).2.payload = true ∧ (payload q st2).2.subject = protectedSubject q := by
      rcases payload_eq q st2 with e' | ⟨_, q, _, e'⟩
      · rw [e']; exact hpp
      · rw [e']; exact hpp
    exact (hk _ _ _ _ hp hrr).2

theorem type_subject (p : Part) (st : St) : (indexContentType p st).subject = st.subject := by
  rcases indexContentType_cases p st with e | ⟨a, b, _, e⟩ <;> rw [e] <;> rfl

theorem children_tail {E : Env} {rec : Option Part → St → Option St} (f : Part) : ∀ (l : List Part) (n : Nat) (st st' : St), 2 ≤ n →
    indexChildren E rec .encrypted f n l st = some st' → st'.subject = st.subject
  | [], _, _, _, _, hr => by cases hr; rfl
  | c :: l, n, st, st', hn, hr => by
    unfold indexChildren at hr
    rw [if_neg (by simp), if_pos rfl, if_neg (by unfold encryptedContent; omega)] at hr
    rw [children_tail f l (n + 1) _ _ (by omega) hr, type_subject]

theorem children_content {E : Env} {rec : Option Part → St → Option St} (f a b : Part) (rest : List Part) (st : St) :
    indexChildren E rec .encrypted f 0 (a :: b :: rest) st =
      (indexEncrypted E rec f (indexContentType b (indexContentType a st))).bind (indexChildren E rec .encrypted f 2 rest) := by
  rw [indexChildren, if_neg (by simp), if_pos rfl, if_neg (by unfold encryptedContent; omega)]
  rw [indexChildren, if_neg (by simp), if_pos rfl, if_pos (show 0 + 1 = encryptedContent from rfl)]

theorem subject_found {E : Env} (hpol : E.policy = some .true) (h1 : OneClear E) {p f q : Part} (ha : As p f) (he : Encrypted f) {sk : Option Str}
    (hd : E.decrypt f none = some (q, sk)) : ∀ (fuel : Nat) (st st' : St), Fresh st → indexPart E fuel (some p) st = some st' → st'.subject = protectedSubject q
  | 0, _, _, _, hr => by cases hr
  | fuel + 1, st, st', h, hr => by
    have hk : ∀ s q st st', (st.payload = true ∧ st.subject = s) → indexPart E fuel q st = some st' → st'.payload = true ∧ st'.subject = s :=
      fun s q st st' h hr => keep_part (keep_subject E s) fuel q st st' h hr
    have key : ∀ st, Fresh st → indexRepaired E (indexPart E fuel) f st = some st' → st'.subject = protectedSubject q := by
      intro st h hr
      unfold indexRepaired at hr
      have hf := fresh_type f h
      generalize indexContentType f st = st1 at hf hr
      simp only at hr
      rcases he with ⟨i, l, rfl, hl⟩ | ⟨i, d, rfl⟩
      · simp only [reduceCtorEq, if_false, if_true] at hr
        obtain ⟨a, b, rest, rfl⟩ : ∃ a b rest, l = a :: b :: rest := by
          cases l with
          | nil => exact absurd hl (by simp)
          | cons a l =>
            cases l with
            | nil => exact absurd hl (by simp)
            | cons b rest => exact ⟨a, b, rest, rfl⟩
        rw [children_content] at hr
        have hf2 : Fresh (indexContentType b (indexContentType a (st1.put (.tag (bs "encrypted"))))) := fresh_type b (fresh_type a hf)
        generalize indexContentType b (indexContentType a (st1.put (.tag (bs "encrypted")))) = st2 at hf2 hr
        cases hx : indexEncrypted E (indexPart E fuel) (.multipart .encrypted i (a :: b :: rest)) st2 with
        | none => rw [hx] at hr; cases hr
        | some st3 =>
          rw [hx] at hr
          rw [children_tail _ rest 2 _ _ (by omega) hr]
          exact subject_opened hk hpol h1 hd hf2 hx
      · simp only at hr
        unfold indexPkcs7 at hr
        exact subject_opened hk hpol h1 hd (st := (indexContentType _ st1).put _) (fresh_type _ hf) hr
    rw [indexPart] at hr
    have hf := as_unique ha
    cases hm : repairMixedUp p with
    | none => rw [hm] at hr hf; cases hf; exact key _ h hr
    | some q => rw [hm] at hr hf; cases hf; exact key (st.put _) h hr

/-! ## Who is asked, and what is stashed -/

theorem tryKeys_mem (E : Env) (p : Part) {e : Eff} : ∀ (ks : List Str) (st : St), e ∈ (tryKeys E p ks st).2.log → e ∈ st.log ∨ ∃ k ∈ ks, e = .askKey p k
  | [], _, h => .inl h
  | k :: ks, st, h => by
    rw [tryKeys] at h
    have hput : e ∈ (st.put (.askKey p k)).log → e ∈ st.log ∨ ∃ k' ∈ k :: ks, e = .askKey p k' := by
      intro h
      rcases List.mem_append.mp h with h | h
      · exact .inl h
      · exact .inr ⟨k, List.mem_cons_self, List.mem_singleton.mp h⟩
    cases hd : E.decrypt p (some k) with
    | some x => rw [hd] at h; exact hput h
    | none =>
      rw [hd] at h
      rcases tryKeys_mem E p ks _ h with h | ⟨k', hk, h⟩
      · exact hput h
      · exact .inr ⟨k', List.mem_cons_of_mem _ hk, h⟩

theorem mem_insertKey {k x : Str} {l : List Str} : x ∈ insertKey k l ↔ x = k ∨ x ∈ l := by
  unfold insertKey
  split
  · rename_i h
    exact ⟨.inr, fun h' => h'.elim (fun e => e ▸ h) id⟩
  · rw [List.mem_append, List.mem_cons]
    have := List.takeWhile_append_dropWhile (p := fun x => decide (x < k)) (l := l)
    constructor
    · rintro (h | h | h)
      · exact .inr (this ▸ List.mem_append.mpr (.inl h))
      · exact .inl h
      · exact .inr (this ▸ List.mem_append.mpr (.inr h))
    · rintro (h | h)
      · exact .inr (.inl h)
      · rw [← this] at h
        rcases List.mem_append.mp h with h | h
        · exact .inl h
        · exact .inr (.inr h)

/-- What the log tells of keys. -/
structure Secrets (E : Env) (keys : List Str) (st : St) : Prop where
  kept : ∀ k ∈ keys, k ∈ st.keys
  new : ∀ k ∈ st.keys, k ∈ keys ∨ .prop (bs "session-key") k ∈ st.log
  prop : ∀ k, .prop (bs "session-key") k ∈ st.log → k ∈ st.keys ∧ E.policy = some .true ∧ ∃ p q, .askSecret p ∈ st.log ∧ E.decrypt p none = some (q, some k)
  key : ∀ p k, .askKey p k ∈ st.log → k ∈ st.keys ∧ ∃ pol, E.policy = some pol ∧ pol ≠ .false
  secret : ∀ p, .askSecret p ∈ st.log → (E.policy = some .nostash ∨ E.policy = some .true) ∧ Locked E keys p
  stash : E.policy = some .true → ∀ p q k, .askSecret p ∈ st.log → E.decrypt p none = some (q, some k) → .prop (bs "session-key") k ∈ st.log

theorem successful_keys (st : St) : (successfulDecryption st).keys = st.keys := by
  unfold successfulDecryption
  split
  · rfl
  · split <;> rfl

theorem secrets_same {E : Env} {keys : List Str} {st st' : St} (h : Secrets E keys st) (hk : st'.keys = st.keys)
    (hl : ∀ e, ¬ Doc e → (e ∈ st'.log ↔ e ∈ st.log)) : Secrets E keys st' := by
  have hp : ∀ k, .prop (bs "session-key") k ∈ st'.log ↔ .prop (bs "session-key") k ∈ st.log := fun k => hl _ (fun h => h rfl)
  have ha : ∀ p k, .askKey p k ∈ st'.log ↔ .askKey p k ∈ st.log := fun p k => hl _ id
  have hs : ∀ p, .askSecret p ∈ st'.log ↔ .askSecret p ∈ st.log := fun p => hl _ id
  constructor
  · rw [hk]; exact h.kept
  · intro k hk'; rw [hk] at hk'; rw [hp]; exact h.new k hk'
  · intro k h'
    rw [hp] at h'
    obtain ⟨a, b, p, q, c, d⟩ := h.prop k h'
    exact ⟨hk ▸ a, b, p, q, (hs p).mpr c, d⟩
  · intro p k h'; rw [ha] at h'; rw [hk]; exact h.key p k h'
  · intro p h'; rw [hs] at h'; exact h.secret p h'
  · intro ht p q k h' hd; rw [hs] at h'; rw [hp]; exact h.stash ht p q k h' hd

theorem secrets_keys {E : Env} {keys : List Str} {pol : Policy} (hpol : E.policy = some pol) (hf : pol ≠ .false) (p : Part) {st : St}
    (h : Secrets E keys st) : Secrets E keys (tryKeys E p st.keys st).2 := by
  have hm := fun e => tryKeys_mem E p (e := e) st.keys st
  have hsub := tryKeys_sub E p st.keys st
  have hk := (tryKeys_keep E p st.keys st).1
  generalize (tryKeys E p st.keys st).2 = st' at hm hsub hk
  have hp : ∀ k, .prop (bs "session-key") k ∈ st'.log → .prop (bs "session-key") k ∈ st.log := by
    intro k h'
    rcases hm _ h' with h' | ⟨_, _, e⟩
    · exact h'
    · cases e
  have hs : ∀ p, .askSecret p ∈ st'.log → .askSecret p ∈ st.log := by
    intro k h'
    rcases hm _ h' with h' | ⟨_, _, e⟩
    · exact h'
    · cases e
  constructor
  · rw [hk]; exact h.kept
  · intro k hk'; rw [hk] at hk'
    exact (h.new k hk').imp id (hsub _)
  · intro k h'
    obtain ⟨a, b, p, q, c, d⟩ := h.prop k (hp k h')
    exact ⟨hk ▸ a, b, p, q, hsub _ c, d⟩
  · intro p' k h'
    rw [hk]
    rcases hm _ h' with h' | ⟨k', hk', e⟩
    · exact h.key p' k h'
    · cases e; exact ⟨hk', pol, hpol, hf⟩
  · intro p h'; exact h.secret p (hs p h')
  · intro ht p q k h' hd; exact hsub _ (h.stash ht p q k (hs p h') hd)

theorem keep_secrets (E : Env) (keys : List Str) : Keep E (Secrets E keys) where
  put st e he h := by
    refine secrets_same h rfl ?_
    intro e' he'
    refine ⟨fun h' => ?_, fun h' => List.mem_append.mpr (.inl h')⟩
    rcases List.mem_append.mp h' with h' | h'
    · exact h'
    · rw [List.mem_singleton.mp h'] at he'; exact absurd he he'
  payload p st h := secrets_same h (potential_keep p st).1 (fun e _ => by rw [potentialPayload_log])
  decrypt pol p st hpol hf h := by
    have hk := secrets_keys hpol hf p h
    have hrem : ∀ (st : St), Secrets E keys st → Secrets E keys (remember pol none st) := by
      intro st h
      unfold remember
      split
      · exact secrets_same h (successful_keys st) (fun e _ => by rw [successful_log])
      · exact h
    have hin := (tryKeys_keep E p st.keys st).1
    rcases crypto_cases E pol hf p st with ⟨q, _, e⟩ | ⟨_, _, e⟩ | ⟨hl, ha, e⟩
    · rw [e]
      refine ⟨fun h => ?_, ?_⟩
      · rcases h with h | h <;> cases h
      · rintro q' key h'
        cases h'
        exact hrem _ hk
    · rw [e]
      exact ⟨fun _ => hk, fun q key h' => by cases h'⟩
    · rw [e]
      have hl : Locked E keys p := fun k hk => hl k (h.kept k hk)
      have hpp : E.policy = some .nostash ∨ E.policy = some .true := by
        rw [hpol]
        cases pol with
        | false => exact absurd rfl hf
        | auto => exact absurd rfl ha
        | nostash => exact .inl rfl
        | true => exact .inr rfl
      generalize (tryKeys E p st.keys st).2 = st1 at hk hin
      have hput : (∀ q k, pol = .true → E.decrypt p none = some (q, some k) → .prop (bs "session-key") k ∈ st1.log) → Secrets E keys (st1.put (.askSecret p)) := by
        intro hx
        have hsub : Sub st1 (st1.put (.askSecret p)) := Sub.put _ _
        have hmem : ∀ e, e ∈ (st1.put (.askSecret p)).log → e ∈ st1.log ∨ e = .askSecret p := by
          intro e h
          rcases List.mem_append.mp h with h | h
          · exact .inl h
          · exact .inr (List.mem_singleton.mp h)
        constructor
        · exact hk.kept
        · exact fun k h => (hk.new k h).imp id (hsub _)
        · intro k h
          rcases hmem _ h with h | h
          · obtain ⟨a, b, p, q, c, d⟩ := hk.prop k h
            exact ⟨a, b, p, q, hsub _ c, d⟩
          · cases h
        · intro p' k h
          rcases hmem _ h with h | h
          · exact hk.key _ _ h
          · cases h
        · intro p' h
          rcases hmem _ h with h | h
          · exact hk.secret _ h
          · cases h; exact ⟨hpp, hl⟩
        · intro ht p' q k h hd
          rcases hmem _ h with h | h
          · exact hsub _ (hk.stash ht p' q k h hd)
          · cases h
            rw [hpol] at ht
            exact hsub _ (hx q k (Option.some.inj ht) hd)
      refine ⟨fun h => ?_, ?_⟩
      · refine hput (fun q k _ hd => ?_)
        simp [hd] at h
      · intro q key h'
        cases hd : E.decrypt p none with
        | none => rw [hd] at h'; cases h'
        | some x =>
          obtain ⟨q', sk⟩ := x
          rw [hd] at h'
          simp only [Option.map_some, Option.some.injEq, Prod.mk.injEq] at h'
          obtain ⟨rfl, rfl⟩ := h'
          by_cases ht : pol = .true
          · rw [if_pos ht]
            cases sk with
            | none =>
              exact hrem _ (hput (fun q k _ hd' => by rw [hd] at hd'; cases hd'))
            | some k0 =>
              unfold remember
              rw [if_pos ht]
              simp only
              have hkeys := successful_keys (st1.put (.askSecret p))
              have hlog := successful_log (st1.put (.askSecret p))
              generalize successfulDecryption (st1.put (.askSecret p)) = st2 at hkeys hlog
              have hlog' : (st2.stash k0).log = st1.log ++ [.askSecret p] ++ [.prop (bs "session-key") k0] := by
                show st2.log ++ _ = _
                rw [hlog]; rfl
              have hkeys' : ∀ k, k ∈ (st2.stash k0).keys ↔ k = k0 ∨ k ∈ st1.keys := by
                intro k
                show k ∈ insertKey k0 st2.keys ↔ _
                rw [mem_insertKey, hkeys]; rfl
              have hmem : ∀ e, e ∈ (st2.stash k0).log ↔ e ∈ st1.log ∨ e = .askSecret p ∨ e = .prop (bs "session-key") k0 := by
                intro e
                rw [hlog', List.mem_append, List.mem_append, List.mem_singleton, List.mem_singleton, or_assoc]
              generalize st2.stash k0 = st3 at hkeys' hmem
              constructor
              · exact fun k h => (hkeys' k).mpr (.inr (hk.kept k h))
              · intro k h
                rcases (hkeys' k).mp h with rfl | h
                · exact .inr ((hmem _).mpr (.inr (.inr rfl)))
                · exact (hk.new k h).imp id (fun h => (hmem _).mpr (.inl h))
              · intro k h
                rcases (hmem _).mp h with h | h | h
                · obtain ⟨a, b, p, q, c, d⟩ := hk.prop k h
                  exact ⟨(hkeys' k).mpr (.inr a), b, p, q, (hmem _).mpr (.inl c), d⟩
                · cases h
                · cases h
                  exact ⟨(hkeys' _).mpr (.inl rfl), hpol.trans (congrArg some ht), p, q', (hmem _).mpr (.inr (.inl rfl)), hd⟩
              · intro p' k h
                rcases (hmem _).mp h with h | h | h
                · exact ⟨(hkeys' k).mpr (.inr (hk.key _ _ h).1), (hk.key _ _ h).2⟩
                · cases h
                · cases h
              · intro p' h
                rcases (hmem _).mp h with h | h | h
                · exact hk.secret _ h
                · cases h; exact ⟨hpp, hl⟩
                · cases h
              · intro ht' p' q k h hd'
                rcases (hmem _).mp h with h | h | h
                · exact (hmem _).mpr (.inl (hk.stash ht' p' q k h hd'))
                · cases h
                  rw [hd] at hd'
                  cases hd'
                  exact (hmem _).mpr (.inr (.inr rfl))
                · cases h
          · rw [if_neg ht]
            exact hrem _ (hput (fun q k h' _ => absurd h' ht))

theorem secrets_start (E : Env) (keys : List Str) : Secrets E keys ⟨[], keys, false, .none, none⟩ where
  kept _ h := h
  new _ h := .inl h
  prop _ h := by cases h
  key _ _ h := by cases h
  secret _ h := by cases h
  stash _ _ _ _ h := by cases h

theorem isV1_iff (o : Option Str) : isV1 o = true ↔ ∃ v, o = some v ∧ v.map toLower = bs "v1" := by
  cases o with
  | none => exact Iff.intro (fun h => by cases h) (fun ⟨_, h, _⟩ => by cases h)
  | some s =>
    have hb : (bs "v1").map toLower = bs "v1" := by decide +kernel
    show ((bs "v1").map toLower == s.map toLower) = true ↔ _
    rw [beq_iff_eq]
    constructor
    · intro h
      exact ⟨s, rfl, by rw [← h]; exact hb⟩
    · rintro ⟨v, e, h⟩
      cases e
      rw [hb, h]

theorem protects_iff (p : Part) (s : Str) : protectedSubject p = some s ↔ Protects p s := by
  have hgen : ∀ p : Part, (∀ i t q, p = .message i t q → i.forwarded ≠ some (bs "no")) →
      ((if isV1 p.info.protectedHeaders then p.info.subject else none) = some s ↔ Protects p s) := by
    intro p hp
    constructor
    · intro h
      split at h
      · rename_i hv
        exact .inr ⟨hp, (isV1_iff _).mp hv, h⟩
      · cases h
    · rintro (⟨i, q, rfl, h⟩ | ⟨_, h, h'⟩)
      · exact absurd h (hp _ _ _ rfl)
      · rw [if_pos ((isV1_iff _).mpr h)]; exact h'
  cases p with
  | message i t q =>
    show (if i.forwarded = some (bs "no") then t else if isV1 i.protectedHeaders then i.subject else none) = some s ↔ _
    by_cases hf : i.forwarded = some (bs "no")
    · rw [if_pos hf]
      constructor
      · rintro rfl; exact .inl ⟨i, q, rfl, hf⟩
      · rintro (⟨i', q', e, _⟩ | ⟨h, _⟩)
        · cases e; rfl
        · exact absurd hf (h _ _ _ rfl)
    · rw [if_neg hf]
      exact hgen (.message i t q) (fun _ _ _ e => by cases e; exact hf)
  | multipart k i l => exact hgen (.multipart k i l) (fun _ _ _ e => by cases e)
  | pkcs7 i t d => exact hgen (.pkcs7 i t d) (fun _ _ _ e => by cases e)
  | leaf i t a f c => exact hgen (.leaf i t a f c) (fun _ _ _ e => by cases e)
  | unknown i => exact hgen (.unknown i) (fun _ _ _ e => by cases e)

theorem inside_shown {E : Env} {V : View} (hV : ¬ V.skips) {p q : Part} (h : Inside E V p q) : Shown E V p q := by
  induction h with
  | refl => exact .refl
  | step ha hw _ ih => exact .step ha hw (fun h => absurd h hV) ih

end Notmuch.Mime
