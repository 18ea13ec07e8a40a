import Verif.Spec.Mime

namespace Notmuch.Mime

open Notmuch.StringUtil

/-! ## The tests of types -/

theorem isType_iff (p : Part) (a b : Str) : isType p a b = true ↔ HasType p a b := by
  unfold isType HasType
  cases h : p.info.type with
  | none => simp
  | some x =>
    obtain ⟨x, y⟩ := x
    simp only [strcaseEqual, Bool.and_eq_true, beq_iff_eq, Option.some.injEq, Prod.mk.injEq]
    constructor
    · rintro ⟨h1, h2⟩; exact ⟨x, y, ⟨rfl, rfl⟩, h1, h2⟩
    · rintro ⟨_, _, ⟨rfl, rfl⟩, h1, h2⟩; exact ⟨h1, h2⟩

theorem mixedUp_repair {p b c : Part} (h : MixedUp p b c) :
    repairMixedUp p = some (.multipart .encrypted ⟨some (bs "multipart", bs "encrypted"), none, none, some (bs "application/pgp-encrypted"), none⟩ [b, c]) := by
  obtain ⟨i, j, att, f, t, rfl, h1, h2, h3, h4, h5⟩ := h
  rw [← isType_iff] at h1 h2 h3 h4
  simp [repairMixedUp, h1, h2, h3, h4, isTextPart, emptyText]
  simpa using h5

theorem repair_mixedUp {p q : Part} (h : repairMixedUp p = some q) :
    ∃ b c, MixedUp p b c ∧ q = .multipart .encrypted ⟨some (bs "multipart", bs "encrypted"), none, none, some (bs "application/pgp-encrypted"), none⟩ [b, c] := by
  unfold repairMixedUp at h
  split at h
  · rename_i i a b c
    split at h
    · rename_i hc
      simp only [Bool.and_eq_true, isType_iff] at hc
      obtain ⟨⟨⟨⟨⟨h1, h2⟩, h3⟩, h4⟩, h5⟩, h6⟩ := hc
      cases h
      refine ⟨b, c, ?_, rfl⟩
      cases a with
      | leaf j t att f s =>
        have : t = true := h3
        subst this
        exact ⟨i, j, att, f, s, rfl, h1, h2, h4, h5, by simpa [emptyText] using h6⟩
      | _ => cases h3
    · cases h
  · cases h

theorem repair_some {p f : Part} (h : repairMixedUp p = some f) : As p f := .inr (repair_mixedUp h)

theorem repair_none {p : Part} (h : repairMixedUp p = none) : As p p := .inl ⟨rfl, fun ⟨b, c, hm⟩ => by rw [mixedUp_repair hm] at h; cases h⟩

theorem as_unique {p f : Part} (h : As p f) : (repairMixedUp p).getD p = f := by
  rcases h with ⟨rfl, hn⟩ | ⟨b, c, hm, rfl⟩
  · cases hr : repairMixedUp f with
    | none => rfl
    | some q =>
      obtain ⟨b, c, hm, _⟩ := repair_mixedUp hr
      exact absurd ⟨b, c, hm⟩ hn
  · rw [mixedUp_repair hm]; rfl

theorem as_exists (p : Part) : ∃ f, As p f := by
  cases h : repairMixedUp p with
  | none => exact ⟨p, repair_none h⟩
  | some f => exact ⟨f, repair_some h⟩

theorem legacy_iff {p b : Part} : legacyDisplay p = some b ↔ ∃ a, Legacy p a b := by
  constructor
  · intro h
    unfold legacyDisplay at h
    split at h
    · rename_i i a b'
      split at h
      · rename_i hc
        simp only [Bool.and_eq_true, Bool.or_eq_true, isType_iff, beq_iff_eq] at hc
        obtain ⟨⟨⟨⟨h1, h2⟩, h3⟩, h4⟩, h5⟩ := hc
        cases h
        exact ⟨a, i, rfl, h1, h2, h3, h4, h5⟩
      · cases h
    · cases h
  · rintro ⟨a, i, rfl, h1, h2, h3, h4, h5⟩
    rw [← isType_iff] at h1
    rw [← isType_iff, ← isType_iff] at h3
    simp [legacyDisplay, h1, h2, h3, h4, h5]

theorem legacy_as {p a b : Part} (h : Legacy p a b) : As p p := by
  refine .inl ⟨rfl, ?_⟩
  obtain ⟨i, rfl, _⟩ := h
  rintro ⟨b', c, j, k, att, f, t, h, _⟩
  simp at h

theorem legacy_within {E : Env} {V : View} {p a b : Part} (h : Legacy p a b) : Within E V p b := by
  obtain ⟨i, rfl, _⟩ := h
  exact .child rfl (by simp)

/-! ## What is written comes from the parts -/

/-- An invariant of the state that gives the view. -/
structure Inv (E : Env) (V : View) (I : St → Prop) : Prop where
  put : ∀ st e, I st → I (st.put e)
  payload : ∀ p st, I st → I (potentialPayload p st).2
  decrypted : E.policy = some .true → ∀ st, I st → I (successfulDecryption st)
  stash : E.policy = some .true → ∀ st k, I st → I (st.stash k)
  opened : ∀ pol p st q key st', E.policy = some pol → I st → cryptoDecrypt E pol p st = (true, some (q, key), st') → V.clear p q
  failed : ∀ pol p st st', E.policy = some pol → I st → cryptoDecrypt E pol p st = (true, none, st') → V.fails p
  skips : ∀ st, I st → st.status = .full → V.skips

def Prov (E : Env) (V : View) (P : Part → Prop) (a b : St) : Prop := ∀ e ∈ b.log, Doc e → e ∈ a.log ∨ ∃ q f, P q ∧ As q f ∧ Emits E V q f e

theorem Prov.refl {E : Env} {V : View} {P : Part → Prop} (a : St) : Prov E V P a a := fun _ h _ => .inl h

theorem Prov.same {E : Env} {V : View} {P : Part → Prop} {a b : St} (h : b.log = a.log) : Prov E V P a b := fun _ he _ => .inl (h ▸ he)

theorem Prov.trans {E : Env} {V : View} {P : Part → Prop} {a b c : St} (h1 : Prov E V P a b) (h2 : Prov E V P b c) : Prov E V P a c := by
  intro e he hd
  rcases h2 e he hd with h | h
  · exact h1 e h hd
  · exact .inr h

theorem Prov.mono {E : Env} {V : View} {P Q : Part → Prop} {a b : St} (h : Prov E V P a b) (hpq : ∀ q, P q → Q q) : Prov E V Q a b := by
  intro e he hd
  rcases h e he hd with h | ⟨q, f, hq, h⟩
  · exact .inl h
  · exact .inr ⟨q, f, hpq q hq, h⟩

theorem Prov.put {E : Env} {V : View} {P : Part → Prop} {p f : Part} (hp : P p) (ha : As p f) (st : St) {e : Eff} (he : Doc e → Emits E V p f e) :
    Prov E V P st (st.put e) := by
  intro e' he' hd
  rcases List.mem_append.mp he' with h | h
  · exact .inl h
  · have : e' = e := by simpa using h
    subst this
    exact .inr ⟨p, f, hp, ha, he hd⟩

theorem Prov.skip {E : Env} {V : View} {P : Part → Prop} (st : St) {e : Eff} (he : ¬ Doc e) : Prov E V P st (st.put e) := by
  intro e' he' hd
  rcases List.mem_append.mp he' with h | h
  · exact .inl h
  · have : e' = e := by simpa using h
    subst this
    exact absurd hd he

theorem indexContentType_cases (p : Part) (st : St) : indexContentType p st = st ∨ ∃ a b, p.info.type = some (a, b) ∧ indexContentType p st = st.put (.mimetype (a ++ bs "/" ++ b)) := by
  unfold indexContentType
  cases h : p.info.type with
  | none => exact .inl rfl
  | some x => exact .inr ⟨x.1, x.2, rfl, rfl⟩

theorem potentialPayload_log (p : Part) (st : St) : (potentialPayload p st).2.log = st.log := by
  unfold potentialPayload
  split
  · rfl
  · split
    · rfl
    · cases protectedSubject p <;> rfl

theorem payload_eq (p : Part) (st : St) : payload p st = (p, (potentialPayload p st).2) ∨
    (potentialPayload p st).2.status = .full ∧ ∃ q, legacyDisplay p = some q ∧
      payload p st = (q, (potentialPayload p st).2.put (.prop (bs "index.repaired") (bs "skip-protected-headers-legacy-display"))) := by
  unfold payload
  simp only
  split
  · rename_i h
    simp only [Bool.and_eq_true, decide_eq_true_eq] at h
    cases hl : legacyDisplay p with
    | none => exact .inl rfl
    | some q => exact .inr ⟨h.2, q, rfl, rfl⟩
  · exact .inl rfl

section Upper
variable {E : Env} {V : View} {I : St → Prop} (hI : Inv E V I)
include hI

theorem inv_type (p : Part) {st : St} (h : I st) : I (indexContentType p st) := by
  rcases indexContentType_cases p st with e | ⟨a, b, _, e⟩
  · rw [e]; exact h
  · rw [e]; exact hI.put _ _ h

theorem payload_inv (p : Part) {st : St} (h : I st) : I (payload p st).2 := by
  have h1 := hI.payload p st h
  rcases payload_eq p st with e | ⟨_, q, _, e⟩
  · rw [e]; exact h1
  · rw [e]; exact hI.put _ _ h1

theorem payload_prov (p : Part) {st : St} (h : I st) : Prov E V (· = p) st (payload p st).2 := by
  rcases payload_eq p st with e | ⟨hs, q, hq, e⟩
  · rw [e]; exact Prov.same (potentialPayload_log p st)
  · rw [e]
    obtain ⟨a, hl⟩ := legacy_iff.mp hq
    refine (Prov.same (potentialPayload_log p st)).trans (Prov.put (P := (· = p)) (p := p) (f := p) rfl (legacy_as hl) _ ?_)
    intro _
    exact .skipped (hI.skips _ (hI.payload p st h) hs) hl

omit hI in
theorem payload_inside (p : Part) (st : St) : Inside E V p (payload p st).1 := by
  rcases payload_eq p st with e | ⟨_, q, hq, e⟩
  · rw [e]; exact .refl
  · rw [e]
    obtain ⟨a, hl⟩ := legacy_iff.mp hq
    exact .step (legacy_as hl) (legacy_within hl) .refl

omit hI in
theorem Inside.trans {p q r : Part} (h : Inside E V p q) (h' : Inside E V q r) : Inside E V p r := by
  induction h with
  | refl => exact h'
  | step ha hw _ ih => exact .step ha hw (ih h')

/-- Indexing a payload. -/
theorem rec_prov {rec : Option Part → St → Option St} (hrec : ∀ q st st', I st → rec (some q) st = some st' → Prov E V (Inside E V q) st st' ∧ I st')
    (c : Part) {st st' : St} (h : I st) (hr : rec (some (payload c st).1) (payload c st).2 = some st') : Prov E V (Inside E V c) st st' ∧ I st' := by
  obtain ⟨h1, h2⟩ := hrec _ _ _ (payload_inv hI c h) hr
  refine ⟨((payload_prov hI c h).mono ?_).trans (h1.mono ?_), h2⟩
  · rintro q rfl; exact .refl
  · intro q hq; exact (payload_inside c st).trans hq

omit hI in
theorem tryKeys_log (p : Part) : ∀ (ks : List Str) (st : St), Prov E V (fun _ => False) st (tryKeys E p ks st).2 ∧ (I st → (∀ st e, I st → I (st.put e)) → I (tryKeys E p ks st).2)
  | [], st => ⟨Prov.refl _, fun h _ => h⟩
  | k :: ks, st => by
    unfold tryKeys
    simp only
    have hp : Prov E V (fun _ => False) st (st.put (.askKey p k)) := Prov.skip st (fun h => h)
    cases E.decrypt p (some k) with
    | some x => exact ⟨hp, fun h hput => hput _ _ h⟩
    | none =>
      obtain ⟨h1, h2⟩ := tryKeys_log p ks (st.put (.askKey p k))
      exact ⟨hp.trans h1, fun h hput => h2 (hput _ _ h) hput⟩

theorem cryptoDecrypt_log (pol : Policy) (p : Part) {st : St} (h : I st) :
    Prov E V (fun _ => False) st (cryptoDecrypt E pol p st).2.2 ∧ I (cryptoDecrypt E pol p st).2.2 := by
  unfold cryptoDecrypt
  split
  · exact ⟨Prov.refl _, h⟩
  · obtain ⟨h1, h2⟩ := tryKeys_log (E := E) (V := V) (I := I) p st.keys st
    split
    · rename_i e; rw [e] at h1 h2; exact ⟨h1, h2 h hI.put⟩
    · rename_i e
      rw [e] at h1 h2
      split
      · exact ⟨h1, h2 h hI.put⟩
      · exact ⟨h1.trans (Prov.skip _ (fun h => h)), hI.put _ _ (h2 h hI.put)⟩

theorem indexEncrypted_prov {rec : Option Part → St → Option St}
    (hrec : ∀ q st st', I st → rec (some q) st = some st' → Prov E V (Inside E V q) st st' ∧ I st')
    {p f : Part} (ha : As p f) (he : Encrypted f) {st st' : St} (h : I st) (hr : indexEncrypted E rec f st = some st') :
    Prov E V (Inside E V p) st st' ∧ I st' := by
  unfold indexEncrypted at hr
  split at hr
  · cases hr; exact ⟨Prov.refl _, h⟩
  · rename_i pol hpol
    split at hr
    · cases hr; exact ⟨Prov.refl _, h⟩
    · obtain ⟨hl, hi⟩ := cryptoDecrypt_log hI pol f h
      replace hl := hl.mono (Q := Inside E V p) (fun _ hf => hf.elim)
      split at hr
      · rename_i e; rw [e] at hl hi; cases hr; exact ⟨hl, hi⟩
      · rename_i e; rw [e] at hl hi; cases hr
        exact ⟨hl.trans (Prov.put (p := p) .refl ha _ (fun _ => .failure he (hI.failed pol f st _ hpol h e))), hI.put _ _ hi⟩
      · rename_i clear key st1 e
        rw [e] at hl hi
        have hc := hI.opened pol f st clear key st1 hpol h e
        simp only at hr
        have h3 : Prov E V (Inside E V p) st1 (remember pol key st1) ∧ I (remember pol key st1) := by
          unfold remember
          split
          · rename_i ht
            subst ht
            have h2 : Prov E V (Inside E V p) st1 (successfulDecryption st1) := by
              refine Prov.same ?_
              unfold successfulDecryption
              split
              · rfl
              · split <;> rfl
            have hi2 := hI.decrypted hpol _ hi
            cases key with
            | none => exact ⟨h2, hi2⟩
            | some k => exact ⟨h2.trans (Prov.skip _ (e := .prop (bs "session-key") k) (fun hd => hd rfl)), hI.stash hpol _ _ hi2⟩
          · exact ⟨Prov.refl _, hi⟩
        generalize remember pol key st1 = st3 at h3 hr
        cases hrr : rec (some (payload clear st3).1) (payload clear st3).2 with
        | none => rw [hrr] at hr; cases hr
        | some st4 =>
          rw [hrr] at hr
          cases hr
          obtain ⟨h4, h5⟩ := rec_prov hI hrec clear h3.2 hrr
          refine ⟨((hl.trans h3.1).trans (h4.mono ?_)).trans (Prov.put (p := p) .refl ha _ (fun _ => .success he hc)), hI.put _ _ h5⟩
          intro q hq
          exact .step ha (.clear he hc) hq

theorem indexChildren_prov {rec : Option Part → St → Option St}
    (hrec : ∀ q st st', I st → rec (some q) st = some st' → Prov E V (Inside E V q) st st' ∧ I st')
    {p f : Part} (ha : As p f) {k : Multi} {i : Info} {all : List Part} (hf : f = .multipart k i all) :
    ∀ (l : List Part) (n : Nat) (st st' : St), (∀ m c, l[m]? = some c → all[n + m]? = some c) → I st → indexChildren E rec k f n l st = some st' →
      Prov E V (Inside E V p) st st' ∧ I st'
  | [], n, st, st', _, h, hr => by cases hr; exact ⟨Prov.refl _, h⟩
  | c :: l, n, st, st', hall, h, hr => by
    have hc : all[n]? = some c := by simpa using hall 0 c rfl
    have hnext : ∀ m c', l[m]? = some c' → all[n + 1 + m]? = some c' := by
      intro m c' hm
      have := hall (m + 1) c' (by simpa using hm)
      rw [← this]; congr 1; omega
    have ih := fun st st' => indexChildren_prov hrec ha hf l (n + 1) st st' hnext
    unfold indexChildren at hr
    have htype (hem : ∀ a b, c.info.type = some (a, b) → Emits E V p f (.mimetype (a ++ bs "/" ++ b))) : Prov E V (Inside E V p) st (indexContentType c st) := by
      rcases indexContentType_cases c st with e | ⟨a, b, ht, e⟩
      · rw [e]; exact Prov.refl _
      · rw [e]; exact Prov.put (p := p) .refl ha _ (fun _ => hem a b ht)
    split at hr
    · rename_i hs
      obtain ⟨rfl, rfl⟩ := hs
      obtain ⟨h1, h2⟩ := ih _ _ (inv_type hI c h) hr
      exact ⟨(htype (fun a b ht => .signature hf hc ht)).trans h1, h2⟩
    · rename_i hns
      split at hr
      · rename_i he
        subst he
        have ht := htype (fun a b ht => .ciphertext hf (List.mem_of_getElem? hc) ht)
        split at hr
        · rename_i hn
          subst hn
          cases hx : indexEncrypted E rec f (indexContentType c st) with
          | none => rw [hx] at hr; cases hr
          | some st1 =>
            rw [hx] at hr
            have henc : Encrypted f := .inl ⟨i, all, hf, by
              obtain ⟨hlt, _⟩ := List.getElem?_eq_some_iff.mp hc
              exact hlt⟩
            obtain ⟨h1, h2⟩ := indexEncrypted_prov hI hrec ha henc (inv_type hI c h) hx
            obtain ⟨h3, h4⟩ := ih _ _ h2 hr
            exact ⟨(ht.trans h1).trans h3, h4⟩
        · obtain ⟨h1, h2⟩ := ih _ _ (inv_type hI c h) hr
          exact ⟨ht.trans h1, h2⟩
      · rename_i hne
        simp only at hr
        cases hx : rec (some (payload c st).1) (payload c st).2 with
        | none => rw [hx] at hr; cases hr
        | some st1 =>
          rw [hx] at hr
          obtain ⟨h1, h2⟩ := rec_prov hI hrec c h hx
          obtain ⟨h3, h4⟩ := ih _ _ h2 hr
          refine ⟨(h1.mono ?_).trans h3, h4⟩
          intro q hq
          refine .step ha ?_ hq
          cases k with
          | encrypted => exact absurd rfl hne
          | signed => exact .signed hf (fun e => hns ⟨rfl, e⟩) hc
          | other => exact .child hf (List.mem_of_getElem? hc)

theorem indexRepaired_prov {rec : Option Part → St → Option St}
    (hrec : ∀ q st st', I st → rec q st = some st' → (∀ q', q = some q' → Prov E V (Inside E V q') st st') ∧ (q = none → st' = st) ∧ I st')
    {p f : Part} (ha : As p f) {st st' : St} (h : I st) (hr : indexRepaired E rec f st = some st') : Prov E V (Inside E V p) st st' ∧ I st' := by
  have hrec' : ∀ q st st', I st → rec (some q) st = some st' → Prov E V (Inside E V q) st st' ∧ I st' :=
    fun q st st' h1 h2 => ⟨(hrec _ _ _ h1 h2).1 q rfl, (hrec _ _ _ h1 h2).2.2⟩
  unfold indexRepaired at hr
  have hi1 := inv_type hI f h
  have hp1 : Prov E V (Inside E V p) st (indexContentType f st) := by
    rcases indexContentType_cases f st with e | ⟨a, b, ht, e⟩
    · rw [e]; exact Prov.refl _
    · rw [e]; exact Prov.put (p := p) .refl ha _ (fun _ => .type ht)
  generalize indexContentType f st = st1 at hi1 hp1 hr
  simp only at hr
  split at hr
  · rename_i k i l
    have h2 : Prov E V (Inside E V p) st1 (if k = .signed then st1.put (.tag (bs "signed")) else st1) ∧ I (if k = .signed then st1.put (.tag (bs "signed")) else st1) := by
      split
      · rename_i hk; subst hk
        exact ⟨Prov.put (p := p) .refl ha _ (fun _ => .signed rfl), hI.put _ _ hi1⟩
      · exact ⟨Prov.refl _, hi1⟩
    generalize (if k = .signed then st1.put (.tag (bs "signed")) else st1) = st2 at h2 hr
    have h3 : Prov E V (Inside E V p) st2 (if k = .encrypted then st2.put (.tag (bs "encrypted")) else st2) ∧ I (if k = .encrypted then st2.put (.tag (bs "encrypted")) else st2) := by
      split
      · rename_i hk; subst hk
        exact ⟨Prov.put (p := p) .refl ha _ (fun _ => .encrypted rfl), hI.put _ _ h2.2⟩
      · exact ⟨Prov.refl _, h2.2⟩
    generalize (if k = .encrypted then st2.put (.tag (bs "encrypted")) else st2) = st3 at h3 hr
    obtain ⟨h4, h5⟩ := indexChildren_prov hI hrec' ha rfl l 0 st3 st' (fun m c hm => by simpa using hm) h3.2 hr
    exact ⟨((hp1.trans h2.1).trans h3.1).trans h4, h5⟩
  · rename_i i s q
    obtain ⟨h1, h2, h3⟩ := hrec _ _ _ hi1 hr
    refine ⟨hp1.trans ?_, h3⟩
    cases q with
    | none => rw [h2 rfl]; exact Prov.refl _
    | some q => exact (h1 q rfl).mono (fun r hr => .step ha (.message rfl) hr)
  · rename_i i t d
    unfold indexPkcs7 at hr
    have hi2 := inv_type hI (.pkcs7 i t d) hi1
    have hp2 : Prov E V (Inside E V p) st1 (indexContentType (.pkcs7 i t d) st1) := by
      rcases indexContentType_cases (.pkcs7 i t d) st1 with e | ⟨a, b, ht, e⟩
      · rw [e]; exact Prov.refl _
      · rw [e]; exact Prov.put (p := p) .refl ha _ (fun _ => .type ht)
    generalize indexContentType (.pkcs7 i t d) st1 = st2 at hi2 hp2 hr
    simp only at hr
    split at hr
    · split at hr
      · cases hr; exact ⟨hp1.trans hp2, hi2⟩
      · rename_i m hv
        have h3 : Prov E V (Inside E V p) st2 (st2.put (.tag (bs "signed"))) := Prov.put (p := p) .refl ha _ (fun _ => .verified rfl hv)
        obtain ⟨h4, h5⟩ := rec_prov hI hrec' m (hI.put _ _ hi2) hr
        exact ⟨((hp1.trans hp2).trans h3).trans (h4.mono (fun r hr => .step ha (.verified rfl hv) hr)), h5⟩
    · have h3 : Prov E V (Inside E V p) st2 (st2.put (.tag (bs "encrypted"))) := Prov.put (p := p) .refl ha _ (fun _ => .enveloped rfl)
      obtain ⟨h4, h5⟩ := indexEncrypted_prov hI hrec' ha (.inr ⟨i, d, rfl⟩) (hI.put _ _ hi2) hr
      exact ⟨((hp1.trans hp2).trans h3).trans h4, h5⟩
    · cases hr; exact ⟨hp1.trans hp2, hi2⟩
  · rename_i i t att f c
    cases hr
    unfold indexLeaf
    have h2 : Prov E V (Inside E V p) st1 (if att = true then attachmentTerms f st1 else st1) ∧ I (if att = true then attachmentTerms f st1 else st1) := by
      split
      · rename_i hatt; subst hatt
        have h3 : Prov E V (Inside E V p) st1 (st1.put (.tag (bs "attachment"))) := Prov.put (p := p) .refl ha _ (fun _ => .attachment rfl)
        cases f with
        | none => exact ⟨h3, hI.put _ _ hi1⟩
        | some f => exact ⟨h3.trans (Prov.put (p := p) .refl ha _ (fun _ => .filename rfl)), hI.put _ _ (hI.put _ _ hi1)⟩
      · exact ⟨Prov.refl _, hi1⟩
    generalize (if att = true then attachmentTerms f st1 else st1) = st2 at h2
    obtain ⟨h2, hi2⟩ := h2
    simp only
    split
    · exact ⟨hp1.trans h2, hi2⟩
    · rename_i hx
      refine ⟨(hp1.trans h2).trans (Prov.put (p := p) .refl ha _ (fun _ => .body rfl ?_)), hI.put _ _ hi2⟩
      intro hatt
      subst hatt
      simp only [Bool.true_and, Bool.not_eq_true', Bool.not_eq_false] at hx
      unfold indexableAsText at hx
      cases ht : i.type with
      | none => simp [Part.info, ht] at hx
      | some x => exact ⟨x.1, x.2, rfl, by simpa [Part.info, ht] using hx⟩
  · cases hr; exact ⟨hp1, hi1⟩

theorem indexPart_prov : ∀ (fuel : Nat) (q : Option Part) (st st' : St), I st → indexPart E fuel q st = some st' →
    (∀ p, q = some p → Prov E V (Inside E V p) st st') ∧ (q = none → st' = st) ∧ I st'
  | 0, _, _, _, _, hr => by cases hr
  | fuel + 1, none, st, st', h, hr => by cases hr; exact ⟨fun _ e => (by cases e), fun _ => rfl, h⟩
  | fuel + 1, some p, st, st', h, hr => by
    have ih := indexPart_prov fuel
    rw [indexPart] at hr
    refine ⟨?_, fun e => by (cases e), ?_⟩
    · rintro p' ⟨⟩
      cases hm : repairMixedUp p with
      | none => rw [hm] at hr; exact (indexRepaired_prov hI (ih) (repair_none hm) h hr).1
      | some q =>
        rw [hm] at hr
        obtain ⟨b, c, hmix, _⟩ := repair_mixedUp hm
        exact (Prov.put (p := p) .refl (repair_some hm) _ (fun _ => .mixedUp hmix)).trans (indexRepaired_prov hI ih (repair_some hm) (hI.put _ _ h) hr).1
    · cases hm : repairMixedUp p with
      | none => rw [hm] at hr; exact (indexRepaired_prov hI ih (repair_none hm) h hr).2
      | some q => rw [hm] at hr; exact (indexRepaired_prov hI ih (repair_some hm) (hI.put _ _ h) hr).2

end Upper

/-! ## What is in the parts is written -/

/-- An invariant of the state that is enough to open what the view says is open. -/
structure Inv' (E : Env) (V : View) (I : St → Prop) : Prop where
  put : ∀ st e, I st → I (st.put e)
  payload : ∀ p st, I st → I (potentialPayload p st).2
  decrypted : E.policy = some .true → ∀ st, I st → I (successfulDecryption st)
  stash : E.policy = some .true → ∀ st k, I st → I (st.stash k)
  opens : ∀ p q st, I st → V.clear p q → ∃ pol key st', E.policy = some pol ∧ pol ≠ .false ∧ cryptoDecrypt E pol p st = (true, some (q, key), st')
  fails : ∀ p st, I st → V.fails p → ∃ pol st', E.policy = some pol ∧ pol ≠ .false ∧ cryptoDecrypt E pol p st = (true, none, st')
  skips : ∀ st, I st → st.status = .full → V.skips

def Sub (a b : St) : Prop := ∀ e ∈ a.log, e ∈ b.log

theorem Sub.put (a : St) (e : Eff) : Sub a (a.put e) := fun _ h => List.mem_append.mpr (.inl h)
theorem Sub.trans {a b c : St} (h : Sub a b) (h' : Sub b c) : Sub a c := fun e he => h' e (h e he)
theorem Sub.same {a b : St} (h : b.log = a.log) : Sub a b := fun _ he => h ▸ he
theorem put_mem (a : St) (e : Eff) : e ∈ (a.put e).log := by simp [St.put]

def Got (E : Env) (V : View) (p : Part) (st : St) : Prop := ∀ q f e, Shown E V p q → As q f → (V.skips → ¬ ∃ a b, Legacy q a b) → Emits E V q f e →
  (V.skips → e ≠ .prop (bs "index.repaired") (bs "skip-protected-headers-legacy-display")) → e ∈ st.log

theorem Got.sub {E : Env} {V : View} {p : Part} {a b : St} (h : Got E V p a) (hs : Sub a b) : Got E V p b :=
  fun q f e h1 h2 h3 h4 h5 => hs e (h q f e h1 h2 h3 h4 h5)

theorem type_sub (p : Part) (st : St) : Sub st (indexContentType p st) := by
  rcases indexContentType_cases p st with e | ⟨a, b, _, e⟩
  · rw [e]; exact fun _ h => h
  · rw [e]; exact Sub.put _ _

theorem type_mem {p : Part} (st : St) {a b : Str} (h : p.info.type = some (a, b)) : .mimetype (a ++ bs "/" ++ b) ∈ (indexContentType p st).log := by
  unfold indexContentType
  rw [h]
  exact put_mem _ _

theorem tryKeys_sub (E : Env) (p : Part) : ∀ (ks : List Str) (st : St), Sub st (tryKeys E p ks st).2
  | [], _ => fun _ h => h
  | k :: ks, st => by
    unfold tryKeys
    simp only
    cases E.decrypt p (some k) with
    | some x => exact Sub.put _ _
    | none => exact (Sub.put _ _).trans (tryKeys_sub E p ks _)

theorem cryptoDecrypt_sub (E : Env) (pol : Policy) (p : Part) (st : St) : Sub st (cryptoDecrypt E pol p st).2.2 := by
  have := tryKeys_sub E p st.keys st
  unfold cryptoDecrypt
  split
  · exact fun _ h => h
  · split
    · rename_i e; rw [e] at this; exact this
    · rename_i e
      rw [e] at this
      split
      · exact this
      · exact this.trans (Sub.put _ _)

theorem successful_log (st : St) : (successfulDecryption st).log = st.log := by
  unfold successfulDecryption
  split
  · rfl
  · split <;> rfl

theorem remember_sub (pol : Policy) (key : Option Str) (st : St) : Sub st (remember pol key st) := by
  unfold remember
  split
  · cases key with
    | none => exact Sub.same (successful_log st)
    | some k => exact (Sub.same (successful_log st)).trans (Sub.put (successfulDecryption st) (.prop (bs "session-key") k))
  · exact fun _ h => h

theorem payload_sub (p : Part) (st : St) : Sub st (payload p st).2 := by
  rcases payload_eq p st with e | ⟨_, q, _, e⟩
  · rw [e]; exact Sub.same (potentialPayload_log p st)
  · rw [e]; exact (Sub.same (potentialPayload_log p st)).trans (Sub.put _ _)

section Lower
variable {E : Env} {V : View} {I : St → Prop} (hI : Inv' E V I)
include hI

theorem inv_type' (p : Part) {st : St} (h : I st) : I (indexContentType p st) := by
  rcases indexContentType_cases p st with e | ⟨a, b, _, e⟩
  · rw [e]; exact h
  · rw [e]; exact hI.put _ _ h

theorem payload_inv' (p : Part) {st : St} (h : I st) : I (payload p st).2 := by
  have h1 := hI.payload p st h
  rcases payload_eq p st with e | ⟨_, q, _, e⟩
  · rw [e]; exact h1
  · rw [e]; exact hI.put _ _ h1

theorem remember_inv {pol : Policy} (hpol : E.policy = some pol) (key : Option Str) {st : St} (h : I st) : I (remember pol key st) := by
  unfold remember
  split
  · rename_i ht
    subst ht
    have := hI.decrypted hpol _ h
    cases key with
    | none => exact this
    | some k => exact hI.stash hpol _ _ this
  · exact h

theorem cryptoDecrypt_inv (pol : Policy) (p : Part) {st : St} (h : I st) : I (cryptoDecrypt E pol p st).2.2 := by
  have hk := (tryKeys_log (E := E) (V := V) (I := I) p st.keys st).2 h hI.put
  unfold cryptoDecrypt
  split
  · exact h
  · split
    · rename_i e; rw [e] at hk; exact hk
    · rename_i e
      rw [e] at hk
      split
      · exact hk
      · exact hI.put _ _ hk

theorem rec_got {rec : Option Part → St → Option St} (hrec : ∀ q st st', I st → rec (some q) st = some st' → Sub st st' ∧ Got E V q st' ∧ I st')
    (c : Part) {st st' : St} (h : I st) (hr : rec (some (payload c st).1) (payload c st).2 = some st') : Sub st st' ∧ Got E V c st' ∧ I st' := by
  obtain ⟨h1, h2, h3⟩ := hrec _ _ _ (payload_inv' hI c h) hr
  refine ⟨(payload_sub c st).trans h1, ?_, h3⟩
  rcases payload_eq c st with e | ⟨hs, b, hb, e⟩
  · rw [e] at h2; exact h2
  · rw [e] at h2
    have hsk := hI.skips _ (hI.payload c st h) hs
    obtain ⟨a, hl⟩ := legacy_iff.mp hb
    intro q f e' hq ha hnl hem hne
    cases hq with
    | refl => exact absurd ⟨a, b, hl⟩ (hnl hsk)
    | step ha' hw hnd hrest =>
      rename_i f' q'
      have hf : f' = c := by
        have h1 := as_unique ha'
        have h2 := as_unique (legacy_as hl)
        rw [← h1, h2]
      subst hf
      have hq' : q' = b := by
        obtain ⟨i, he, h5⟩ := hl
        cases hw with
        | child hf hm =>
          rw [he] at hf
          cases hf
          simp only [List.mem_cons, List.not_mem_nil, or_false] at hm
          rcases hm with rfl | rfl
          · exact absurd ⟨b, i, he, h5⟩ (hnd hsk)
          · rfl
        | signed hf => rw [he] at hf; cases hf
        | message hf => rw [he] at hf; cases hf
        | verified hf => rw [he] at hf; cases hf
        | clear hf =>
          rcases hf with ⟨_, _, hf, _⟩ | ⟨_, _, hf⟩
          · rw [he] at hf; cases hf
          · rw [he] at hf; cases hf
      subst hq'
      exact h2 q f e' hrest ha hnl hem hne

/-- What is known after an encrypted part. -/
def Opened (E : Env) (V : View) (f : Part) (st : St) : Prop := (∀ q, V.clear f q → Got E V q st ∧ .prop (bs "index.decryption") (bs "success") ∈ st.log) ∧
  (V.fails f → .prop (bs "index.decryption") (bs "failure") ∈ st.log)

theorem indexEncrypted_got {rec : Option Part → St → Option St}
    (hrec : ∀ q st st', I st → rec (some q) st = some st' → Sub st st' ∧ Got E V q st' ∧ I st')
    (f : Part) {st st' : St} (h : I st) (hr : indexEncrypted E rec f st = some st') : Sub st st' ∧ Opened E V f st' ∧ I st' := by
  have hno : (∀ pol, E.policy = some pol → pol = .false) → Opened E V f st' := by
    intro hp
    refine ⟨fun q hq => ?_, fun hf => ?_⟩
    · obtain ⟨pol, _, _, hpol, hne, _⟩ := hI.opens f q st h hq
      exact absurd (hp pol hpol) hne
    · obtain ⟨pol, _, hpol, hne, _⟩ := hI.fails f st h hf
      exact absurd (hp pol hpol) hne
  unfold indexEncrypted at hr
  split at hr
  · rename_i hpol
    cases hr
    exact ⟨fun _ h => h, hno (fun pol hp => by rw [hpol] at hp; cases hp), h⟩
  · rename_i pol hpol
    have hopen : ∀ q, V.clear f q → ∃ key st', cryptoDecrypt E pol f st = (true, some (q, key), st') := by
      intro q hq
      obtain ⟨pol', key, s, hp, _, e⟩ := hI.opens f q st h hq
      rw [hpol] at hp; cases hp
      exact ⟨key, s, e⟩
    have hfail : V.fails f → ∃ st', cryptoDecrypt E pol f st = (true, none, st') := by
      intro hq
      obtain ⟨pol', s, hp, _, e⟩ := hI.fails f st h hq
      rw [hpol] at hp; cases hp
      exact ⟨s, e⟩
    split at hr
    · rename_i hf
      cases hr
      exact ⟨fun _ h => h, hno (fun p hp => by rw [hpol] at hp; cases hp; exact hf), h⟩
    · have hs := cryptoDecrypt_sub E pol f st
      have hi := cryptoDecrypt_inv hI pol f h
      split at hr
      · rename_i e; rw [e] at hs hi hopen hfail; cases hr
        refine ⟨hs, ⟨fun q hq => ?_, fun hq => ?_⟩, hi⟩
        · obtain ⟨_, _, e'⟩ := hopen q hq; cases e'
        · obtain ⟨_, e'⟩ := hfail hq; cases e'
      · rename_i e; rw [e] at hs hi hopen; cases hr
        refine ⟨hs.trans (Sub.put _ _), ⟨fun q hq => ?_, fun hq => put_mem _ _⟩, hI.put _ _ hi⟩
        obtain ⟨_, _, e'⟩ := hopen q hq; cases e'
      · rename_i clear key st1 e
        rw [e] at hs hi hopen hfail
        simp only at hr
        cases hrr : rec (some (payload clear (remember pol key st1)).1) (payload clear (remember pol key st1)).2 with
        | none => rw [hrr] at hr; cases hr
        | some st4 =>
          rw [hrr] at hr
          cases hr
          obtain ⟨h4, h5, h6⟩ := rec_got hI hrec clear (remember_inv hI hpol key hi) hrr
          refine ⟨((hs.trans (remember_sub _ _ _)).trans h4).trans (Sub.put _ _), ⟨fun q hq => ?_, fun hq => ?_⟩, hI.put _ _ h6⟩
          · obtain ⟨_, _, e'⟩ := hopen q hq
            cases e'
            exact ⟨h5.sub (Sub.put _ _), put_mem _ _⟩
          · obtain ⟨_, e'⟩ := hfail hq; cases e'

theorem indexChildren_got {rec : Option Part → St → Option St}
    (hrec : ∀ q st st', I st → rec (some q) st = some st' → Sub st st' ∧ Got E V q st' ∧ I st') (k : Multi) (f : Part) :
    ∀ (l : List Part) (n : Nat) (st st' : St), I st → indexChildren E rec k f n l st = some st' →
      Sub st st' ∧ I st' ∧ ∀ m c, l[m]? = some c →
        (k = .signed ∧ n + m = 1 ∨ k = .encrypted → ∀ a b, c.info.type = some (a, b) → .mimetype (a ++ bs "/" ++ b) ∈ st'.log) ∧
        (k = .encrypted → n + m = 1 → Opened E V f st') ∧
        (k = .other ∨ k = .signed ∧ n + m ≠ 1 → Got E V c st')
  | [], n, st, st', h, hr => by cases hr; exact ⟨fun _ h => h, h, by simp⟩
  | c :: l, n, st, st', h, hr => by
    have ih := fun st st' => indexChildren_got hrec k f l (n + 1) st st'
    have lift : ∀ st1, Sub st1 st' → (∀ m c', l[m]? = some c' →
        (k = .signed ∧ n + 1 + m = 1 ∨ k = .encrypted → ∀ a b, c'.info.type = some (a, b) → .mimetype (a ++ bs "/" ++ b) ∈ st'.log) ∧
        (k = .encrypted → n + 1 + m = 1 → Opened E V f st') ∧
        (k = .other ∨ k = .signed ∧ n + 1 + m ≠ 1 → Got E V c' st')) →
        ((k = .signed ∧ n = 1 ∨ k = .encrypted → ∀ a b, c.info.type = some (a, b) → .mimetype (a ++ bs "/" ++ b) ∈ st1.log) ∧
        (k = .encrypted → n = 1 → Opened E V f st1) ∧
        (k = .other ∨ k = .signed ∧ n ≠ 1 → Got E V c st1)) →
        ∀ m c', (c :: l)[m]? = some c' →
        (k = .signed ∧ n + m = 1 ∨ k = .encrypted → ∀ a b, c'.info.type = some (a, b) → .mimetype (a ++ bs "/" ++ b) ∈ st'.log) ∧
        (k = .encrypted → n + m = 1 → Opened E V f st') ∧
        (k = .other ∨ k = .signed ∧ n + m ≠ 1 → Got E V c' st') := by
      intro st1 hs hl hc m c' hm
      cases m with
      | zero =>
        simp only [List.getElem?_cons_zero, Option.some.injEq] at hm
        subst hm
        refine ⟨fun h1 a b h2 => hs _ (hc.1 h1 a b h2), fun h1 h2 => ?_, fun h1 => (hc.2.2 h1).sub hs⟩
        have := hc.2.1 h1 h2
        exact ⟨fun q hq => ⟨(this.1 q hq).1.sub hs, hs _ (this.1 q hq).2⟩, fun hf => hs _ (this.2 hf)⟩
      | succ m =>
        have := hl m c' (by simpa using hm)
        rw [show n + (m + 1) = n + 1 + m by omega]
        exact this
    unfold indexChildren at hr
    split at hr
    · rename_i hs
      obtain ⟨hk, hn⟩ := hs
      obtain ⟨h1, h2, h3⟩ := ih _ _ (inv_type' hI c h) hr
      refine ⟨(type_sub c st).trans h1, h2, lift _ h1 h3 ⟨fun _ a b ht => type_mem st ht, fun he => ?_, fun ho => ?_⟩⟩
      · rw [hk] at he; cases he
      · rcases ho with ho | ho
        · rw [hk] at ho; cases ho
        · exact absurd hn ho.2
    · rename_i hns
      split at hr
      · rename_i he
        have hno : ∀ {st1}, k = .other ∨ k = .signed ∧ n ≠ 1 → Got E V c st1 := by
          intro st1 ho
          rw [he] at ho
          rcases ho with ho | ho
          · cases ho
          · cases ho.1
        split at hr
        · rename_i hn
          cases hx : indexEncrypted E rec f (indexContentType c st) with
          | none => rw [hx] at hr; cases hr
          | some st1 =>
            rw [hx] at hr
            obtain ⟨h1, h2, h3⟩ := indexEncrypted_got hI hrec f (inv_type' hI c h) hx
            obtain ⟨h4, h5, h6⟩ := ih _ _ h3 hr
            exact ⟨((type_sub c st).trans h1).trans h4, h5, lift _ h4 h6 ⟨fun _ a b ht => h1 _ (type_mem st ht), fun _ _ => h2, hno⟩⟩
        · rename_i hn
          obtain ⟨h1, h2, h3⟩ := ih _ _ (inv_type' hI c h) hr
          exact ⟨(type_sub c st).trans h1, h2, lift _ h1 h3 ⟨fun _ a b ht => type_mem st ht, fun _ hn' => absurd hn' hn, hno⟩⟩
      · rename_i hne
        simp only at hr
        cases hx : rec (some (payload c st).1) (payload c st).2 with
        | none => rw [hx] at hr; cases hr
        | some st1 =>
          rw [hx] at hr
          obtain ⟨h1, h2, h3⟩ := rec_got hI hrec c h hx
          obtain ⟨h4, h5, h6⟩ := ih _ _ h3 hr
          refine ⟨h1.trans h4, h5, lift _ h4 h6 ⟨fun ho => ?_, fun he => absurd he hne, fun _ => h2⟩⟩
          rcases ho with ho | ho
          · exact absurd ho hns
          · exact absurd ho hne

omit hI in
/-- From what is known of the children to the part. -/
theorem got_of {p f : Part} (ha : As p f) {st : St} (hself : ∀ e, Emits E V p f e → (V.skips → e ≠ .prop (bs "index.repaired") (bs "skip-protected-headers-legacy-display")) →
    (V.skips → ¬ ∃ a b, Legacy p a b) → e ∈ st.log) (hin : ∀ q, Within E V f q → Got E V q st) : Got E V p st := by
  intro q f' e hq haq hnl hem hne
  cases hq with
  | refl =>
    have : f' = f := by rw [← as_unique haq, as_unique ha]
    subst this
    exact hself e hem hne hnl
  | step ha' hw hnd hrest =>
    rename_i f'' q'
    have : f'' = f := by rw [← as_unique ha', as_unique ha]
    subst this
    exact hin _ hw q f' e hrest haq hnl hem hne

theorem indexRepaired_got {rec : Option Part → St → Option St}
    (hrec : ∀ q st st', I st → rec q st = some st' → (∀ q', q = some q' → Got E V q' st') ∧ Sub st st' ∧ I st')
    {p f : Part} (ha : As p f) {st st' : St} (h : I st) (hmix : (∃ b c, MixedUp p b c) → .prop (bs "index.repaired") (bs "mixedup") ∈ st.log)
    (hr : indexRepaired E rec f st = some st') : Sub st st' ∧ Got E V p st' ∧ I st' := by
  have hrec' : ∀ q st st', I st → rec (some q) st = some st' → Sub st st' ∧ Got E V q st' ∧ I st' :=
    fun q st st' h1 h2 => ⟨(hrec _ _ _ h1 h2).2.1, (hrec _ _ _ h1 h2).1 q rfl, (hrec _ _ _ h1 h2).2.2⟩
  unfold indexRepaired at hr
  have hi1 := inv_type' hI f h
  have hs1 := type_sub f st
  have ht1 : ∀ a b, f.info.type = some (a, b) → .mimetype (a ++ bs "/" ++ b) ∈ (indexContentType f st).log := fun a b ht => type_mem st ht
  generalize indexContentType f st = st1 at hi1 hs1 ht1 hr
  simp only at hr
  split at hr
  · rename_i k i l
    have h2 : Sub st1 (if k = .signed then st1.put (.tag (bs "signed")) else st1) ∧ I (if k = .signed then st1.put (.tag (bs "signed")) else st1) ∧
        (k = .signed → .tag (bs "signed") ∈ (if k = .signed then st1.put (.tag (bs "signed")) else st1).log) := by
      split
      · exact ⟨Sub.put _ _, hI.put _ _ hi1, fun _ => put_mem _ _⟩
      · rename_i hk; exact ⟨fun _ h => h, hi1, fun e => absurd e hk⟩
    generalize (if k = .signed then st1.put (.tag (bs "signed")) else st1) = st2 at h2 hr
    have h3 : Sub st2 (if k = .encrypted then st2.put (.tag (bs "encrypted")) else st2) ∧ I (if k = .encrypted then st2.put (.tag (bs "encrypted")) else st2) ∧
        (k = .encrypted → .tag (bs "encrypted") ∈ (if k = .encrypted then st2.put (.tag (bs "encrypted")) else st2).log) := by
      split
      · exact ⟨Sub.put _ _, hI.put _ _ h2.2.1, fun _ => put_mem _ _⟩
      · rename_i hk; exact ⟨fun _ h => h, h2.2.1, fun e => absurd e hk⟩
    generalize (if k = .encrypted then st2.put (.tag (bs "encrypted")) else st2) = st3 at h3 hr
    obtain ⟨h4, h5, h6⟩ := indexChildren_got hI hrec' k (.multipart k i l) l 0 st3 st' h3.2.1 hr
    have hs3 := h2.1.trans h3.1
    have hs : Sub st1 st' := hs3.trans h4
    refine ⟨hs1.trans hs, got_of ha ?_ ?_, h5⟩
    · intro e hem hne _
      cases hem with
      | type ht => exact hs _ (ht1 _ _ ht)
      | signature hf hc ht => cases hf; exact (h6 1 _ hc).1 (.inl ⟨rfl, rfl⟩) _ _ ht
      | ciphertext hf hc ht =>
        cases hf
        obtain ⟨m, hm⟩ := List.mem_iff_getElem?.mp hc
        exact (h6 m _ hm).1 (.inr rfl) _ _ ht
      | signed hf => cases hf; exact (h3.1.trans h4) _ (h2.2.2 rfl)
      | verified hf => cases hf
      | encrypted hf => cases hf; exact h4 _ (h3.2.2 rfl)
      | enveloped hf => cases hf
      | attachment hf => cases hf
      | filename hf => cases hf
      | body hf => cases hf
      | mixedUp hm => exact (hs1.trans hs) _ (hmix ⟨_, _, hm⟩)
      | skipped hsk => exact absurd rfl (hne hsk)
      | success he hc =>
        rcases he with ⟨i', l', hf, hl⟩ | ⟨_, _, hf⟩
        · cases hf
          exact (((h6 1 _ (List.getElem?_eq_getElem hl)).2.1 rfl rfl).1 _ hc).2
        · cases hf
      | failure he hc =>
        rcases he with ⟨i', l', hf, hl⟩ | ⟨_, _, hf⟩
        · cases hf
          exact ((h6 1 _ (List.getElem?_eq_getElem hl)).2.1 rfl rfl).2 hc
        · cases hf
    · intro q hw
      cases hw with
      | child hf hm =>
        cases hf
        obtain ⟨m, hm⟩ := List.mem_iff_getElem?.mp hm
        exact (h6 m _ hm).2.2 (.inl rfl)
      | signed hf hn hm => cases hf; exact (h6 _ _ hm).2.2 (.inr ⟨rfl, by omega⟩)
      | message hf => cases hf
      | verified hf => cases hf
      | clear he hc =>
        rcases he with ⟨i', l', hf, hl⟩ | ⟨_, _, hf⟩
        · cases hf
          exact (((h6 1 _ (List.getElem?_eq_getElem hl)).2.1 rfl rfl).1 _ hc).1
        · cases hf
  · rename_i i s q
    obtain ⟨h1, h2, h3⟩ := hrec _ _ _ hi1 hr
    refine ⟨hs1.trans h2, got_of ha ?_ ?_, h3⟩
    · intro e hem hne _
      cases hem with
      | type ht => exact h2 _ (ht1 _ _ ht)
      | mixedUp hm => exact (hs1.trans h2) _ (hmix ⟨_, _, hm⟩)
      | skipped hsk => exact absurd rfl (hne hsk)
      | success he => rcases he with ⟨_, _, hf, _⟩ | ⟨_, _, hf⟩ <;> cases hf
      | failure he => rcases he with ⟨_, _, hf, _⟩ | ⟨_, _, hf⟩ <;> cases hf
      | signature hf => cases hf
      | ciphertext hf => cases hf
      | signed hf => cases hf
      | verified hf => cases hf
      | encrypted hf => cases hf
      | enveloped hf => cases hf
      | attachment hf => cases hf
      | filename hf => cases hf
      | body hf => cases hf
    · intro q' hw
      cases hw with
      | message hf => cases hf; exact h1 _ rfl
      | child hf => cases hf
      | signed hf => cases hf
      | verified hf => cases hf
      | clear he => rcases he with ⟨_, _, hf, _⟩ | ⟨_, _, hf⟩ <;> cases hf
  · rename_i i t d
    unfold indexPkcs7 at hr
    have hi2 := inv_type' hI (.pkcs7 i t d) hi1
    have hs2 := type_sub (.pkcs7 i t d) st1
    generalize indexContentType (.pkcs7 i t d) st1 = st2 at hi2 hs2 hr
    simp only at hr
    have hself : ∀ st', Sub st2 st' → (t = .signedData → (E.verify (.pkcs7 i t d)).isSome → .tag (bs "signed") ∈ st'.log) →
        (t = .envelopedData → .tag (bs "encrypted") ∈ st'.log ∧ Opened E V (.pkcs7 i t d) st') → ∀ e, Emits E V p (.pkcs7 i t d) e →
        (V.skips → e ≠ .prop (bs "index.repaired") (bs "skip-protected-headers-legacy-display")) → (V.skips → ¬ ∃ a b, Legacy p a b) → e ∈ st'.log := by
      intro st' hs hsig henc e hem hne _
      cases hem with
      | type ht => exact hs _ (hs2 _ (ht1 _ _ ht))
      | mixedUp hm => exact hs _ (hs2 _ (hs1 _ (hmix ⟨_, _, hm⟩)))
      | skipped hsk => exact absurd rfl (hne hsk)
      | success he hc =>
        rcases he with ⟨_, _, hf, _⟩ | ⟨_, _, hf⟩
        · cases hf
        · cases hf; exact (((henc rfl).2).1 _ hc).2
      | failure he hc =>
        rcases he with ⟨_, _, hf, _⟩ | ⟨_, _, hf⟩
        · cases hf
        · cases hf; exact ((henc rfl).2).2 hc
      | signature hf => cases hf
      | ciphertext hf => cases hf
      | signed hf => cases hf
      | verified hf hv => cases hf; exact hsig rfl (by rw [hv]; rfl)
      | encrypted hf => cases hf
      | enveloped hf => cases hf; exact (henc rfl).1
      | attachment hf => cases hf
      | filename hf => cases hf
      | body hf => cases hf
    have hin : ∀ st', (∀ q, t = .signedData → E.verify (.pkcs7 i t d) = some q → Got E V q st') → (t = .envelopedData → Opened E V (.pkcs7 i t d) st') →
        ∀ q, Within E V (.pkcs7 i t d) q → Got E V q st' := by
      intro st' hsig henc q hw
      cases hw with
      | message hf => cases hf
      | child hf => cases hf
      | signed hf => cases hf
      | verified hf hv => cases hf; exact hsig _ rfl hv
      | clear he hc =>
        rcases he with ⟨_, _, hf, _⟩ | ⟨_, _, hf⟩
        · cases hf
        · cases hf; exact ((henc rfl).1 _ hc).1
    split at hr
    · split at hr
      · rename_i hv
        cases hr
        refine ⟨hs1.trans hs2, got_of ha (hself _ (fun _ h => h) (fun _ hv' => by rw [hv] at hv'; cases hv') (fun e => by cases e)) (hin _ (fun q _ hv' => by rw [hv] at hv'; cases hv') (fun e => by cases e)), hi2⟩
      · rename_i m hv
        obtain ⟨h4, h5, h6⟩ := rec_got hI hrec' m (hI.put _ (.tag (bs "signed")) hi2) hr
        refine ⟨((hs1.trans hs2).trans (Sub.put _ _)).trans h4, got_of ha (hself _ ((Sub.put _ _).trans h4) (fun _ _ => h4 _ (put_mem _ _)) (fun e => by cases e))
          (hin _ (fun q _ hv' => by rw [hv] at hv'; cases hv'; exact h5) (fun e => by cases e)), h6⟩
    · obtain ⟨h4, h5, h6⟩ := indexEncrypted_got hI hrec' (.pkcs7 i .envelopedData d) (hI.put _ (.tag (bs "encrypted")) hi2) hr
      refine ⟨((hs1.trans hs2).trans (Sub.put _ _)).trans h4, got_of ha (hself _ ((Sub.put _ _).trans h4) (fun e => by cases e) (fun _ => ⟨h4 _ (put_mem _ _), h5⟩))
          (hin _ (fun q e => by cases e) (fun _ => h5)), h6⟩
    · cases hr
      refine ⟨hs1.trans hs2, got_of ha (hself _ (fun _ h => h) (fun e => by cases e) (fun e => by cases e)) (hin _ (fun q e => by cases e) (fun e => by cases e)), hi2⟩
  · rename_i i t att fn c
    cases hr
    unfold indexLeaf
    have h2 : Sub st1 (if att = true then attachmentTerms fn st1 else st1) ∧ I (if att = true then attachmentTerms fn st1 else st1) ∧
        (att = true → .tag (bs "attachment") ∈ (if att = true then attachmentTerms fn st1 else st1).log ∧
          ∀ n, fn = some n → .attachment n ∈ (if att = true then attachmentTerms fn st1 else st1).log) := by
      split
      · cases fn with
        | none => exact ⟨Sub.put _ _, hI.put _ _ hi1, fun _ => ⟨put_mem _ _, fun n e => by cases e⟩⟩
        | some f =>
          exact ⟨(Sub.put _ _).trans (Sub.put _ _), hI.put _ _ (hI.put _ _ hi1), fun _ => ⟨Sub.put _ _ _ (put_mem _ _), fun n e => by cases e; exact put_mem _ _⟩⟩
      · rename_i hn; exact ⟨fun _ h => h, hi1, fun e => absurd e hn⟩
    generalize (if att = true then attachmentTerms fn st1 else st1) = st2 at h2
    obtain ⟨h2, hi2, hatt⟩ := h2
    simp only
    have hself : ∀ st', Sub st2 st' → ((att = true → ∃ a b, i.type = some (a, b) ∧ E.asText (a ++ bs "/" ++ b) = true) → .body (bodyText E i c) ∈ st'.log) →
        ∀ e, Emits E V p (.leaf i t att fn c) e →
        (V.skips → e ≠ .prop (bs "index.repaired") (bs "skip-protected-headers-legacy-display")) → (V.skips → ¬ ∃ a b, Legacy p a b) → e ∈ st'.log := by
      intro st' hs hbody e hem hne _
      cases hem with
      | type ht => exact hs _ (h2 _ (ht1 _ _ ht))
      | mixedUp hm => exact hs _ (h2 _ (hs1 _ (hmix ⟨_, _, hm⟩)))
      | skipped hsk => exact absurd rfl (hne hsk)
      | success he hc => rcases he with ⟨_, _, hf, _⟩ | ⟨_, _, hf⟩ <;> cases hf
      | failure he hc => rcases he with ⟨_, _, hf, _⟩ | ⟨_, _, hf⟩ <;> cases hf
      | signature hf => cases hf
      | ciphertext hf => cases hf
      | signed hf => cases hf
      | verified hf hv => cases hf
      | encrypted hf => cases hf
      | enveloped hf => cases hf
      | attachment hf => cases hf; exact hs _ (hatt rfl).1
      | filename hf => cases hf; exact hs _ ((hatt rfl).2 _ rfl)
      | body hf hx => cases hf; exact hbody hx
    have hin : ∀ st' q, Within E V (.leaf i t att fn c) q → Got E V q st' := by
      intro st' q hw
      cases hw with
      | message hf => cases hf
      | child hf => cases hf
      | signed hf => cases hf
      | verified hf hv => cases hf
      | clear he hc => rcases he with ⟨_, _, hf, _⟩ | ⟨_, _, hf⟩ <;> cases hf
    split
    · rename_i hx
      simp only [Bool.and_eq_true, Bool.not_eq_true'] at hx
      refine ⟨hs1.trans h2, got_of ha (hself _ (fun _ h => h) ?_) (hin _), hi2⟩
      intro hb
      obtain ⟨a, b, ht, has⟩ := hb hx.1
      have := hx.2
      simp [indexableAsText, Part.info, ht] at this
      simp at has
      rw [has] at this
      cases this
    · refine ⟨(hs1.trans h2).trans (Sub.put _ _), got_of ha (hself _ (Sub.put _ _) (fun _ => put_mem _ _)) (hin _), hI.put _ _ hi2⟩
  · rename_i i
    cases hr
    refine ⟨hs1, got_of ha ?_ ?_, hi1⟩
    · intro e hem hne _
      cases hem with
      | type ht => exact ht1 _ _ ht
      | mixedUp hm => exact hs1 _ (hmix ⟨_, _, hm⟩)
      | skipped hsk => exact absurd rfl (hne hsk)
      | success he hc => rcases he with ⟨_, _, hf, _⟩ | ⟨_, _, hf⟩ <;> cases hf
      | failure he hc => rcases he with ⟨_, _, hf, _⟩ | ⟨_, _, hf⟩ <;> cases hf
      | signature hf => cases hf
      | ciphertext hf => cases hf
      | signed hf => cases hf
      | verified hf hv => cases hf
      | encrypted hf => cases hf
      | enveloped hf => cases hf
      | attachment hf => cases hf
      | filename hf => cases hf
      | body hf hx => cases hf
    · intro q hw
      cases hw with
      | message hf => cases hf
      | child hf => cases hf
      | signed hf => cases hf
      | verified hf hv => cases hf
      | clear he hc => rcases he with ⟨_, _, hf, _⟩ | ⟨_, _, hf⟩ <;> cases hf

theorem indexPart_got : ∀ (fuel : Nat) (q : Option Part) (st st' : St), I st → indexPart E fuel q st = some st' →
    (∀ p, q = some p → Got E V p st') ∧ Sub st st' ∧ I st'
  | 0, _, _, _, _, hr => by cases hr
  | fuel + 1, none, st, st', h, hr => by cases hr; exact ⟨fun _ e => (by cases e), fun _ h => h, h⟩
  | fuel + 1, some p, st, st', h, hr => by
    have ih := indexPart_got fuel
    rw [indexPart] at hr
    cases hm : repairMixedUp p with
    | none =>
      rw [hm] at hr
      obtain ⟨h1, h2, h3⟩ := indexRepaired_got hI ih (repair_none hm) h (fun ⟨b, c, hx⟩ => by rw [mixedUp_repair hx] at hm; cases hm) hr
      exact ⟨fun p' e => by cases e; exact h2, h1, h3⟩
    | some q =>
      rw [hm] at hr
      obtain ⟨h1, h2, h3⟩ := indexRepaired_got hI ih (repair_some hm) (hI.put _ _ h) (fun _ => put_mem _ _) hr
      exact ⟨fun p' e => by cases e; exact h2, (Sub.put _ _).trans h1, h3⟩

end Lower

end Notmuch.Mime
