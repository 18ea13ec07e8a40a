import Verif.Proofs.MimeKeys

/-!
# C43: which parts of a message are indexed, and which keys are used

`indexFile` indexes the parts of a message whose session keys are `keys`; the result has all that was written to the document and asked of the
agent that holds the secret keys.
-/

namespace Notmuch.Props

open Notmuch.Mime

private theorem runs {E : Env} {fuel : Nat} {keys : List Str} {p : Option Part} {st : St} (h : indexFile E fuel keys p = some st) :
    ∃ st', indexPart E fuel p ⟨[], keys, false, .none, none⟩ = some st' ∧ st.keys = st'.keys ∧ st.subject = st'.subject ∧
      ∀ e, e ∈ st.log ↔ e ∈ st'.log ∨ ∃ s, st'.subject = some s ∧ e = .subject s := by
  unfold indexFile at h
  cases hr : indexPart E fuel p ⟨[], keys, false, .none, none⟩ with
  | none => rw [hr] at h; cases h
  | some st' =>
    rw [hr] at h
    refine ⟨st', rfl, ?_⟩
    rw [Option.map_some] at h
    cases hs : st'.subject with
    | none =>
      rw [hs] at h
      cases h
      exact ⟨rfl, hs, fun e => ⟨.inl, fun h => h.elim id (fun ⟨_, h, _⟩ => by cases h)⟩⟩
    | some s =>
      rw [hs] at h
      cases h
      refine ⟨rfl, hs, fun e => ?_⟩
      show e ∈ st'.log ++ [Eff.subject s] ↔ _
      rw [List.mem_append, List.mem_singleton]
      exact or_congr Iff.rfl ⟨fun h => ⟨s, rfl, h⟩, fun ⟨_, h, h'⟩ => by cases h; exact h'⟩

private theorem fresh_start (keys : List Str) : Fresh ⟨[], keys, false, .none, none⟩ := ⟨rfl, rfl, rfl⟩

private theorem emits_not_subject {E : Env} {V : View} {p f : Part} {s : Str} : ¬ Emits E V p f (.subject s) := fun h => by cases h

private theorem no_subject {E : Env} (hp : E.policy ≠ some .true) {fuel : Nat} {p : Option Part} {keys : List Str} {st : St}
    (hr : indexPart E fuel p ⟨[], keys, false, .none, none⟩ = some st) : st.subject = none := by
  obtain ⟨h1, h2⟩ := subject_part E fuel p _ _ (fresh_start keys) hr
  cases p with
  | none => exact (h1 rfl).2.2
  | some p =>
    rcases h2 p rfl with h | ⟨_, h | ⟨h, _⟩⟩
    · exact h.2.2
    · exact h
    · exact absurd h hp

/-! ## What is indexed -/

/-- Without index options, and with the policies `false`, `auto` and `nostash`, exactly the parts in view are indexed: all parts, the cleartext
that the policy lets see, and nothing else. -/
theorem C43_exact (E : Env) (hp : E.policy ≠ some .true) (fuel : Nat) (keys : List Str) (p : Part) (st : St) (h : indexFile E fuel keys (some p) = some st)
    (e : Eff) (he : Doc e) : e ∈ st.log ↔ ∃ q f, Inside E (view E keys) p q ∧ As q f ∧ Emits E (view E keys) q f e := by
  obtain ⟨st', hr, _, _, hl⟩ := runs h
  have hq : Quiet keys ⟨[], keys, false, .none, none⟩ := ⟨rfl, by simp⟩
  rw [hl]
  constructor
  · rintro (h' | ⟨s, hs, _⟩)
    · rcases (indexPart_prov (inv_view E keys hp) fuel _ _ _ hq hr).1 p rfl e h' he with h'' | h''
      · cases h''
      · obtain ⟨q, f, a, b, c⟩ := h''; exact ⟨q, f, a, b, c⟩
    · rw [no_subject hp hr] at hs; cases hs
  · rintro ⟨q, f, hi, ha, hem⟩
    exact .inl ((indexPart_got (inv_view' E keys hp) fuel _ _ _ hq hr).1 p rfl q f e (inside_shown (fun h => h) hi) ha (fun h => h.elim) hem (fun h => h.elim))

/-- With the policy `true`, what is indexed comes from a part, or from cleartext that some key opens, or it is the protected subject. -/
theorem C43_true_only (E : Env) (hp : E.policy = some .true) (fuel : Nat) (keys : List Str) (p : Part) (st : St) (h : indexFile E fuel keys (some p) = some st)
    (e : Eff) (he : Doc e) (hs : ∀ s, e ≠ .subject s) (hm : e ∈ st.log) : ∃ q f, Inside E (anyView E) p q ∧ As q f ∧ Emits E (anyView E) q f e := by
  obtain ⟨st', hr, _, _, hl⟩ := runs h
  rcases (hl e).mp hm with h' | ⟨s, _, h'⟩
  · rcases (indexPart_prov (inv_any E hp) fuel _ _ _ trivial hr).1 p rfl e h' he with h'' | h''
    · cases h''
    · obtain ⟨q, f, a, b, c⟩ := h''; exact ⟨q, f, a, b, c⟩
  · exact absurd h' (hs s)

/-- And all parts are indexed, with all the cleartext that the secret keys open, but for parts that only display protected headers.  The
multipart that has such a display may be left out too, for its other part is indexed in its place. -/
theorem C43_true_all (E : Env) (hp : E.policy = some .true) (h1 : OneClear E) (fuel : Nat) (keys : List Str) (p : Part) (st : St)
    (h : indexFile E fuel keys (some p) = some st) (q f : Part) (hq : Shown E (secretView E) p q) (ha : As q f) (hd : ¬ ∃ a b, Legacy q a b) (e : Eff)
    (hem : Emits E (secretView E) q f e) : e ∈ st.log := by
  obtain ⟨st', hr, _, _, hl⟩ := runs h
  refine (hl e).mpr (.inl ?_)
  refine (indexPart_got (inv_secret E hp h1) fuel _ _ _ trivial hr).1 p rfl q f e hq ha (fun _ => hd) hem ?_
  rintro _ rfl
  have hne : ¬ (bs "index.repaired" = bs "index.repaired" ∧ bs "skip-protected-headers-legacy-display" = bs "mixedup") := fun h => absurd h.2 (by decide +kernel)
  generalize hx : Eff.prop (bs "index.repaired") (bs "skip-protected-headers-legacy-display") = e at hem
  cases hem with
  | skipped _ h => exact hd ⟨_, _, h⟩
  | mixedUp _ => exact absurd (Eff.prop.inj hx).2 (by decide +kernel)
  | success => exact absurd (Eff.prop.inj hx).1 (by decide +kernel)
  | failure => exact absurd (Eff.prop.inj hx).1 (by decide +kernel)
  | _ => cases hx

/-- A message without parts has nothing to index. -/
theorem C43_none (E : Env) (fuel : Nat) (keys : List Str) : indexFile E (fuel + 1) keys none = some ⟨[], keys, false, .none, none⟩ := rfl

/-- Indexing ends when parts and cleartexts are not nested without end. -/
theorem C43_ends (E : Env) (rank : Part → Nat) (hr : ∀ p f q, As p f → Within E (anyView E) f q → rank q < rank p) (keys : List Str) (p : Part) (fuel : Nat)
    (hf : rank p + 2 ≤ fuel) : ∃ st, indexFile E fuel keys (some p) = some st := by
  have h := total_part (E := E) hr fuel p ⟨[], keys, false, .none, none⟩ hf
  unfold indexFile
  cases hx : indexPart E fuel (some p) ⟨[], keys, false, .none, none⟩ with
  | none => exact absurd hx h
  | some st => exact ⟨_, rfl⟩

/-! ## Which keys are used -/

/-- The agent is asked for the secret keys only with the policies `nostash` and `true`, and only when no session key that the message had
opens the part. -/
theorem C43_secret (E : Env) (fuel : Nat) (keys : List Str) (p : Option Part) (st : St) (h : indexFile E fuel keys p = some st) (q : Part)
    (hq : .askSecret q ∈ st.log) : (E.policy = some .nostash ∨ E.policy = some .true) ∧ ∀ k ∈ keys, E.decrypt q (some k) = none := by
  obtain ⟨st', hr, _, _, hl⟩ := runs h
  rcases (hl _).mp hq with h' | ⟨_, _, h'⟩
  · exact (keep_part (keep_secrets E keys) fuel _ _ _ (secrets_start E keys) hr).secret q h'
  · cases h'

/-- No decryption at all is tried without options or with the policy `false`; a session key that is tried is one of the message. -/
theorem C43_session (E : Env) (fuel : Nat) (keys : List Str) (p : Option Part) (st : St) (h : indexFile E fuel keys p = some st) (q : Part) (k : Str)
    (hq : .askKey q k ∈ st.log) : k ∈ st.keys ∧ E.policy ≠ none ∧ E.policy ≠ some .false := by
  obtain ⟨st', hr, hk, _, hl⟩ := runs h
  rcases (hl _).mp hq with h' | ⟨_, _, h'⟩
  · obtain ⟨a, pol, b, c⟩ := (keep_part (keep_secrets E keys) fuel _ _ _ (secrets_start E keys) hr).key q k h'
    exact ⟨hk ▸ a, by rw [b]; simp, by rw [b]; intro e; exact c (Option.some.inj e)⟩
  · cases h'

/-- Session keys are stashed only with the policy `true`, and only keys that the secret keys gave for a part. -/
theorem C43_stash_only (E : Env) (fuel : Nat) (keys : List Str) (p : Option Part) (st : St) (h : indexFile E fuel keys p = some st) (k : Str)
    (hk : k ∈ st.keys) (hn : k ∉ keys) : E.policy = some .true ∧ .prop (bs "session-key") k ∈ st.log ∧
      ∃ q c, .askSecret q ∈ st.log ∧ E.decrypt q none = some (c, some k) := by
  obtain ⟨st', hr, hk', _, hl⟩ := runs h
  have hs := keep_part (keep_secrets E keys) fuel _ _ _ (secrets_start E keys) hr
  rw [hk'] at hk
  rcases hs.new k hk with h' | h'
  · exact absurd h' hn
  · obtain ⟨_, a, q, c, b, d⟩ := hs.prop k h'
    exact ⟨a, (hl _).mpr (.inl h'), q, c, (hl _).mpr (.inl b), d⟩

/-- No session key is lost, and the property is written exactly for the keys that are stashed. -/
theorem C43_stash_kept (E : Env) (fuel : Nat) (keys : List Str) (p : Option Part) (st : St) (h : indexFile E fuel keys p = some st) (k : Str) :
    k ∈ st.keys ↔ k ∈ keys ∨ .prop (bs "session-key") k ∈ st.log := by
  obtain ⟨st', hr, hk', _, hl⟩ := runs h
  have hs := keep_part (keep_secrets E keys) fuel _ _ _ (secrets_start E keys) hr
  rw [hk', hl]
  constructor
  · exact fun h => (hs.new k h).imp id .inl
  · rintro (h | h | ⟨_, _, h⟩)
    · exact hs.kept k h
    · exact (hs.prop k h).1
    · cases h

/-- With the policy `true`, every session key that the secret keys give is stashed, so that `auto` opens the part later, if that key opens it. -/
theorem C43_stash_all (E : Env) (hp : E.policy = some .true) (fuel : Nat) (keys : List Str) (p : Option Part) (st : St) (h : indexFile E fuel keys p = some st)
    (q c : Part) (k : Str) (hq : .askSecret q ∈ st.log) (hd : E.decrypt q none = some (c, some k)) : k ∈ st.keys ∧
      (∀ sk, E.decrypt q (some k) = some (c, sk) → OneClear E → (view { E with policy := some .auto } st.keys).clear q c) := by
  obtain ⟨st', hr, hk', _, hl⟩ := runs h
  have hs := keep_part (keep_secrets E keys) fuel _ _ _ (secrets_start E keys) hr
  have hk : k ∈ st.keys := by
    rcases (hl _).mp hq with h' | ⟨_, _, h'⟩
    · rw [hk']; exact (hs.prop k (hs.stash hp q c k h' hd)).1
    · cases h'
  refine ⟨hk, fun sk hsk h1 => .inl ⟨rfl, ?_⟩⟩
  rcases unlocks_or_locked E st.keys q with ⟨c', hu⟩ | hl'
  · obtain ⟨l, k', r, sk', _, _, e⟩ := id hu
    have := h1 q _ _ _ _ _ _ e hsk
    subst this
    exact hu
  · rw [hl' k hk] at hsk; cases hsk

/-- Without options and with the policy `false`, the result does not depend on any cleartext. -/
theorem C43_blind (E : Env) (hp : E.policy = none ∨ E.policy = some .false) (decrypt : Part → Option Str → Option (Part × Option Str)) (fuel : Nat)
    (keys : List Str) (p : Option Part) : indexFile { E with decrypt := decrypt } fuel keys p = indexFile E fuel keys p := by
  unfold indexFile
  rw [same_part (E := E) (E' := { E with decrypt := decrypt }) (J := fun _ => True) ⟨rfl, rfl, rfl, rfl⟩
    ⟨fun _ _ _ _ => trivial, fun _ _ _ => trivial, fun _ _ _ _ _ _ => ⟨fun _ => trivial, fun _ _ _ => trivial⟩⟩
    (fun pol p st h hf _ => by rcases hp with hp | hp <;> rw [hp] at h <;> cases h; exact absurd rfl hf) fuel p _ trivial]

private theorem tryKeys_congr {E E' : Env} (p : Part) : ∀ (ks : List Str) (st : St), (∀ k ∈ ks, E'.decrypt p (some k) = E.decrypt p (some k)) →
    tryKeys E' p ks st = tryKeys E p ks st
  | [], _, _ => rfl
  | k :: ks, st, h => by
    rw [tryKeys, tryKeys, h k List.mem_cons_self, tryKeys_congr p ks _ (fun k' hk => h k' (List.mem_cons_of_mem _ hk))]

/-- With the policy `auto`, it depends only on what the session keys of the message open: not on the secret keys. -/
theorem C43_auto_blind (E : Env) (hp : E.policy = some .auto) (decrypt : Part → Option Str → Option (Part × Option Str)) (fuel : Nat)
    (keys : List Str) (hd : ∀ q, ∀ k ∈ keys, decrypt q (some k) = E.decrypt q (some k)) (p : Option Part) :
    indexFile { E with decrypt := decrypt } fuel keys p = indexFile E fuel keys p := by
  unfold indexFile
  have hJ : Keep E (fun st => st.keys = keys) :=
    { put := fun _ _ _ h => h
      payload := fun p st h => (potential_keep p st).1.trans h
      decrypt := fun pol p st hpol _ h => by
        have hk := (crypto_keys E pol p st).1.trans h
        refine ⟨fun _ => hk, fun q key _ => ?_⟩
        have : pol = .auto := Option.some.inj (hpol.symm.trans hp)
        subst this
        exact hk }
  rw [same_part (E := E) (E' := { E with decrypt := decrypt }) (J := fun st => st.keys = keys) ⟨rfl, rfl, rfl, rfl⟩ hJ ?_ fuel p _ rfl]
  intro pol q st hpol _ hk
  have : pol = .auto := Option.some.inj (hpol.symm.trans hp)
  subst this
  unfold cryptoDecrypt
  rw [tryKeys_congr (E := E) (E' := { E with decrypt := decrypt }) q st.keys st (fun k hk' => hd q k (hk ▸ hk'))]
  rfl

/-- So when nothing is decrypted, and signed data have their content in the open, indexing always ends. -/
theorem C43_ends_false (E : Env) (hp : E.policy = none ∨ E.policy = some .false) (hv : ∀ q, E.verify q = none) (keys : List Str) (p : Part) :
    ∃ fuel st, indexFile E fuel keys (some p) = some st := by
  have h := C43_ends { E with decrypt := fun _ _ => none } sizeOf (by
    intro p f q ha hw
    have hmem : ∀ (l : List Part) k i, q ∈ l → sizeOf q < sizeOf (Part.multipart k i l) := by
      intro l k i hq
      have := List.sizeOf_lt_of_mem hq
      have h2 : sizeOf (Part.multipart k i l) = 1 + sizeOf k + sizeOf i + sizeOf l := Part.multipart.sizeOf_spec k i l
      omega
    have hfp : f = p ∨ ∃ i l, f = .multipart .encrypted i l := by
      rcases ha with ⟨e, _⟩ | ⟨b, c, _, e⟩
      · exact .inl e
      · exact .inr ⟨_, _, e⟩
    cases hw with
    | child e hq =>
      rcases hfp with rfl | ⟨i, l, e'⟩
      · rw [e]; exact hmem _ _ _ hq
      · rw [e] at e'; cases e'
    | signed e _ hq =>
      rcases hfp with rfl | ⟨i, l, e'⟩
      · rw [e]; exact hmem _ _ _ (List.mem_of_getElem? hq)
      · rw [e] at e'; cases e'
    | message e =>
      rcases hfp with rfl | ⟨i, l, e'⟩
      · rw [e]; simp only [Part.message.sizeOf_spec, Option.some.sizeOf_spec]; omega
      · rw [e] at e'; cases e'
    | verified _ e => rw [show ({ E with decrypt := fun _ _ => none } : Env).verify f = E.verify f from rfl, hv] at e; cases e
    | clear _ hc =>
      obtain ⟨_, _, hc⟩ := hc
      cases hc) keys p _ (Nat.le_refl _)
  rw [C43_blind E hp] at h
  exact ⟨_, h⟩

/-- Indexing again with the policy `false` leaves no session key. -/
theorem C43_reindex_false (E : Env) (hp : E.policy = some .false) (fuel : Nat) (keys : List Str) (p : Option Part) (st : St)
    (h : indexFile E fuel (reindexKeys E.policy keys) p = some st) : st.keys = [] := by
  have hr : reindexKeys E.policy keys = [] := by unfold reindexKeys; rw [if_pos hp]
  rw [hr] at h
  cases hk : st.keys with
  | nil => rfl
  | cons k l =>
    obtain ⟨a, _⟩ := C43_stash_only E fuel [] p st h k (by rw [hk]; exact List.mem_cons_self) (by simp)
    rw [hp] at a; cases a

/-! ## The protected subject -/

/-- The subject within an encrypted message is indexed only with the policy `true`, and it is the one that the cleartext of the whole message
protects. -/
theorem C43_subject_only (E : Env) (fuel : Nat) (keys : List Str) (p : Part) (st : St) (h : indexFile E fuel keys (some p) = some st) (s : Str)
    (hs : .subject s ∈ st.log) : E.policy = some .true ∧ ∃ q, Covered E p q ∧ Protects q s := by
  obtain ⟨st', hr, _, _, hl⟩ := runs h
  have hf := (subject_part E fuel (some p) _ _ (fresh_start keys) hr).2 p rfl
  have hsub : st'.subject = some s := by
    rcases (hl _).mp hs with h' | ⟨s', h', e⟩
    · by_cases hp : E.policy = some .true
      · rcases (indexPart_prov (inv_any E hp) fuel _ _ _ trivial hr).1 p rfl _ h' trivial with h'' | ⟨q, f, _, _, h''⟩
        · cases h''
        · exact absurd h'' emits_not_subject
      · rcases (indexPart_prov (inv_view E keys hp) fuel _ _ _ (show Quiet keys _ from ⟨rfl, by simp⟩) hr).1 p rfl _ h' trivial with h'' | ⟨q, f, _, _, h''⟩
        · cases h''
        · exact absurd h'' emits_not_subject
    · cases e; exact h'
  rcases hf with h' | ⟨_, h' | ⟨a, q, s', b, c, d⟩⟩
  · rw [h'.2.2] at hsub; cases hsub
  · rw [h'] at hsub; cases hsub
  · rw [d] at hsub
    cases hsub
    exact ⟨a, q, b, (protects_iff q s).mp c⟩

/-- The subject of an encrypted message that the secret key opens is indexed with the policy `true`. -/
theorem C43_subject (E : Env) (hp : E.policy = some .true) (h1 : OneClear E) (fuel : Nat) (keys : List Str) (p f q : Part) (sk : Option Str) (st : St)
    (h : indexFile E fuel keys (some p) = some st) (ha : As p f) (he : Encrypted f) (hd : E.decrypt f none = some (q, sk)) (s : Str) (hs : Protects q s) :
    .subject s ∈ st.log := by
  obtain ⟨st', hr, _, _, hl⟩ := runs h
  refine (hl _).mpr (.inr ⟨s, ?_, rfl⟩)
  rw [subject_found hp h1 ha he hd fuel _ _ (fresh_start keys) hr]
  exact (protects_iff q s).mpr hs

/-! ## A message whose subject is protected -/

private def info (a b : String) : Info := ⟨some (bs a, bs b), none, none, none, none⟩

private def cipher : Part := .leaf (info "application" "octet-stream") false false none (bs "cipher")

/-- `multipart/encrypted`. -/
private def sealedPart : Part := .multipart .encrypted (info "multipart" "encrypted") [.leaf (info "application" "pgp-encrypted") false false none (bs "Version: 1"), cipher]

/-- The cleartext: protected headers, their display for old mail programs, and the text. -/
private def clearPart : Part := .multipart .other { info "multipart" "mixed" with protectedHeaders := some (bs "v1"), subject := some (bs "plan") }
  [.leaf { info "text" "plain" with protectedHeaders := some (bs "v1") } true false none (bs "Subject: plan"), .leaf (info "text" "plain") true false none (bs "hidden")]

private def cipherOf : Part → Option Str
  | .multipart .encrypted _ [_, .leaf _ _ _ _ c] => some c
  | _ => none

private def agent (p : Part) (k : Option Str) : Option (Part × Option Str) :=
  if cipherOf p = some (bs "cipher") ∧ (k = none ∨ k = some (bs "key")) then some (clearPart, some (bs "key")) else none

private def world (pol : Option Policy) : Env := ⟨agent, fun _ => none, pol, fun _ => false, fun _ s => s⟩

private def bodies (o : Option St) : Option (List Str) := o.map fun st => st.log.filterMap fun | .body s => some s | _ => none
private def subjects (o : Option St) : Option (List Str) := o.map fun st => st.log.filterMap fun | .subject s => some s | _ => none
private def askedSecret (o : Option St) : Option Nat := o.map fun st => st.log.countP fun | .askSecret _ => true | _ => false
private def keysOf (o : Option St) : Option (List Str) := o.map (·.keys)

/-- The text, the subject, the number of uses of the secret key, and the session keys afterwards. -/
private def outcome (pol : Policy) (keys : List Str) (p : Part) : Option (List Str) × Option (List Str) × Option Nat × Option (List Str) :=
  let o := indexFile (world (some pol)) 9 keys (some p)
  (bodies o, subjects o, askedSecret o, keysOf o)

/-- What each policy does with it. -/
theorem C43_example :
    outcome .false [bs "key"] sealedPart = (some [], some [], some 0, some [bs "key"]) ∧
    outcome .auto [] sealedPart = (some [], some [], some 0, some []) ∧
    outcome .auto [bs "key"] sealedPart = (some [bs "Subject: plan", bs "hidden"], some [], some 0, some [bs "key"]) ∧
    outcome .nostash [] sealedPart = (some [bs "Subject: plan", bs "hidden"], some [], some 1, some []) ∧
    outcome .true [] sealedPart = (some [bs "hidden"], some [bs "plan"], some 1, some [bs "key"]) ∧
    outcome .true [bs "key"] sealedPart = (some [bs "hidden"], some [bs "plan"], some 0, some [bs "key"]) := by
  refine ⟨?_, ?_, ?_, ?_, ?_, ?_⟩ <;> decide +kernel

/-- The manual says that `nostash` is the same as `true` but for the session keys.  But the protected subject is not indexed, and the display of
protected headers is. -/
theorem C43_counterexample_nostash : ¬ ∀ keys p, (outcome .nostash keys p).1 = (outcome .true keys p).1 ∧ (outcome .nostash keys p).2.1 = (outcome .true keys p).2.1 := by
  intro h
  exact absurd (h [] sealedPart) (by decide +kernel)

private theorem agent_one {pol : Option Policy} : OneClear (world pol) := by
  intro p k k' q q' sk sk' h h'
  unfold world agent at h h'
  simp only at h h'
  split at h
  · split at h'
    · cases h; cases h'; rfl
    · cases h'
  · cases h

private theorem sealed_as : As sealedPart sealedPart := .inl ⟨rfl, by
  rintro ⟨b, c, i, j, att, f, t, e, _⟩
  unfold sealedPart at e
  cases e⟩

private theorem sealed_encrypted : Encrypted sealedPart := .inl ⟨_, _, rfl, Nat.le_refl 2⟩

private theorem clear_protects : Protects clearPart (bs "plan") := .inr ⟨fun _ _ _ e => (by cases e), ⟨bs "v1", rfl, by decide +kernel⟩, rfl⟩

/-- The hypotheses of `C43_subject` and of `C43_true_all` are met. -/
example : ∃ st, indexFile (world (some .true)) 9 [] (some sealedPart) = some st ∧ .subject (bs "plan") ∈ st.log ∧
    .prop (bs "index.decryption") (bs "success") ∈ st.log := by
  have hd : (world (some .true)).decrypt sealedPart none = some (clearPart, some (bs "key")) := by
    unfold world agent
    simp only
    rw [if_pos (by decide +kernel)]
  have hsome : (indexFile (world (some .true)) 9 [] (some sealedPart)).isSome := by decide +kernel
  obtain ⟨st, h⟩ := Option.isSome_iff_exists.mp hsome
  refine ⟨st, h, C43_subject _ rfl agent_one 9 [] _ _ _ _ st h sealed_as sealed_encrypted hd _ clear_protects, ?_⟩
  refine C43_true_all _ rfl agent_one 9 [] _ st h sealedPart sealedPart .refl sealed_as ?_ _ (.success sealed_encrypted ⟨_, hd⟩)
  rintro ⟨a, b, i, e, _⟩
  unfold sealedPart at e
  cases e

/-- The hypotheses of `C43_exact` are met, and cleartext is in view. -/
example : ∃ st, indexFile (world (some .auto)) 9 [bs "key"] (some sealedPart) = some st ∧ .body (bs "hidden") ∈ st.log ∧
    Inside (world (some .auto)) (view (world (some .auto)) [bs "key"]) sealedPart clearPart := by
  have hd : (world (some .auto)).decrypt sealedPart (some (bs "key")) = some (clearPart, some (bs "key")) := by
    unfold world agent
    simp only
    rw [if_pos (by decide +kernel)]
  have hsome : (indexFile (world (some .auto)) 9 [bs "key"] (some sealedPart)).isSome := by decide +kernel
  obtain ⟨st, h⟩ := Option.isSome_iff_exists.mp hsome
  have hw : Within (world (some .auto)) (view (world (some .auto)) [bs "key"]) sealedPart clearPart :=
    .clear sealed_encrypted (.inl ⟨rfl, [], _, [], _, rfl, fun _ h => (by cases h), hd⟩)
  have hc : As clearPart clearPart := .inl ⟨rfl, by rintro ⟨b, c, i, j, att, f, t, e, _⟩; unfold clearPart at e; cases e⟩
  have hleaf : ∀ j att f t, As (.leaf j true att f t) (.leaf j true att f t) := fun j att f t => .inl ⟨rfl, by rintro ⟨b, c, i, _, _, _, _, e, _⟩; cases e⟩
  refine ⟨st, h, ?_, .step sealed_as hw .refl⟩
  refine (C43_exact _ (by decide) 9 [bs "key"] _ st h (.body (bs "hidden")) trivial).mpr
    ⟨.leaf (info "text" "plain") true false none (bs "hidden"), .leaf (info "text" "plain") true false none (bs "hidden"), ?_, hleaf _ _ _ _, ?_⟩
  · exact .step sealed_as hw (.step hc (.child rfl (List.mem_cons_of_mem _ List.mem_cons_self)) .refl)
  · have : bs "hidden" = bodyText (world (some .auto)) (info "text" "plain") (bs "hidden") := by decide +kernel
    rw [this]
    exact .body rfl (fun h => by cases h)

/-- An encrypted message that is forwarded as the whole content of another gives that one its protected subject. -/
theorem C43_counterexample_forward :
    let o := indexFile (world (some .true)) 9 [] (some (.message (info "message" "rfc822") (some (bs "fwd")) (some sealedPart)))
    subjects o = some [bs "plan"] := by
  decide +kernel

end Notmuch.Props
