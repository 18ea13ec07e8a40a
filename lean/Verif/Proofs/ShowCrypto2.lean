import Verif.Proofs.ShowCrypto

/-! # Signatures and encryption in `notmuch show`: which keys are used, and what the nodes tell (C69) -/

namespace Notmuch.ShowCrypto
open Notmuch.Mime (Part Policy Smime Decrypted As Legacy repairMixedUp legacyDisplay insertKey as_unique legacy_iff repair_some repair_none repair_mixedUp)

theorem mem_insertKey {k x : Str} {l : List Str} : x ∈ insertKey k l ↔ x = k ∨ x ∈ l := by
  unfold insertKey
  split
  · rename_i h
    constructor
    · exact .inr
    · rintro (rfl | h') <;> assumption
  · rw [List.mem_append, List.mem_cons]
    conv => rhs; rw [← List.takeWhile_append_dropWhile (p := fun y => decide (y < k)) (l := l), List.mem_append]
    grind

/-! ## Keys -/

/-- Which keys are used; `keys` are those before. -/
structure Uses (E : Env) (keys : List Str) (st : St) : Prop where
  kept : ∀ k ∈ keys, k ∈ st.keys
  new : ∀ k ∈ st.keys, k ∈ keys ∨ .stash k ∈ st.log
  stored : ∀ k, .stash k ∈ st.log → k ∈ st.keys ∧ E.policy = .true ∧ ∃ q c s, .askSecret q ∈ st.log ∧ E.decrypt q none = some (c, s, some k)
  all : E.policy = .true → ∀ q c s k, .askSecret q ∈ st.log → E.decrypt q none = some (c, s, some k) → .stash k ∈ st.log
  secret : ∀ q, .askSecret q ∈ st.log → (E.policy = .nostash ∨ E.policy = .true) ∧ Locked E keys q
  key : ∀ q k, .askKey q k ∈ st.log → k ∈ st.keys ∧ E.policy ≠ .false
  verify : ∀ q, .verify q ∈ st.log → E.verifies = true ∨ ∃ i d, q = .pkcs7 i .signedData d

theorem uses_start (E : Env) (keys : List Str) : Uses E keys (start keys) where
  kept _ h := h
  new _ h := .inl h
  stored _ h := by cases h
  all _ _ _ _ _ h := by cases h
  secret _ h := by cases h
  key _ _ h := by cases h
  verify _ h := by cases h

theorem mem_asks {p q : Part} {k : Str} {ks : List Str} : Eff.askKey q k ∈ asks p ks ↔ q = p ∧ k ∈ ks := by
  unfold asks
  simp only [List.mem_map]
  constructor
  · rintro ⟨a, h, e⟩
    injection e with e1 e2
    subst e1 e2
    exact ⟨rfl, h⟩
  · rintro ⟨rfl, h⟩
    exact ⟨k, h, rfl⟩

theorem only_asks {p : Part} {e : Eff} {ks : List Str} (h : e ∈ asks p ks) : ∃ k ∈ ks, e = .askKey p k := by
  unfold asks at h
  obtain ⟨k, h1, h2⟩ := List.mem_map.1 h
  exact ⟨k, h1, h2.symm⟩

/-- More session keys that were tried. -/
theorem uses_asks {E : Env} {keys : List Str} {st st' : St} (h : Uses E keys st) (hp : E.policy ≠ .false) {p : Part} {ks : List Str} (hk : ∀ k ∈ ks, k ∈ st.keys)
    (e1 : st'.keys = st.keys) (e2 : st'.log = st.log ++ asks p ks) : Uses E keys st' := by
  have hl : ∀ e, (∀ q k, e ≠ .askKey q k) → (e ∈ st'.log ↔ e ∈ st.log) := by
    intro e he
    rw [e2, List.mem_append]
    constructor
    · rintro (h | h)
      · exact h
      · obtain ⟨k, _, rfl⟩ := only_asks h
        exact absurd rfl (he p k)
    · exact .inl
  have h1 := fun k => hl (.stash k) (by intro _ _ e; cases e)
  have h2 := fun q => hl (.askSecret q) (by intro _ _ e; cases e)
  have h3 := fun q => hl (.verify q) (by intro _ _ e; cases e)
  refine ⟨?_, ?_, ?_, ?_, ?_, ?_, ?_⟩
  · intro k hk; rw [e1]; exact h.kept k hk
  · intro k hk; rw [e1] at hk; rw [h1]; exact h.new k hk
  · intro k hk; rw [h1] at hk; rw [e1]
    obtain ⟨a, b, q, c, s, d, e⟩ := h.stored k hk
    exact ⟨a, b, q, c, s, (h2 q).2 d, e⟩
  · intro hp q c s k hq hd; rw [h2] at hq; rw [h1]; exact h.all hp q c s k hq hd
  · intro q hq; rw [h2] at hq; exact h.secret q hq
  · intro q k hq
    rw [e2, List.mem_append] at hq
    rw [e1]
    rcases hq with hq | hq
    · exact h.key q k hq
    · exact ⟨hk k (mem_asks.1 hq).2, hp⟩
  · intro q hq; rw [h3] at hq; exact h.verify q hq

theorem stash_cases (E : Env) (k : Option Str) (st : St) :
    stash E k st = st ∨ ∃ x, k = some x ∧ E.policy = .true ∧ stash E k st = { st.put (.stash x) with keys := insertKey x st.keys } := by
  unfold stash
  split
  · rename_i h
    split
    · exact .inr ⟨_, rfl, h, rfl⟩
    · exact .inl rfl
  · exact .inl rfl

/-- The secret key was used. -/
theorem uses_secret {E : Env} {keys : List Str} {st st1 : St} (h : Uses E keys st) {p : Part} (hl : Locked E st.keys p) (hp : E.policy = .nostash ∨ E.policy = .true)
    (e1 : st1.keys = st.keys) (e2 : st1.log = st.log ++ [.askSecret p]) (key : Option Str)
    (hk : ∀ k, E.policy = .true → (key = some k ↔ ∃ c s, E.decrypt p none = some (c, s, some k))) : Uses E keys (stash E key st1) := by
  have hlk : Locked E keys p := fun k hk => hl k (h.kept k hk)
  rcases stash_cases E key st1 with e | ⟨x, hx, hpt, e⟩
  · have hl' : ∀ e, e ∈ st1.log ↔ e ∈ st.log ∨ e = .askSecret p := by intro e; rw [e2]; simp
    rw [e]
    refine ⟨?_, ?_, ?_, ?_, ?_, ?_, ?_⟩
    · intro k hk; rw [e1]; exact h.kept k hk
    · intro k hk; rw [e1] at hk; rw [hl']; exact (h.new k hk).imp id .inl
    · intro k hk'; rw [hl'] at hk'; rw [e1]
      rcases hk' with hk' | hk'
      · obtain ⟨a, b, q, c, s, d, e⟩ := h.stored k hk'
        exact ⟨a, b, q, c, s, (hl' _).2 (.inl d), e⟩
      · cases hk'
    · intro hpt q c s k hq hd
      rw [hl'] at hq ⊢
      rcases hq with hq | hq
      · exact .inl (h.all hpt q c s k hq hd)
      · injection hq with hq; subst hq
        have := (hk k hpt).2 ⟨c, s, hd⟩
        subst this
        exfalso
        unfold stash at e
        rw [if_pos hpt] at e
        have := congrArg (fun st => st.log.length) e
        simp [St.put] at this
    · intro q hq
      rw [hl'] at hq
      rcases hq with hq | hq
      · exact h.secret q hq
      · injection hq with hq; subst hq; exact ⟨hp, hlk⟩
    · intro q k hq
      rw [hl'] at hq; rw [e1]
      rcases hq with hq | hq
      · exact h.key q k hq
      · cases hq
    · intro q hq
      rw [hl'] at hq
      rcases hq with hq | hq
      · exact h.verify q hq
      · cases hq
  · have hl' : ∀ e, e ∈ ({ st1.put (.stash x) with keys := insertKey x st1.keys } : St).log ↔ e ∈ st.log ∨ e = .askSecret p ∨ e = .stash x := by
      intro e
      show e ∈ st1.log ++ [.stash x] ↔ _
      rw [e2]
      simp [or_assoc]
    have hk' : ∀ k, k ∈ ({ st1.put (.stash x) with keys := insertKey x st1.keys } : St).keys ↔ k = x ∨ k ∈ st.keys := by
      intro k
      show k ∈ insertKey x st1.keys ↔ _
      rw [mem_insertKey, e1]
    rw [e]
    generalize ({ st1.put (.stash x) with keys := insertKey x st1.keys } : St) = st2 at hl' hk'
    subst hx
    obtain ⟨c0, s0, hd0⟩ := (hk x hpt).1 rfl
    refine ⟨?_, ?_, ?_, ?_, ?_, ?_, ?_⟩
    · intro k hk; rw [hk']; exact .inr (h.kept k hk)
    · intro k hk; rw [hk'] at hk; rw [hl']
      rcases hk with rfl | hk
      · exact .inr (.inr (.inr rfl))
      · exact (h.new k hk).imp id .inl
    · intro k hk1; rw [hl'] at hk1; rw [hk']
      rcases hk1 with hk1 | hk1 | hk1
      · obtain ⟨a, b, q, c, s, d, e⟩ := h.stored k hk1
        exact ⟨.inr a, b, q, c, s, (hl' _).2 (.inl d), e⟩
      · cases hk1
      · injection hk1 with hk1; subst hk1
        exact ⟨.inl rfl, hpt, p, c0, s0, (hl' _).2 (.inr (.inl rfl)), hd0⟩
    · intro _ q c s k hq hd
      rw [hl'] at hq ⊢
      rcases hq with hq | hq | hq
      · exact .inl (h.all hpt q c s k hq hd)
      · injection hq with hq; subst hq
        rw [hd0] at hd
        injection hd with hd; injection hd with _ hd; injection hd with _ hd; injection hd with hd
        subst hd
        exact .inr (.inr rfl)
      · cases hq
    · intro q hq
      rw [hl'] at hq
      rcases hq with hq | hq | hq
      · exact h.secret q hq
      · injection hq with hq; subst hq; exact ⟨hp, hlk⟩
      · cases hq
    · intro q k hq
      rw [hl'] at hq; rw [hk']
      rcases hq with hq | hq | hq
      · exact ⟨.inr (h.key q k hq).1, (h.key q k hq).2⟩
      · cases hq
      · cases hq
    · intro q hq
      rw [hl'] at hq
      rcases hq with hq | hq | hq
      · exact h.verify q hq
      · cases hq
      · cases hq

theorem uses_decrypt {E : Env} {keys : List Str} {p : Part} {n : Nat} {st : St} (hp : E.policy ≠ .false) (h : Uses E keys st) : Uses E keys (decryptNode E p n st).2 := by
  rcases decryptNode_spec E p n st hp with ⟨q, s, l, k, r, sk, h1, _, _, e⟩ | ⟨_, _, e⟩ | ⟨hl, hp2, hd, e⟩ | ⟨q, s, sk, hl, hp2, hd, e⟩
  · rw [e]
    refine uses_asks h hp (p := p) (ks := l ++ [k]) ?_ (by rw [decryptedSigs_keys]) (by rw [decryptedSigs_log])
    intro x hx
    rw [h1]
    rcases List.mem_append.1 hx with hx | hx
    · exact List.mem_append.2 (.inl hx)
    · simp at hx; subst hx; simp
  · rw [e]
    exact uses_asks h hp (fun _ hk => hk) rfl rfl
  · rw [e]
    have h1 : Uses E keys { st with log := st.log ++ asks p st.keys } := uses_asks h hp (fun _ hk => hk) rfl rfl
    have := uses_secret h1 (st1 := { st with log := st.log ++ asks p st.keys ++ [.askSecret p] }) hl hp2 rfl rfl none (by intro k _; rw [hd]; simp)
    have e0 : ∀ st, stash E none st = st := by intro st; unfold stash; split <;> rfl
    rw [e0] at this
    exact this
  · rw [e]
    have h1 : Uses E keys { st with log := st.log ++ asks p st.keys } := uses_asks h hp (fun _ hk => hk) rfl rfl
    refine uses_secret h1 (p := p) hl hp2 ?_ ?_ _ ?_
    · rw [decryptedSigs_keys]
    · rw [decryptedSigs_log]
    · intro k hpt
      rw [if_pos hpt, hd]
      constructor
      · rintro rfl; exact ⟨_, _, rfl⟩
      · rintro ⟨_, _, h⟩
        injection h with h; injection h with _ h; injection h with _ h

theorem keeps_uses (E : Env) (keys : List Str) : Keeps E (Uses E keys) where
  decrypt _ _ _ hp h := uses_decrypt hp h
  verify p n u st hv h := by
    have hl : ∀ e, e ∈ (verifyNode E p n u st).2.log ↔ e ∈ st.log ∨ e = .verify p := by
      intro e
      show e ∈ st.log ++ [.verify p] ↔ _
      simp
    have hk : (verifyNode E p n u st).2.keys = st.keys := rfl
    generalize (verifyNode E p n u st).2 = st' at hl hk
    refine ⟨?_, ?_, ?_, ?_, ?_, ?_, ?_⟩
    · rw [hk]; exact h.kept
    · intro k hk'; rw [hk] at hk'; rw [hl]; exact (h.new k hk').imp id .inl
    · intro k hk'; rw [hl] at hk'; rw [hk]
      rcases hk' with hk' | hk'
      · obtain ⟨a, b, q, c, s, d, e⟩ := h.stored k hk'
        exact ⟨a, b, q, c, s, (hl _).2 (.inl d), e⟩
      · cases hk'
    · intro hp q c s k hq hd
      rw [hl] at hq ⊢
      rcases hq with hq | hq
      · exact .inl (h.all hp q c s k hq hd)
      · cases hq
    · intro q hq
      rw [hl] at hq
      rcases hq with hq | hq
      · exact h.secret q hq
      · cases hq
    · intro q k hq
      rw [hl] at hq; rw [hk]
      rcases hq with hq | hq
      · exact h.key q k hq
      · cases hq
    · intro q hq
      rw [hl] at hq
      rcases hq with hq | hq
      · exact h.verify q hq
      · injection hq with hq; subst hq; exact hv
  payload _ _ _ _ h := ⟨h.kept, h.new, h.stored, h.all, h.secret, h.key, h.verify⟩

/-! ## After the payload -/

/-- The message's status is settled, but for parts that are decrypted. -/
def Settled (m m' : Msg) : Prop := m'.payload = true ∧ m'.sigs = m.sigs ∧ m'.sigsEncrypted = m.sigsEncrypted ∧ m'.subject = m.subject ∧ (m'.status = .full ↔ m.status = .full)

theorem settled_decryption {m m' : Msg} (h : Settled m m') : Settled m (noteDecryption m') := by
  obtain ⟨h1, h2, h3, h4, h5⟩ := h
  unfold noteDecryption
  rw [h1]
  simp only [Bool.not_true, Bool.false_eq_true, if_false]
  split
  · rename_i h0
    refine ⟨rfl, h2, h3, h4, ?_⟩
    rw [h0] at h5
    rw [← h5]
    simp
  · exact ⟨h1, h2, h3, h4, h5⟩

theorem settled_sigs {m m' : Msg} (s : Option Sigs) (h : Settled m m') : Settled m (noteSigs s m') := by
  unfold noteSigs
  rw [if_pos h.1]
  exact h

theorem settled_decryptedSigs {m : Msg} (s : Option Sigs) {st : St} (h : Settled m st.msg) : Settled m (decryptedSigs s st).msg := by
  rw [decryptedSigs_msg]
  split
  · exact settled_sigs _ h
  · exact h

theorem keeps_settled (E : Env) (m : Msg) : Keeps E (fun st => Settled m st.msg) where
  decrypt p n st hp h := by
    rcases decryptNode_spec E p n st hp with ⟨q, s, l, k, r, sk, _, _, _, e⟩ | ⟨_, _, e⟩ | ⟨_, _, _, e⟩ | ⟨q, s, sk, _, _, _, e⟩
    · rw [e]
      exact settled_decryptedSigs s (settled_decryption h)
    · rw [e]; exact h
    · rw [e]; exact h
    · rw [e]
      show Settled m (stash _ _ _).msg
      rw [stash_msg]
      exact settled_decryptedSigs s (settled_decryption h)
  verify p n u st hv h := settled_sigs _ h
  payload p par c st h := by
    show Settled m (notePayload p par c st.msg).2
    unfold notePayload
    rw [if_pos h.1]
    exact h

end Notmuch.ShowCrypto
