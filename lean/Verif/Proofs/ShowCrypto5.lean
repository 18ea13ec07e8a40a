import Verif.Proofs.ShowCrypto4
import Verif.Proofs.MimeKeys

/-! # Signatures and encryption in `notmuch show`: the status of the message (C69) -/

namespace Notmuch.ShowCrypto
open Notmuch.Mime (Part Policy Smime Decrypted As Legacy insertKey protectedSubject)

/-! ## The status after layers -/

theorem fold_full (ls : List Layer) (m : Msg) : (ls.foldl step m).status = .full ↔ m.status = .full ∨ ∃ x ∈ ls, x.opened = true := by
  induction ls generalizing m with
  | nil => simp
  | cons x ls ih =>
    rw [List.foldl_cons, ih]
    have : (step m x).status = .full ↔ m.status = .full ∨ x.opened = true := by
      unfold step
      by_cases h : x.opened = true
      · simp only [if_pos h]; cases x.looked <;> simp [h]
      · simp only [if_neg h]; cases x.looked <;> simp [h]
    rw [this]
    simp only [List.mem_cons]
    grind

theorem signatures_concat (ls : List Layer) (x : Layer) : signatures (ls ++ [x]) = match x.looked with | some s => s | none => signatures ls := by
  unfold signatures
  rw [List.filterMap_append]
  cases h : x.looked with
  | none => simp [h]
  | some s => simp [h]

theorem inside_concat (ls : List Layer) (x : Layer) : SignedInside (ls ++ [x]) ↔ if x.looked = none then SignedInside ls else ∃ y ∈ ls ++ [x], y.opened = true := by
  unfold SignedInside
  split
  · rename_i h
    constructor
    · rintro ⟨a, y, b, e, h1, h2, h3⟩
      rcases List.eq_nil_or_concat b with rfl | ⟨b', z, rfl⟩
      · have := List.append_inj' e rfl
        simp at this
        rw [← this.2] at h1
        exact absurd h h1
      · rw [List.concat_eq_append] at e h2
        have e' : ls ++ [x] = (a ++ y :: b') ++ [z] := by rw [e]; simp
        obtain ⟨e1, e2⟩ := List.append_inj' e' rfl
        exact ⟨a, y, b', e1, h1, fun w hw => h2 w (by simp [hw]), h3⟩
    · rintro ⟨a, y, b, e, h1, h2, h3⟩
      refine ⟨a, y, b ++ [x], by rw [e]; simp, h1, fun w hw => ?_, h3⟩
      rcases List.mem_append.1 hw with hw | hw
      · exact h2 w hw
      · simp at hw; subst hw; exact h
  · rename_i h
    constructor
    · rintro ⟨a, y, b, e, h1, h2, z, hz, ho⟩
      refine ⟨z, ?_, ho⟩
      rw [e]
      simp only [List.mem_append, List.mem_cons, List.not_mem_nil, or_false] at hz ⊢
      grind
    · rintro ⟨y, hy, ho⟩
      exact ⟨ls, x, [], rfl, h, (fun w hw => by cases hw), y, hy, ho⟩

/-- From the start. -/
theorem fold_start (ls : List Layer) (m : Msg) (h1 : m.sigs = none) (h2 : m.sigsEncrypted = false) (h3 : m.status = .none) :
    (ls.foldl step m).sigs = signatures ls ∧ ((ls.foldl step m).sigsEncrypted = true ↔ SignedInside ls) := by
  rw [← List.reverse_reverse ls]
  induction ls.reverse with
  | nil =>
    refine ⟨h1, ?_⟩
    simp [h2, SignedInside]
  | cons x r ih =>
    rw [List.reverse_cons]
    generalize r.reverse = ls at ih
    rw [List.foldl_append, List.foldl_cons, List.foldl_nil, signatures_concat, inside_concat]
    have hf := fold_full ls m
    rw [h3] at hf
    generalize ls.foldl step m = m' at ih hf
    cases hl : x.looked with
    | none =>
      simp only [if_pos]
      have : (step m' x).sigs = m'.sigs ∧ (step m' x).sigsEncrypted = m'.sigsEncrypted := by
        unfold step
        rw [hl]
        simp only
        split <;> exact ⟨rfl, rfl⟩
      rw [this.1, this.2]
      exact ih
    | some s =>
      have hn : ¬ (some s : Option (Option Sigs)) = none := by simp
      rw [if_neg hn]
      unfold step
      rw [hl]
      refine ⟨rfl, ?_⟩
      simp only
      have hin : m'.sigsEncrypted = true → ∃ y ∈ ls, y.opened = true := by
        intro h
        obtain ⟨a, y, b, e, _, _, z, hz, ho⟩ := ih.2.1 h
        refine ⟨z, ?_, ho⟩
        rw [e]
        simp only [List.mem_append, List.mem_cons, List.not_mem_nil, or_false] at hz ⊢
        grind
      by_cases ho : x.opened = true
      · simp only [if_pos ho, if_true]
        simp [ho]
      · simp only [if_neg ho]
        by_cases hfull : m'.status = .full
        · rw [if_pos hfull]
          have := hf.1 hfull
          simp only [List.mem_append, List.mem_cons, List.not_mem_nil, or_false]
          grind
        · rw [if_neg hfull]
          have : ¬ ∃ y ∈ ls, y.opened = true := fun h => hfull (hf.2 (.inr h))
          simp only [List.mem_append, List.mem_cons, List.not_mem_nil, or_false]
          grind

/-! ## Whether anything was decrypted -/

/-- Some node in it was decrypted. -/
def Decrypts (n : Node) : Prop := ∃ m, Within n m ∧ m.marks.success = true

theorem noteSigs_status (s : Option Sigs) (m : Msg) : (noteSigs s m).status = m.status := by
  unfold noteSigs; split <;> rfl

theorem notePayload_status (p : Part) (par : Option Part) (c : Nat) (m : Msg) : (notePayload p par c m).2.status = m.status := by
  unfold notePayload
  split
  · rfl
  · split
    · rfl
    · split
      · rfl
      · split <;> rfl

theorem noteDecryption_status (m : Msg) : (noteDecryption m).status ≠ .none := by
  unfold noteDecryption
  split
  · simp
  · split
    · simp
    · assumption

theorem decryptNode_status {E : Env} {p : Part} {n : Nat} {st : St} (hp : E.policy ≠ .false) :
    (decryptNode E p n st).2.msg.status ≠ .none ↔ st.msg.status ≠ .none ∨ (decryptNode E p n st).1.marks.success = true := by
  have hd : ∀ (s : Option Sigs) (ks : List Str) (lg : List Eff), (decryptedSigs s ⟨noteDecryption st.msg, ks, lg⟩).msg.status ≠ .none := by
    intro s ks lg
    rw [decryptedSigs_msg]
    split
    · rw [noteSigs_status]; exact noteDecryption_status _
    · exact noteDecryption_status _
  rcases decryptNode_spec E p n st hp with ⟨q, s, l, k, r, sk, _, _, _, e⟩ | ⟨_, _, e⟩ | ⟨_, _, _, e⟩ | ⟨q, s, sk, _, _, _, e⟩
  · rw [e]; simp only [or_true, iff_true]; exact hd _ _ _
  · rw [e]; simp
  · rw [e]; simp
  · rw [e]; simp only [or_true, iff_true, stash_msg]; exact hd _ _ _

theorem layer_status {E : Env} {p : Part} {n : Nat} {st st' : St} {s : Set_} (h : layer E p n st = some (s, st')) :
    st'.msg.status ≠ .none ↔ st.msg.status ≠ .none ∨ s.marks.success = true := by
  unfold layer at h
  split at h
  · split at h
    · rename_i hp
      split at h
      · injection h with h; injection h with e1 e2; subst e1 e2; simp [noMarks]
      · injection h with h
        have e1 := congrArg Prod.fst h
        have e2 := congrArg Prod.snd h
        simp only at e1 e2
        subst e1 e2
        exact decryptNode_status hp
    · cases h
  · split at h
    · split at h
      · injection h with h; injection h with e1 e2; subst e1 e2; simp [noMarks]
      · injection h with h; injection h with e1 e2; subst e1 e2
        simp [noteSigs_status, St.put]
    · cases h
  · injection h with h; injection h with e1 e2; subst e1 e2
    simp [noteSigs_status, St.put]
  · split at h
    · rename_i hp
      injection h with h; injection h with e1 e2; subst e1 e2
      exact decryptNode_status hp
    · cases h
  · cases h

theorem once_status {E : Env} {p : Part} {par : Option Part} {c : Nat} {st st' : St} {r : Set_ ⊕ Part} (h : setUpOnce E p par c st = some (r, st')) :
    st'.msg.status ≠ .none ↔ st.msg.status ≠ .none ∨ ∃ s, r = .inl s ∧ s.marks.success = true := by
  unfold setUpOnce at h
  cases hs : shape p with
  | none => rw [hs] at h; cases h
  | some x =>
    obtain ⟨f, n⟩ := x
    rw [hs] at h
    simp only [Option.map_some] at h
    injection h with h
    split at h
    · rename_i s1 st1 hl
      injection h with e1 e2; subst e1 e2
      rw [layer_status hl]
      simp
    · split at h
      · split at h
        · injection h with e1 e2; subst e1 e2
          simp [notePayload_status]
        · injection h with e1 e2; subst e1 e2
          simp [notePayload_status, noMarks]
      · injection h with e1 e2; subst e1 e2
        simp [notePayload_status, noMarks]

theorem setUp_status {E : Env} {p : Part} {par : Option Part} {c : Nat} {st st' : St} {s : Set_} (h : setUp E p par c st = some (s, st')) :
    st'.msg.status ≠ .none ↔ st.msg.status ≠ .none ∨ s.marks.success = true := by
  unfold setUp at h
  split at h
  · cases h
  · rename_i h1
    injection h with h; injection h with e1 e2; subst e1 e2
    rw [once_status h1]
    simp
  · rename_i h1
    split at h
    · rename_i h2
      injection h with h; injection h with e1 e2; subst e1 e2
      rw [once_status h2, once_status h1]
      simp
    · cases h

theorem status_list {w : Part → Nat → St → Res (Node × St)} (hw : ∀ p c st n st', w p c st = .ok (n, st') → (st'.msg.status ≠ .none ↔ st.msg.status ≠ .none ∨ Decrypts n)) :
    ∀ (l : List (Option Part)) (c : Nat) (st : St) (ns : List Node) (st' : St), walkList w c l st = .ok (ns, st') →
      (st'.msg.status ≠ .none ↔ st.msg.status ≠ .none ∨ ∃ n ∈ ns, Decrypts n)
  | [], c, st, ns, st', h => by
    obtain ⟨rfl, rfl⟩ := walkList_nil h
    simp
  | o :: l, c, st, ns, st', h => by
    obtain ⟨p, n, st1, ns', rfl, e1, e2, rfl⟩ := walkList_cons h
    rw [status_list hw l _ _ _ _ e2, hw _ _ _ _ _ e1]
    simp only [List.mem_cons]
    grind

theorem walk_status {E : Env} : ∀ (d : Nat) (par : Option Part) (p : Part) (c : Nat) (st : St) (n : Node) (st' : St), walk E d par p c st = .ok (n, st') →
    (st'.msg.status ≠ .none ↔ st.msg.status ≠ .none ∨ Decrypts n)
  | 0, par, p, c, st, n, st', h => by obtain ⟨_, _, _, _, e, _⟩ := walk_ok h; cases e
  | d + 1, par, p, c, st, n, st', h => by
    obtain ⟨d', s, st1, ns, e, h1, h2, rfl⟩ := walk_ok h
    injection e with e; subst e
    rw [status_list (fun p c st n st' h => walk_status d _ p c st n st' h) _ _ _ _ _ h2, setUp_status h1, or_assoc]
    have : Decrypts (.node s.part s.marks ns) ↔ s.marks.success = true ∨ ∃ n ∈ ns, Decrypts n := by
      constructor
      · rintro ⟨m, hm, hs⟩
        cases hm with
        | refl => exact .inl hs
        | child hc hw => exact .inr ⟨_, hc, _, hw, hs⟩
      · rintro (h | ⟨n, hn, m, hm, hs⟩)
        · exact ⟨_, .refl, h⟩
        · exact ⟨m, .child hn hm, hs⟩
    rw [this]

/-! ## The subject -/

/-- A subject is there only for a message that is signed or encrypted. -/
def Guarded (m : Msg) : Prop := m.subject ≠ none → m.payload = true ∧ (m.status = .full ∨ m.sigs ≠ none)

theorem guarded_decryption {m : Msg} (h : Guarded m) : Guarded (noteDecryption m) := by
  unfold noteDecryption
  split
  · rename_i h0
    intro hs
    have := (h hs).1
    rw [this] at h0
    cases h0
  · split
    · rename_i h1
      intro hs
      obtain ⟨a, b⟩ := h hs
      rw [h1] at b
      exact ⟨a, b.imp (fun x => by cases x) id⟩
    · exact h

theorem guarded_sigs (s : Option Sigs) {m : Msg} (h : Guarded m) : Guarded (noteSigs s m) := by
  unfold noteSigs
  split
  · exact h
  · rename_i h0
    intro hs
    exact absurd (h hs).1 h0

theorem guarded_decryptedSigs (s : Option Sigs) {st : St} (h : Guarded st.msg) : Guarded (decryptedSigs s st).msg := by
  rw [decryptedSigs_msg]
  split
  · exact guarded_sigs _ h
  · exact h

theorem keeps_guarded (E : Env) : Keeps E (fun st => Guarded st.msg) where
  decrypt p n st hp h := by
    rcases decryptNode_spec E p n st hp with ⟨q, s, l, k, r, sk, _, _, _, e⟩ | ⟨_, _, e⟩ | ⟨_, _, _, e⟩ | ⟨q, s, sk, _, _, _, e⟩
    · rw [e]
      exact guarded_decryptedSigs s (guarded_decryption h)
    · rw [e]; exact h
    · rw [e]; exact h
    · rw [e]
      show Guarded (stash _ _ _).msg
      rw [stash_msg]
      exact guarded_decryptedSigs s (guarded_decryption h)
  verify p n u st hv h := guarded_sigs _ h
  payload p par c st h := by
    show Guarded (notePayload p par c st.msg).2
    unfold notePayload
    split
    · exact h
    · rename_i h0
      have hn : st.msg.subject = none := by
        cases hs : st.msg.subject with
        | none => rfl
        | some s => exact absurd (h (by rw [hs]; simp)).1 h0
      split
      · exact h
      · split
        · intro hs
          exact absurd hn hs
        · rename_i h2
          split
          · exact fun _ => ⟨rfl, by grind⟩
          · intro hs
            exact absurd hn hs

/-! ## New session keys -/

theorem length_insertKey (k : Str) (l : List Str) : (insertKey k l).length = if k ∈ l then l.length else l.length + 1 := by
  unfold insertKey
  split
  · rfl
  · rw [List.length_append, List.length_cons]
    have := congrArg List.length (List.takeWhile_append_dropWhile (p := fun y => decide (y < k)) (l := l))
    rw [List.length_append] at this
    omega

/-- The keys are the same, or more. -/
def More (keys : List Str) (st : St) : Prop := (∀ k ∈ keys, k ∈ st.keys) ∧ (st.keys = keys ∨ (keys.length < st.keys.length ∧ ∃ k ∈ st.keys, k ∉ keys))

theorem keeps_more (E : Env) (keys : List Str) : Keeps E (More keys) where
  decrypt p n st hp h := by
    rcases decryptNode_spec E p n st hp with ⟨q, s, l, k, r, sk, _, _, _, e⟩ | ⟨_, _, e⟩ | ⟨_, _, _, e⟩ | ⟨q, s, sk, _, _, _, e⟩
    · rw [e]; simp only [More, decryptedSigs_keys]; exact h
    · rw [e]; exact h
    · rw [e]; exact h
    · rw [e]
      simp only
      generalize (if E.policy = .true then sk else none) = key
      rcases stash_cases E key (decryptedSigs s { st with log := st.log ++ asks p st.keys ++ [.askSecret p], msg := noteDecryption st.msg }) with e | ⟨x, _, _, e⟩
      · rw [e]; simp only [More, decryptedSigs_keys]; exact h
      · rw [e]
        simp only [More, decryptedSigs_keys]
        obtain ⟨h1, h2⟩ := h
        refine ⟨fun k hk => mem_insertKey.2 (.inr (h1 k hk)), ?_⟩
        by_cases hx : x ∈ st.keys
        · have : insertKey x st.keys = st.keys := by unfold insertKey; rw [if_pos hx]
          rw [this]
          exact h2
        · refine .inr ⟨?_, ?_⟩
          · rw [length_insertKey, if_neg hx]
            rcases h2 with h2 | ⟨h2, _⟩
            · rw [h2]; omega
            · omega
          · exact ⟨x, mem_insertKey.2 (.inl rfl), fun hm => hx (h1 x hm)⟩
  verify _ _ _ _ _ h := h
  payload _ _ _ _ h := h

/-! ## What does not matter -/

theorem walkList_congr {J : St → Prop} {w w' : Part → Nat → St → Res (Node × St)} (he : ∀ p c st, J st → w' p c st = w p c st)
    (hk : ∀ p c st n st', J st → w p c st = .ok (n, st') → J st') : ∀ (l : List (Option Part)) (c : Nat) (st : St), J st → walkList w' c l st = walkList w c l st
  | [], _, _, _ => rfl
  | none :: l, _, _, _ => rfl
  | some p :: l, c, st, h => by
    rw [walkList, walkList, he _ _ _ h]
    cases hw : w p c st with
    | deep => rfl
    | crash => rfl
    | ok x =>
      obtain ⟨n, st1⟩ := x
      simp only
      rw [walkList_congr he hk l _ _ (hk _ _ _ _ _ h hw)]

theorem walk_congr {E E' : Env} {J : St → Prop} (hJ : Keeps E J) (he : ∀ p n st, J st → layer E' p n st = layer E p n st) :
    ∀ (d : Nat) (par : Option Part) (p : Part) (c : Nat) (st : St), J st → walk E' d par p c st = walk E d par p c st
  | 0, _, _, _, _, _ => rfl
  | d + 1, par, p, c, st, h => by
    have ho : ∀ p st, J st → setUpOnce E' p par c st = setUpOnce E p par c st := by
      intro p st h
      unfold setUpOnce
      cases shape p with
      | none => rfl
      | some x => simp only [Option.map_some, he _ _ _ h]
    have hs : setUp E' p par c st = setUp E p par c st := by
      unfold setUp
      rw [ho _ _ h]
      cases h1 : setUpOnce E p par c st with
      | none => rfl
      | some x =>
        obtain ⟨r, st1⟩ := x
        cases r with
        | inl s => rfl
        | inr q =>
          simp only
          rw [ho _ _ (keep_once hJ h h1)]
    rw [walk, walk, hs]
    cases h1 : setUp E p par c st with
    | none => rfl
    | some x =>
      obtain ⟨s, st1⟩ := x
      simp only
      rw [walkList_congr (fun p c st h => walk_congr hJ he d _ p c st h) (fun p c st n st' a b => keep_walk hJ _ _ p c st n st' a b) _ _ _ (keep_setUp hJ h h1)]

end Notmuch.ShowCrypto
