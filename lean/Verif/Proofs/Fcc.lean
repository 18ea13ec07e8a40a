import Verif.Model.Fcc

namespace Notmuch.Fcc

/-! ### The file system -/

theorem find_none_iff (l : List (Str × Str)) (p : Str) : l.any (fun f => f.1 == p) = false ↔ l.find? (fun f => f.1 == p) = none := by
  rw [List.any_eq_false, List.find?_eq_none]

theorem get_none_of {fs : Fs} {p : Str} (h : fs.exists p = false) : fs.get p = none ∧ p ∉ fs.dirs := by
  unfold Fs.exists at h
  rw [Bool.or_eq_false_iff] at h
  refine ⟨?_, ?_⟩
  · unfold Fs.get
    rw [(find_none_iff _ _).1 h.2]; rfl
  · intro hc
    have := h.1
    simp [hc] at this

theorem exists_iff {fs : Fs} {p : Str} : fs.exists p = false ↔ fs.get p = none ∧ p ∉ fs.dirs := by
  refine ⟨get_none_of, fun ⟨h1, h2⟩ => ?_⟩
  unfold Fs.exists
  rw [Bool.or_eq_false_iff]
  refine ⟨by simpa using h2, ?_⟩
  rw [find_none_iff]
  unfold Fs.get at h1
  simpa using h1

theorem find_filter (l : List (Str × Str)) (p q : Str) :
    (l.filter (fun f => f.1 != p)).find? (fun f => f.1 == q) = if q = p then none else l.find? (fun f => f.1 == q) := by
  induction l with
  | nil => simp
  | cons f l ih =>
    rw [List.filter_cons]
    by_cases h : f.1 = p
    · have e : (f.1 != p) = false := by simpa using h
      rw [e, if_neg (by simp), ih]
      by_cases hq : q = p
      · rw [if_pos hq, if_pos hq]
      · rw [if_neg hq, if_neg hq, List.find?_cons]
        have : (f.1 == q) = false := by rw [beq_eq_false_iff_ne, h]; exact fun e => hq e.symm
        rw [this]
    · have e : (f.1 != p) = true := by simpa using h
      rw [e, if_pos rfl, List.find?_cons, List.find?_cons, ih]
      by_cases hq : q = p
      · subst hq
        have : (f.1 == q) = false := by simpa using h
        simp [this]
      · rw [if_neg hq, if_neg hq]

theorem get_put (fs : Fs) (p c q : Str) : (fs.put p c).get q = if q = p then some c else fs.get q := by
  unfold Fs.put Fs.get
  simp only [List.find?_cons]
  by_cases h : q = p
  · subst h; simp
  · have : (p == q) = false := by rw [beq_eq_false_iff_ne]; exact fun e => h e.symm
    rw [this, if_neg h]
    simp only
    rw [find_filter, if_neg h]

theorem get_delete (fs : Fs) (p q : Str) : (fs.delete p).get q = if q = p then none else fs.get q := by
  unfold Fs.delete Fs.get
  simp only
  rw [find_filter]
  by_cases h : q = p
  · rw [if_pos h, if_pos h]; rfl
  · rw [if_neg h, if_neg h]

theorem get_cons (d : List Str) (l : List (Str × Str)) (p c q : Str) :
    (Fs.mk d ((p, c) :: l)).get q = if q = p then some c else (Fs.mk d l).get q := by
  unfold Fs.get
  simp only [List.find?_cons]
  by_cases h : q = p
  · subst h; simp
  · have : (p == q) = false := by rw [beq_eq_false_iff_ne]; exact fun e => h e.symm
    rw [this, if_neg h]

/-! ### Names -/

theorem split_digits {a b r s : Str} {x y : UInt8} (ha : ∀ c ∈ a, isDigit c = true) (hb : ∀ c ∈ b, isDigit c = true)
    (hx : isDigit x = false) (hy : isDigit y = false) (h : a ++ x :: r = b ++ y :: s) : a = b ∧ r = s := by
  induction a generalizing b with
  | nil =>
    cases b with
    | nil => simp at h; exact ⟨rfl, h.2⟩
    | cons d b =>
      simp at h
      have := hb d (by simp)
      rw [← h.1, hx] at this
      cases this
  | cons c a ih =>
    cases b with
    | nil =>
      simp at h
      have := ha c (by simp)
      rw [h.1, hy] at this
      cases this
    | cons d b =>
      simp at h
      obtain ⟨e1, e2⟩ := ih (b := b) (fun c hc => ha c (by simp [hc])) (fun c hc => hb c (by simp [hc])) h.2
      exact ⟨by rw [h.1, e1], e2⟩

theorem name_inj (E : Env) {c d : Nat} (h : E.name c = E.name d) : c = d := by
  unfold Env.name at h
  simp only [List.append_assoc, List.cons_append, List.nil_append] at h
  obtain ⟨_, h⟩ := split_digits (dec_digits _) (dec_digits _) (by decide) (by decide) h
  obtain ⟨_, h⟩ := split_digits (dec_digits _) (dec_digits _) (by decide) (by decide) h
  obtain ⟨_, h⟩ := split_digits (dec_digits _) (dec_digits _) (by decide) (by decide) h
  obtain ⟨h, _⟩ := split_digits (dec_digits _) (dec_digits _) (by decide) (by decide) h
  exact dec_injective h

theorem host_clean (h : Str) : ∀ c ∈ hostFixer h, c ≠ 47 ∧ c ≠ 58 := by
  intro c hc
  unfold hostFixer at hc
  rw [List.mem_flatMap] at hc
  obtain ⟨a, _, ha⟩ := hc
  split at ha
  · revert ha; revert c; apply forall_byte; decide +kernel
  · split at ha
    · revert ha; revert c; apply forall_byte; decide +kernel
    · rename_i h1 h2
      simp at ha
      subst ha
      exact ⟨h1, h2⟩

theorem digit_clean {c : UInt8} (h : isDigit c = true) : c ≠ 47 ∧ c ≠ 58 := by
  revert h; revert c; apply forall_byte; decide +kernel

theorem name_clean (E : Env) (n : Nat) : ∀ c ∈ E.name n, c ≠ 47 ∧ c ≠ 58 := by
  intro c hc
  unfold Env.name at hc
  simp only [List.mem_append, List.mem_singleton] at hc
  rcases hc with (((((((h | h) | h) | h) | h) | h) | h) | h) | h
  · exact digit_clean (dec_digits _ _ h)
  · subst h; decide
  · exact digit_clean (dec_digits _ _ h)
  · subst h; decide
  · exact digit_clean (dec_digits _ _ h)
  · subst h; decide
  · exact digit_clean (dec_digits _ _ h)
  · subst h; decide
  · exact host_clean _ _ h

theorem uniq_gt (E : Env) (fs : Fs) (dest : Str) : ∀ n c, c < uniq E fs dest n c := by
  intro n
  induction n with
  | zero => intro c; exact Nat.lt_succ_self c
  | succ n ih =>
    intro c
    unfold uniq
    split
    · exact Nat.lt_trans (Nat.lt_succ_self c) (ih (c + 1))
    · exact Nat.lt_succ_self c

theorem uniq_or (E : Env) (fs : Fs) (dest : Str) : ∀ n c, fs.exists (dest ++ bs "/tmp/" ++ E.name (uniq E fs dest n c)) = false ∨
    (uniq E fs dest n c = c + n + 1 ∧ ∀ i, i < n → fs.exists (dest ++ bs "/tmp/" ++ E.name (c + i + 1)) = true) := by
  intro n
  induction n with
  | zero => intro c; exact Or.inr ⟨rfl, fun i hi => absurd hi (Nat.not_lt_zero i)⟩
  | succ n ih =>
    intro c
    unfold uniq
    split
    · rename_i hex
      rcases ih (c + 1) with h | ⟨h1, h2⟩
      · exact Or.inl h
      · refine Or.inr ⟨by omega, fun i hi => ?_⟩
        cases i with
        | zero => exact hex
        | succ i =>
          have := h2 i (by omega)
          rwa [show c + 1 + i + 1 = c + (i + 1) + 1 by omega] at this
    · rename_i hex
      exact Or.inl (by simpa using hex)

theorem uniq_free (E : Env) (fs : Fs) (dest : Str) (c : Nat) :
    fs.exists (dest ++ bs "/tmp/" ++ E.name (uniq E fs dest (fs.dirs.length + fs.files.length) c)) = false := by
  rcases uniq_or E fs dest (fs.dirs.length + fs.files.length) c with h | ⟨h1, h2⟩
  · exact h
  · rw [h1]
    cases hex : fs.exists (dest ++ bs "/tmp/" ++ E.name (c + (fs.dirs.length + fs.files.length) + 1))
    · rfl
    · exfalso
      let n := fs.dirs.length + fs.files.length
      let l := (List.range (n + 1)).map (fun i => dest ++ bs "/tmp/" ++ E.name (c + i + 1))
      have hnd : l.Nodup := by
        refine List.Pairwise.map _ (fun a b hab e => ?_) (List.nodup_range (n := n + 1))
        have := name_inj E (List.append_cancel_left e)
        omega
      have hsub : l ⊆ fs.dirs ++ fs.files.map Prod.fst := by
        intro p hp
        obtain ⟨i, hi, rfl⟩ := List.mem_map.1 hp
        have hi' := List.mem_range.1 hi
        have : fs.exists (dest ++ bs "/tmp/" ++ E.name (c + i + 1)) = true := by
          by_cases e : i = n
          · subst e; exact hex
          · exact h2 i (by omega)
        unfold Fs.exists at this
        rw [Bool.or_eq_true] at this
        rcases this with h | h
        · exact List.mem_append.2 (Or.inl (by simpa using h))
        · rw [List.any_eq_true] at h
          obtain ⟨f, hf, e⟩ := h
          exact List.mem_append.2 (Or.inr (List.mem_map.2 ⟨f, hf, by simpa using e⟩))
      have := List.Nodup.length_le_of_subset hnd hsub
      simp [l] at this
      omega

/-! ### Writing -/

theorem target_ne_tmp (dest a b : Str) (seen : Bool) : target dest a seen ≠ dest ++ bs "/tmp/" ++ b := by
  unfold target
  cases seen
  · simp only [Bool.false_eq_true, if_false, List.append_assoc]
    intro e
    exact absurd (List.append_inj (List.append_cancel_left e) (by decide)).1 (by decide)
  · simp only [if_true, List.append_assoc]
    intro e
    exact absurd (List.append_inj (List.append_cancel_left e) (by decide)).1 (by decide)

theorem target_inj {E : Env} {d d' : Str} {c c' : Nat} (h : target d (E.name c) true = target d' (E.name c') true) : c = c' := by
  -- the name is what follows the last slash
  unfold target at h
  simp only [if_true] at h
  have h1 := List.append_cancel_right (List.append_cancel_right h)
  have key : ∀ (a b x y : Str), (∀ c ∈ x, c ≠ 47) → (∀ c ∈ y, c ≠ 47) → a ++ bs "/cur/" ++ x = b ++ bs "/cur/" ++ y → x = y := by
    intro a b x y hx hy e
    have e2 := congrArg (fun l => (l.reverse.takeWhile (fun c => c != 47)).reverse) e
    have hz : ∀ (a x : Str), (∀ c ∈ x, c ≠ 47) → ((a ++ bs "/cur/" ++ x).reverse.takeWhile (fun c => c != 47)).reverse = x := by
      intro a x hx
      have : bs "/cur/" = [47, 99, 117, 114] ++ [47] := by decide +kernel
      rw [this]
      simp only [List.reverse_append, List.append_assoc]
      rw [List.takeWhile_append_of_pos (by intro c hc; simpa using hx c (by simpa using hc))]
      simp
    simp only [hz a x hx, hz b y hy] at e2
    exact e2
  exact name_inj E (key _ _ _ _ (fun c hc => (name_clean E _ c hc).1) (fun c hc => (name_clean E _ c hc).1) h1)

/-- What a state during a write is. -/
structure Safe (fs : Fs) (tmp to msg : Str) (s : Fs) : Prop where
  dirs : s.dirs = fs.dirs
  file : ∀ p, p ≠ tmp → s.get p = fs.get p ∨ (p = to ∧ fs.get p = none ∧ s.get p = some msg)

theorem safe_put (fs : Fs) (tmp to msg c : Str) : Safe fs tmp to msg (fs.put tmp c) :=
  ⟨rfl, fun p hp => Or.inl (by rw [get_put, if_neg hp])⟩

theorem safe_writing {fs : Fs} {tmp to msg c : Str} {k : Nat} {s : Fs} (h : s ∈ writing fs tmp c k) : Safe fs tmp to msg s := by
  unfold writing at h
  obtain ⟨i, _, rfl⟩ := List.mem_map.1 h
  exact safe_put _ _ _ _ _

/-- The counter after a write. -/
def next (E : Env) (fs : Fs) (dest : Str) (count : Nat) : Nat := uniq E fs dest (fs.dirs.length + fs.files.length) count

theorem write_safe (E : Env) (fs : Fs) (count : Nat) (dest msg : Str) (seen : Bool) (fault : Fault) :
    ∀ s ∈ (writeBuffer E fs count dest msg seen fault).trace,
      Safe fs (dest ++ bs "/tmp/" ++ E.name (next E fs dest count)) (target dest (E.name (next E fs dest count)) seen) msg s := by
  have hne := target_ne_tmp dest (E.name (next E fs dest count)) (E.name (next E fs dest count)) seen
  unfold next at hne ⊢
  intro s hs
  unfold writeBuffer at hs
  simp only at hs
  change s ∈ Res.trace (if (!isMaildir fs dest) = true then _ else _) at hs
  split at hs
  · cases hs
  · cases fault with
    | write k => exact safe_writing hs
    | link => simp only [if_true] at hs; exact safe_writing hs
    | none =>
      simp only [reduceCtorEq, if_false] at hs
      split at hs
      · exact safe_writing hs
      · rename_i hex
        have hex' := exists_iff.1 (Bool.eq_false_iff.2 hex)
        rw [get_put] at hex'
        have hex' : fs.get (target dest (E.name (uniq E fs dest (fs.dirs.length + fs.files.length) count)) seen) = none := (if_neg hne).symm.trans hex'.1
        rcases List.mem_append.1 hs with h | h
        · exact safe_writing h
        · simp only [List.mem_cons, List.not_mem_nil, or_false] at h
          rcases h with rfl | rfl
          · refine ⟨rfl, fun p hp => ?_⟩
            rw [get_cons]
            by_cases e : p = target dest (E.name (uniq E fs dest (fs.dirs.length + fs.files.length) count)) seen
            · exact Or.inr ⟨e, by rw [e]; exact hex', if_pos e⟩
            · left
              rw [if_neg e]
              exact (get_put _ _ _ _).trans (if_neg hp)
          · refine ⟨rfl, fun p hp => ?_⟩
            rw [get_delete, if_neg hp, get_cons]
            by_cases e : p = target dest (E.name (uniq E fs dest (fs.dirs.length + fs.files.length) count)) seen
            · exact Or.inr ⟨e, by rw [e]; exact hex', if_pos e⟩
            · left
              rw [if_neg e]
              exact (get_put _ _ _ _).trans (if_neg hp)
    | delete =>
      simp only [reduceCtorEq, if_false] at hs
      split at hs
      · exact safe_writing hs
      · rename_i hex
        have hex' := exists_iff.1 (Bool.eq_false_iff.2 hex)
        rw [get_put] at hex'
        have hex' : fs.get (target dest (E.name (uniq E fs dest (fs.dirs.length + fs.files.length) count)) seen) = none := (if_neg hne).symm.trans hex'.1
        simp only [if_true] at hs
        rcases List.mem_append.1 hs with h | h
        · exact safe_writing h
        · simp only [List.mem_cons, List.not_mem_nil, or_false] at h
          subst h
          refine ⟨rfl, fun p hp => ?_⟩
          rw [get_cons]
          by_cases e : p = target dest (E.name (uniq E fs dest (fs.dirs.length + fs.files.length) count)) seen
          · exact Or.inr ⟨e, by rw [e]; exact hex', if_pos e⟩
          · left
            rw [if_neg e]
            exact (get_put _ _ _ _).trans (if_neg hp)

theorem write_saved (E : Env) (fs : Fs) (count : Nat) (dest msg : Str) (seen : Bool) (hm : isMaildir fs dest = true)
    (hf : fs.exists (target dest (E.name (next E fs dest count)) seen) = false) :
    let r := writeBuffer E fs count dest msg seen .none
    r.fin = .done ∧ r.count = next E fs dest count ∧ (final fs r.trace).dirs = fs.dirs ∧
      ∀ p, (final fs r.trace).get p = if p = target dest (E.name (next E fs dest count)) seen then some msg else fs.get p := by
  have hne := target_ne_tmp dest (E.name (next E fs dest count)) (E.name (next E fs dest count)) seen
  have hfree := get_none_of (uniq_free E fs dest count)
  have hf' := exists_iff.1 hf
  have hex : (fs.put (dest ++ bs "/tmp/" ++ E.name (next E fs dest count)) msg).exists (target dest (E.name (next E fs dest count)) seen) = false := by
    rw [exists_iff, get_put, if_neg hne]
    exact hf'
  unfold writeBuffer
  simp only [hm, Bool.not_true, Bool.false_eq_true, if_false, reduceCtorEq]
  unfold next at *
  rw [if_neg (by rw [hex]; simp)]
  refine ⟨rfl, rfl, ?_, ?_⟩
  · simp [final]; rfl
  · intro p
    have : final fs (writing fs (dest ++ bs "/tmp/" ++ E.name (uniq E fs dest (fs.dirs.length + fs.files.length) count)) msg msg.length ++
        [⟨(fs.put (dest ++ bs "/tmp/" ++ E.name (uniq E fs dest (fs.dirs.length + fs.files.length) count)) msg).dirs,
          (target dest (E.name (uniq E fs dest (fs.dirs.length + fs.files.length) count)) seen, msg) ::
            (fs.put (dest ++ bs "/tmp/" ++ E.name (uniq E fs dest (fs.dirs.length + fs.files.length) count)) msg).files⟩,
          Fs.delete ⟨(fs.put (dest ++ bs "/tmp/" ++ E.name (uniq E fs dest (fs.dirs.length + fs.files.length) count)) msg).dirs,
          (target dest (E.name (uniq E fs dest (fs.dirs.length + fs.files.length) count)) seen, msg) ::
            (fs.put (dest ++ bs "/tmp/" ++ E.name (uniq E fs dest (fs.dirs.length + fs.files.length) count)) msg).files⟩
            (dest ++ bs "/tmp/" ++ E.name (uniq E fs dest (fs.dirs.length + fs.files.length) count))]) =
        Fs.delete ⟨(fs.put (dest ++ bs "/tmp/" ++ E.name (uniq E fs dest (fs.dirs.length + fs.files.length) count)) msg).dirs,
          (target dest (E.name (uniq E fs dest (fs.dirs.length + fs.files.length) count)) seen, msg) ::
            (fs.put (dest ++ bs "/tmp/" ++ E.name (uniq E fs dest (fs.dirs.length + fs.files.length) count)) msg).files⟩
            (dest ++ bs "/tmp/" ++ E.name (uniq E fs dest (fs.dirs.length + fs.files.length) count)) := by
      simp [final]
    rw [this, get_delete]
    by_cases e : p = dest ++ bs "/tmp/" ++ E.name (uniq E fs dest (fs.dirs.length + fs.files.length) count)
    · rw [if_pos e, if_neg (by rw [e]; exact fun h => hne h.symm), e, hfree.1]
    · rw [if_neg e, get_cons]
      by_cases e2 : p = target dest (E.name (uniq E fs dest (fs.dirs.length + fs.files.length) count)) seen
      · rw [if_pos e2, if_pos e2]
      · rw [if_neg e2, if_neg e2]
        exact (get_put _ _ _ _).trans (if_neg e)

/-- If it ends without an error the message is there, or there was something else. -/
theorem write_done (E : Env) (fs : Fs) (count : Nat) (dest msg : Str) (seen : Bool) (fault : Fault)
    (h : (writeBuffer E fs count dest msg seen fault).fin = .done)
    (hf : fs.exists (target dest (E.name (next E fs dest count)) seen) = false) : fault = .none ∧ isMaildir fs dest = true := by
  have hne := target_ne_tmp dest (E.name (next E fs dest count)) (E.name (next E fs dest count)) seen
  have hf' := exists_iff.1 hf
  have hex : (fs.put (dest ++ bs "/tmp/" ++ E.name (next E fs dest count)) msg).exists (target dest (E.name (next E fs dest count)) seen) = false := by
    rw [exists_iff, get_put, if_neg hne]
    exact hf'
  unfold next at hex
  unfold writeBuffer at h
  simp only at h
  cases hm : isMaildir fs dest
  · simp [hm] at h
  · simp only [hm, Bool.not_true, Bool.false_eq_true, if_false] at h
    cases fault with
    | none => exact ⟨rfl, rfl⟩
    | write k => cases h
    | link => simp at h
    | delete =>
      simp only [reduceCtorEq, if_false, hex, Bool.false_eq_true, if_true] at h

theorem write_not_asking (E : Env) (fs : Fs) (count : Nat) (dest msg : Str) (seen : Bool) (fault : Fault) :
    (writeBuffer E fs count dest msg seen fault).fin ≠ .asking := by
  unfold writeBuffer
  simp only
  split
  · simp
  · split
    · simp
    · split
      · simp
      · split
        · simp
        · split <;> simp

theorem write_count (E : Env) (fs : Fs) (count : Nat) (dest msg : Str) (seen : Bool) (fault : Fault) :
    (writeBuffer E fs count dest msg seen fault).count = next E fs dest count := by
  unfold writeBuffer next
  simp only
  split
  · rfl
  · split
    · rfl
    · split
      · rfl
      · split
        · rfl
        · split <;> rfl

end Notmuch.Fcc
