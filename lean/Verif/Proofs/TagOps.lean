import Verif.Base.ListLemmas
import Verif.Proofs.Hex
import Verif.Spec.TagOps

namespace Notmuch.TagUtil
open TagSpec StringUtil

theorem unnamed_cons {o ops t} : Unnamed (o :: ops) t ↔ o.tag ≠ t ∧ Unnamed ops t := by
  simp [Unnamed]

theorem lastIs_nil {t b} : ¬ LastIs [] t b := by
  rintro ⟨pre, op, post, h, _⟩; simp at h

theorem lastIs_cons {o ops t b} :
    LastIs (o :: ops) t b ↔ LastIs ops t b ∨ (Unnamed ops t ∧ o.tag = t ∧ o.remove = b) := by
  constructor
  · rintro ⟨pre, op, post, h, ht, hr, hp⟩
    cases pre with
    | nil =>
      simp at h; obtain ⟨rfl, rfl⟩ := h
      exact Or.inr ⟨hp, ht, hr⟩
    | cons a pre =>
      simp at h; obtain ⟨rfl, rfl⟩ := h
      exact Or.inl ⟨pre, op, post, rfl, ht, hr, hp⟩
  · rintro (⟨pre, op, post, rfl, ht, hr, hp⟩ | ⟨hu, ht, hr⟩)
    · exact ⟨o :: pre, op, post, rfl, ht, hr, hp⟩
    · exact ⟨[], o, ops, rfl, ht, hr, hu⟩

theorem lastIs_or_unnamed (ops : List TagOp) (t : Str) :
    LastIs ops t true ∨ LastIs ops t false ∨ Unnamed ops t := by
  induction ops with
  | nil => right; right; simp [Unnamed]
  | cons o ops ih =>
    simp only [lastIs_cons, unnamed_cons]
    rcases ih with h | h | h
    · exact Or.inl (Or.inl h)
    · exact Or.inr (Or.inl (Or.inl h))
    · by_cases ht : o.tag = t
      · cases hr : o.remove
        · exact Or.inr (Or.inl (Or.inr ⟨h, ht, rfl⟩))
        · exact Or.inl (Or.inr ⟨h, ht, rfl⟩)
      · exact Or.inr (Or.inr ⟨ht, h⟩)

theorem lastIs_not_unnamed {ops t b} (h : LastIs ops t b) : ¬ Unnamed ops t := by
  obtain ⟨pre, op, post, rfl, ht, _, _⟩ := h
  intro hu; exact hu op (by simp) ht

theorem lastIs_unique {ops t b b'} (h : LastIs ops t b) (h' : LastIs ops t b') : b = b' := by
  induction ops with
  | nil => exact absurd h lastIs_nil
  | cons o ops ih =>
    rw [lastIs_cons] at h h'
    rcases h with h | ⟨hu, ht, hr⟩
    · rcases h' with h' | ⟨hu', _, _⟩
      · exact ih h h'
      · exact absurd hu' (lastIs_not_unnamed h)
    · rcases h' with h' | ⟨_, _, hr'⟩
      · exact absurd hu (lastIs_not_unnamed h')
      · rw [← hr, hr']

theorem applyLoop_isSome (ops : List TagOp) (h : Lengths ops) : ∀ tags,
    ∃ r, applyLoop ops tags = some r := by
  induction ops with
  | nil => intro tags; exact ⟨_, rfl⟩
  | cons o ops ih =>
    intro tags
    have ho : ¬ o.tag.length > tagMax := by
      have := h o (by simp); unfold tagMax; omega
    have ih := ih (fun o ho => h o (by simp [ho]))
    unfold applyLoop
    cases o.remove
    · simp only [Bool.false_eq_true, if_false, addTag, ho]
      split <;> first | exact ih _ | (rename_i hx; split at hx <;> simp at hx)
    · simp only [if_true, removeTag, ho, if_false]
      exact ih _

theorem applyLoop_fail (ops : List TagOp) (h : ¬ Lengths ops) : ∀ tags,
    applyLoop ops tags = none := by
  induction ops with
  | nil => exact absurd (by simp [Lengths]) h
  | cons o ops ih =>
    intro tags
    unfold applyLoop
    by_cases ho : o.tag.length > tagMax
    · cases o.remove <;> simp [addTag, removeTag, ho]
    · have h' : ¬ Lengths ops := by
        intro hl; apply h
        intro x hx
        simp at hx
        rcases hx with rfl | hx
        · unfold tagMax at ho; omega
        · exact hl x hx
      split
      · rfl
      · exact ih h' _

theorem mem_addTag {tags t r} (h : addTag tags t = some r) (x : Str) :
    x ∈ r ↔ x = t ∨ x ∈ tags := by
  unfold addTag at h
  split at h
  · simp at h
  · split at h
    · rename_i hm
      simp at h; subst h
      exact ⟨Or.inr, fun h => h.elim (fun e => e ▸ hm) id⟩
    · simp at h; subst h; simp [or_comm]

theorem mem_removeTag {tags t r} (h : removeTag tags t = some r) (x : Str) :
    x ∈ r ↔ x ≠ t ∧ x ∈ tags := by
  unfold removeTag at h
  split at h
  · simp at h
  · simp at h; subst h; simp [and_comm]

theorem applyLoop_mem (ops : List TagOp) : ∀ tags r, applyLoop ops tags = some r → ∀ t,
    (t ∈ r ↔ LastIs ops t false ∨ (Unnamed ops t ∧ t ∈ tags)) := by
  induction ops with
  | nil =>
    intro tags r h t
    simp [applyLoop] at h; subst h
    simp [lastIs_nil, Unnamed]
  | cons o ops ih =>
    intro tags r h t
    unfold applyLoop at h
    split at h
    · simp at h
    · rename_i tags' h'
      rw [ih tags' r h t, lastIs_cons, unnamed_cons]
      have key : t ∈ tags' ↔ (o.tag = t ∧ o.remove = false) ∨ (o.tag ≠ t ∧ t ∈ tags) := by
        cases hr : o.remove
        · simp only [hr, Bool.false_eq_true, if_false] at h'
          rw [mem_addTag h']
          constructor
          · rintro (rfl | hm)
            · exact Or.inl ⟨rfl, rfl⟩
            · by_cases e : o.tag = t
              · exact Or.inl ⟨e, rfl⟩
              · exact Or.inr ⟨e, hm⟩
          · rintro (⟨rfl, _⟩ | ⟨_, hm⟩)
            · exact Or.inl rfl
            · exact Or.inr hm
        · simp only [hr, if_true] at h'
          rw [mem_removeTag h']
          simp only [Bool.true_eq_false, and_false, false_or]
          exact and_congr_left (fun _ => ⟨Ne.symm, Ne.symm⟩)
      rw [key]
      constructor
      · rintro (h | ⟨hu, ⟨e, hr⟩ | ⟨e, hm⟩⟩)
        · exact Or.inl (Or.inl h)
        · exact Or.inl (Or.inr ⟨hu, e, hr⟩)
        · exact Or.inr ⟨⟨e, hu⟩, hm⟩
      · rintro ((h | ⟨hu, e, hr⟩) | ⟨⟨e, hu⟩, hm⟩)
        · exact Or.inl h
        · exact Or.inr ⟨hu, Or.inl ⟨e, hr⟩⟩
        · exact Or.inr ⟨hu, Or.inr ⟨e, hm⟩⟩

theorem find_reverse_lastIs (ops : List TagOp) (t : Str) (o : TagOp)
    (h : ops.reverse.find? (fun o => o.tag == t) = some o) : LastIs ops t o.remove := by
  induction ops with
  | nil => simp at h
  | cons a ops ih =>
    rw [List.reverse_cons, List.find?_append] at h
    rw [lastIs_cons]
    cases hf : ops.reverse.find? (fun o => o.tag == t) with
    | some o' => rw [hf] at h; simp at h; subst h; exact Or.inl (ih hf)
    | none =>
      rw [hf] at h
      simp only [Option.none_or, List.find?_singleton] at h
      split at h
      · rename_i ha
        simp at h ha; subst h
        right
        refine ⟨?_, ha, rfl⟩
        rw [List.find?_eq_none] at hf
        intro x hx
        have := hf x (by simpa using hx)
        simpa using this
      · simp at h

theorem find_reverse_unnamed (ops : List TagOp) (t : Str)
    (h : ops.reverse.find? (fun o => o.tag == t) = none) : Unnamed ops t := by
  rw [List.find?_eq_none] at h
  intro x hx
  have := h x (by simpa using hx)
  simpa using this

/-- `lastOp = -1` means that `t` does not survive. -/
theorem lastOp_neg (ops : List TagOp) (ra : Bool) (tags : List Str) (t : Str) (ht : t ∈ tags) :
    lastOp ra t ops = -1 ↔ ¬ Final ops ra tags t := by
  unfold lastOp
  split
  · rename_i o ho
    have hl := find_reverse_lastIs ops t o ho
    cases hr : o.remove
    · rw [hr] at hl
      simp only [Bool.false_eq_true, if_false]
      simp [Final, hl]
    · rw [hr] at hl
      simp only [if_true, true_iff]
      rintro (h | ⟨h, _⟩)
      · exact absurd (lastIs_unique hl h) (by simp)
      · exact lastIs_not_unnamed hl h
  · rename_i hn
    have hu := find_reverse_unnamed ops t hn
    cases ra
    · simp [Final, hu, ht]
    · simp only [if_true, true_iff]
      rintro (h | ⟨_, h, _⟩)
      · exact lastIs_not_unnamed h hu
      · simp at h

theorem makesChanges_false (tags : List Str) (ops : List TagOp) (ra : Bool)
    (h : makesChanges tags ops ra = false) (t : Str) : Final ops ra tags t ↔ t ∈ tags := by
  unfold makesChanges at h
  rw [Bool.or_eq_false_iff, List.any_eq_false, List.any_eq_false] at h
  obtain ⟨h1, h2⟩ := h
  constructor
  · rintro (⟨pre, op, post, rfl, ht, hr, hp⟩ | ⟨_, _, h⟩)
    · have := h2 op (by simp)
      simp [hr] at this
      exact ht ▸ this
    · exact h
  · intro ht
    have := h1 t ht
    rw [beq_iff_eq, lastOp_neg ops ra tags t ht] at this
    exact Classical.not_not.1 this

theorem opListApply_spec (tags : List Str) (ops : List TagOp) (ra pre : Bool) (r : List Str)
    (h : opListApply tags ops ra pre = some r) (t : Str) : t ∈ r ↔ Final ops ra tags t := by
  unfold opListApply at h
  split at h
  · rename_i hc
    simp at h; subst h
    simp at hc
    exact (makesChanges_false tags ops ra hc.2 t).symm
  · rw [applyLoop_mem ops _ r h t]
    unfold Final
    cases ra <;> simp

/-! ### Batch lines -/

theorem strtok_token {d : UInt8 → Bool} {tok rest : Str} (hne : tok ≠ [])
    (ht : ∀ c ∈ tok, d c = false) (hr : ∀ c, rest.head? = some c → d c = true) :
    strtokLen d (tok ++ rest) = some (tok, rest) := by
  have hdrop : (tok ++ rest).dropWhile d = tok ++ rest := by
    apply dropWhile_eq_self_of_head
    intro c hc
    cases tok with
    | nil => exact absurd rfl hne
    | cons a tok => exact ht c (by simp at hc; simp [hc])
  have hall : ∀ a ∈ tok, (!d a) = true := by intro a ha; simp [ht a ha]
  unfold strtokLen
  simp only [hdrop]
  have h1 : (tok ++ rest).takeWhile (fun c => !d c) = tok := by
    cases rest with
    | nil => simp [takeWhile_eq_self_of _ _ hall]
    | cons x r => exact takeWhile_append_stop _ _ _ _ hall (by simp [hr x rfl])
  have h2 : (tok ++ rest).dropWhile (fun c => !d c) = rest := by
    cases rest with
    | nil => simp [dropWhile_eq_nil_of _ _ hall]
    | cons x r => exact dropWhile_append_stop _ _ _ _ hall (by simp [hr x rfl])
  rw [h1, h2]
  simp [hne]

theorem strtok_skip {d : UInt8 → Bool} {c : UInt8} (hc : d c = true) (s : Str) :
    strtokLen d (c :: s) = strtokLen d s := by
  unfold strtokLen; simp [hc]

theorem encode_no_space (t : Str) : ∀ c ∈ Hex.encode t, (c == 32) = false := by
  intro c hc
  have := Hex.encode_safe t c hc
  clear hc
  revert this; revert c
  apply forall_byte; unfold HexSpec.SafeChar; decide +kernel

theorem decode_encode (t : Str) : Hex.decode (Hex.encode t) = some t := by
  simp [Hex.decode, Hex.decodeRun_encode]

theorem cstr_self {t : Str} (h : 0 ∉ t) : cstr t = t := by
  apply takeWhile_eq_self_of
  intro a ha; simp; rintro rfl; exact h ha

theorem encode_eq_singleton_dash : ∀ t : Str, Hex.encode t = [45] → t = [45] := by
  intro t h
  have := decode_encode t
  rw [h] at this
  have e : Hex.decode [45] = some [45] := by decide +kernel
  rw [e] at this
  simpa using this.symm

theorem encode_head_dash (t : Str) (h : (Hex.encode t).head? = some 45) : t.head? = some 45 := by
  cases t with
  | nil => simp [Hex.encode] at h
  | cons c t =>
    unfold Hex.encode at h
    split at h
    · simpa using h
    · simp [Hex.escapeByte, Hex.escapeChar] at h

theorem encode_eq_nil (t : Str) (h : Hex.encode t = []) : t = [] := by
  cases t with
  | nil => rfl
  | cons c t =>
    unfold Hex.encode at h
    split at h <;> simp [Hex.escapeByte] at h

/-- One step of the token loop on a well-formed operation. -/
theorem parseTags_op (g : Bool) (o : TagOp) (h0 : 0 ∉ o.tag)
    (hm : ¬ (o.remove = true ∧ o.tag = [45]))
    (hl : g = false → illegalTag o.tag o.remove = false) (r : Str) (acc : List TagOp) :
    parseTags g (opText Hex.encode o ++ 32 :: r) acc = parseTags g r (acc ++ [o]) := by
  have htok : strtokLen (· == 32) (opText Hex.encode o ++ 32 :: r) =
      some (opText Hex.encode o, 32 :: r) := by
    apply strtok_token
    · simp [opText]
    · intro c hc
      unfold opText at hc
      simp at hc
      rcases hc with rfl | hc
      · cases o.remove <;> decide
      · exact encode_no_space _ c hc
    · intro c hc; simp at hc; subst hc; decide
  rw [parseTags]
  split
  · rename_i h; rw [htok] at h; simp at h
  · rename_i tok rest h
    rw [htok] at h
    simp at h
    obtain ⟨rfl, rfl⟩ := h
    have hne : opText Hex.encode o ≠ [45, 45] := by
      intro h
      unfold opText at h
      simp at h
      obtain ⟨h1, h2⟩ := h
      cases hr : o.remove
      · simp [hr] at h1
      · exact hm ⟨hr, encode_eq_singleton_dash _ h2⟩
    rw [if_neg hne]
    have hhead : ¬ ((opText Hex.encode o).head? ≠ some 45 ∧ (opText Hex.encode o).head? ≠ some 43) := by
      unfold opText; cases o.remove <;> simp
    rw [if_neg hhead]
    simp only
    have hrem : ((opText Hex.encode o).head? == some 45) = o.remove := by
      unfold opText; cases o.remove <;> rfl
    have htail : (opText Hex.encode o).tail = Hex.encode o.tag := by simp [opText]
    rw [hrem, htail]
    have hill : (!g && illegalTag (Hex.encode o.tag) o.remove) = false := by
      cases g
      · have := hl rfl
        simp only [Bool.not_false, Bool.true_and]
        unfold illegalTag at this ⊢
        cases hr : o.remove
        · rw [hr] at this
          simp only [Bool.not_false, Bool.and_true, Bool.or_eq_false_iff] at this ⊢
          refine ⟨?_, ?_⟩
          · by_cases e : Hex.encode o.tag = []
            · have := encode_eq_nil _ e; simp_all
            · simpa using e
          · by_cases e : (Hex.encode o.tag).head? = some 45
            · have := encode_head_dash _ e; simp_all
            · simpa using e
        · simp
      · simp
    rw [hill]
    simp only [Bool.false_eq_true, if_false, decode_encode, cstr_self h0]

theorem parseTags_end (g : Bool) (q : Str) (acc : List TagOp) (hq : q ≠ [])
    (hh : q.head? ≠ some 32) :
    parseTags g ([45, 45, 32] ++ q) acc = .ok acc q := by
  have htok : strtokLen (· == 32) ([45, 45, 32] ++ q) = some ([45, 45], 32 :: q) := by
    have := strtok_token (d := (· == 32)) (tok := [45, 45]) (rest := 32 :: q) (by simp)
      (by decide) (by intro c hc; simp at hc; subst hc; decide)
    simpa using this
  have htok2 : ∃ t r, strtokLen (· == 32) (32 :: q) = some (t, r) ∧ t ++ r = q := by
    rw [strtok_skip (by decide)]
    unfold strtokLen
    have hd : q.dropWhile (· == 32) = q := by
      apply dropWhile_eq_self_of_head
      intro c hc
      rw [beq_eq_false_iff_ne]; rintro rfl; exact hh hc
    simp only [hd]
    have : (q.takeWhile (fun c => !(c == 32))).isEmpty = false := by
      cases q with
      | nil => exact absurd rfl hq
      | cons a q =>
        have : a ≠ 32 := by intro e; exact hh (by simp [e])
        simp [this]
    simp only [this, Bool.false_eq_true, if_false]
    exact ⟨_, _, rfl, List.takeWhile_append_dropWhile⟩
  rw [parseTags]
  split
  · rename_i h; rw [htok] at h; simp at h
  · rename_i tok rest h
    rw [htok] at h
    simp at h
    obtain ⟨rfl, rfl⟩ := h
    obtain ⟨t, r, e, hc⟩ := htok2
    simp [e, hc]

theorem opText_head (o : TagOp) : ∃ c t, opText Hex.encode o = c :: t ∧ (c = 45 ∨ c = 43) := by
  unfold opText; cases o.remove <;> simp

theorem opsText_cons_append (o : TagOp) (os : List TagOp) (r : Str) :
    opsText Hex.encode (o :: os) ++ 32 :: r =
      opText Hex.encode o ++ 32 :: (match os with | [] => r | _ => opsText Hex.encode os ++ 32 :: r) := by
  cases os <;> simp [opsText]

theorem parseTags_ops (g : Bool) (q : Str) (hq : q ≠ []) (hh : q.head? ≠ some 32) (ops : List TagOp) :
    ∀ acc, ops ≠ [] → (∀ o ∈ ops, 0 ∉ o.tag ∧ ¬ (o.remove = true ∧ o.tag = [45]) ∧
      (g = false → illegalTag o.tag o.remove = false)) →
    parseTags g (opsText Hex.encode ops ++ 32 :: ([45, 45, 32] ++ q)) acc = .ok (acc ++ ops) q := by
  induction ops with
  | nil => intro acc h; exact absurd rfl h
  | cons o os ih =>
    intro acc _ h
    obtain ⟨h0, hm, hl⟩ := h o (by simp)
    rw [opsText_cons_append, parseTags_op g o h0 hm hl]
    cases os with
    | nil =>
      simp only
      rw [parseTags_end g q _ hq hh]
    | cons o' os =>
      simp only
      rw [ih (acc ++ [o]) (by simp) (fun x hx => h x (by simp [hx]))]
      simp

theorem chomp_append (s : Str) : chomp (s ++ [10]) = s := by
  unfold chomp; simp

theorem parseTagLine_line (g : Bool) (ops : List TagOp) (q : Str) (hq : q ≠ [])
    (hh : q.head? ≠ some 32)
    (h : ∀ o ∈ ops, 0 ∉ o.tag ∧ ¬ (o.remove = true ∧ o.tag = [45]) ∧
      (g = false → illegalTag o.tag o.remove = false)) :
    parseTagLine g (lineText Hex.encode ops q) = .ok ops q := by
  unfold parseTagLine lineText
  rw [chomp_append]
  cases ops with
  | nil =>
    have : (opsText Hex.encode [] ++ [32, 45, 45, 32] ++ q).dropWhile (fun c => c == 32 || c == 9) =
        45 :: ([45, 32] ++ q) := by simp [opsText]
    simp only [this]
    rw [if_neg (by decide)]
    have := parseTags_end g q [] hq hh
    simpa using this
  | cons o os =>
    obtain ⟨c, t, e, hc⟩ := opText_head o
    have e2 : opsText Hex.encode (o :: os) ++ [32, 45, 45, 32] ++ q =
        opsText Hex.encode (o :: os) ++ 32 :: ([45, 45, 32] ++ q) := by simp
    obtain ⟨t', e3⟩ : ∃ t', opsText Hex.encode (o :: os) ++ 32 :: ([45, 45, 32] ++ q) = c :: t' := by
      rw [opsText_cons_append, e]; exact ⟨_, rfl⟩
    have hd : (opsText Hex.encode (o :: os) ++ [32, 45, 45, 32] ++ q).dropWhile
        (fun c => c == 32 || c == 9) = c :: t' := by
      rw [e2, e3]
      rcases hc with rfl | rfl <;> simp
    simp only [hd]
    rw [if_neg (by rcases hc with rfl | rfl <;> decide)]
    rw [← e3, parseTags_ops g q hq hh (o :: os) [] (by simp) h]
    simp

/-! ### Query rewriting -/

/-- These tags are asked for as they are. -/
def Exact (leaf : Str → Option (List Str → Bool)) (ops : List TagOp) : Prop := ∀ o ∈ ops, leaf o.tag = some (fun tags => tags.contains o.tag)

theorem exact_all {leaf : Str → Option (List Str → Bool)} {ops : List TagOp} (h : Exact leaf ops) : ops.all (fun o => (leaf o.tag).isSome) = true := by
  rw [List.all_eq_true]
  intro o ho
  rw [h o ho]
  rfl

theorem exact_infix {rx : Str → Option (Str → Bool)} {ops : List TagOp} (h : ∀ o ∈ ops, o.tag.head? ≠ some 47 ∧ o.tag.getLast? ≠ some 47) : Exact (infixLeaf rx) ops := by
  intro o ho
  have := h o ho
  unfold infixLeaf
  rw [if_neg this.1, if_neg (fun h' => this.2 h'.2)]

theorem evalAny_map {leaf : Str → Option (List Str → Bool)} (m : Bool) (tags : List Str) (ops : List TagOp) (h : Exact leaf ops) :
    Q.evalAny leaf m tags (ops.map opCond) =
      ops.any (fun o => if o.remove then tags.contains o.tag else !tags.contains o.tag) := by
  induction ops with
  | nil => rfl
  | cons o ops ih =>
    simp only [List.map_cons, Q.evalAny, ih (fun x hx => h x (List.mem_cons_of_mem _ hx)), List.any_cons]
    congr 1
    unfold opCond
    cases o.remove <;> simp [Q.eval, leafOf, h o (List.mem_cons_self ..)]

theorem eval_infix {leaf : Str → Option (List Str → Bool)} (star : Bool) (ops : List TagOp) (m : Bool) (tags : List Str)
    (hs : star = true → m = true) (h : Exact leaf ops) :
    (optimizeInfix star ops).eval leaf m tags =
      (m && (ops.isEmpty || ops.any (fun o => if o.remove then tags.contains o.tag
        else !tags.contains o.tag))) := by
  unfold optimizeInfix
  cases he : ops.isEmpty
  · cases star
    · simp [Q.eval, Q.evalAll, evalAny_map m tags ops h]
    · simp [Q.eval, evalAny_map true tags ops h, hs rfl]
  · simp [Q.eval]

/-- Not selected by the OR condition: nothing changes. -/
theorem unselected_unchanged (ops : List TagOp) (tags : List Str)
    (h : ops.any (fun o => if o.remove then tags.contains o.tag else !tags.contains o.tag) = false)
    (t : Str) : Final ops false tags t ↔ t ∈ tags := by
  rw [List.any_eq_false] at h
  constructor
  · rintro (⟨pre, op, post, rfl, ht, hr, hp⟩ | ⟨_, _, h⟩)
    · have := h op (by simp)
      simp [hr] at this
      exact ht ▸ this
    · exact h
  · intro ht
    rcases lastIs_or_unnamed ops t with hl | hl | hl
    · obtain ⟨pre, op, post, rfl, ht', hr, _⟩ := hl
      have := h op (by simp)
      simp [hr, ht'] at this
      exact absurd ht this
    · exact Or.inl hl
    · exact Or.inr ⟨hl, rfl, ht⟩

end Notmuch.TagUtil
