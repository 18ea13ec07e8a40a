import Verif.Proofs.GitStatus
import Verif.Props.TagOps

/-! # notmuch-git: the batch lines of a checkout -/

namespace Notmuch.GitProof
open Notmuch.Git Notmuch.GitSpec Notmuch.StringUtil Notmuch.TagUtil Notmuch.TagSpec

theorem decodeRun_codes (safe : UInt8 → Bool) (h : safe 37 = false) (s r : Str) :
    Hex.decodeRun (codes safe s ++ r) = (s ++ (Hex.decodeRun r).1, (Hex.decodeRun r).2) := by
  induction s with
  | nil => rfl
  | cons c s ih =>
    unfold codes
    rw [List.flatMap_cons, List.append_assoc]
    change Hex.decodeRun (code safe c ++ (codes safe s ++ r)) = _
    unfold code
    by_cases hc : safe c = true
    · rw [if_pos hc]
      have h37 : c ≠ Hex.escapeChar := by rintro rfl; simp [Hex.escapeChar, h] at hc
      rw [List.singleton_append, Hex.decodeRun_lit h37, ih]; rfl
    · rw [if_neg hc]
      simp only [Hex.escapeByte, List.cons_append, List.nil_append]
      rw [Hex.decodeRun_esc (Hex.hexDigit_isX c).1 (Hex.hexDigit_isX c).2, ih, Hex.hexDigit_val]

/-- The text of a tag in a batch line. -/
def body (E : Env) (t : Str) : Str := encodedPrefix E.pre ++ hexQuote t

/-- The safe bytes of the prefix. -/
def preSafe (c : UInt8) : Bool := alwaysSafe c || (bs "+@=,").contains c

theorem encodedPrefix_codes (p : Str) : encodedPrefix p = codes preSafe p := hexQuoteSafe_eq _ (by decide) p

theorem decode_body (E : Env) (t : Str) : Hex.decode (body E t) = some (E.pre ++ t) := by
  unfold Hex.decode body
  rw [encodedPrefix_codes, hexQuote_eq, decodeRun_codes _ (by decide)]
  have := decodeRun_codes fileSafe (by decide) t []
  rw [List.append_nil] at this
  rw [this]
  simp [Hex.decodeRun]

theorem code_pre : ∀ c : UInt8, (code preSafe c).head? = some 45 → c = 45 := by
  apply forall_byte; decide +kernel

theorem code_file_dash : ∀ c : UInt8, (code fileSafe c).head? = some 45 → c = 45 := by
  apply forall_byte; decide +kernel

theorem code_pre_chars : ∀ c : UInt8, ∀ d ∈ code preSafe c, d ≠ 32 := by
  apply forall_byte; decide +kernel

theorem code_ne (safe : UInt8 → Bool) (c : UInt8) : code safe c ≠ [] := by
  unfold code Hex.escapeByte; split <;> simp

theorem head_append_ne {a b : Str} (h : a ≠ []) : (a ++ b).head? = a.head? := by
  cases a with
  | nil => exact absurd rfl h
  | cons x a => rfl

theorem body_dash {E : Env} {t : Str} (h : (body E t).head? = some 45) : (E.pre ++ t).head? = some 45 := by
  unfold body at h
  rw [encodedPrefix_codes, hexQuote_eq] at h
  cases hp : E.pre with
  | nil =>
    rw [hp] at h
    simp only [codes, List.flatMap_nil, List.nil_append] at h
    cases t with
    | nil => simp at h
    | cons c t =>
      rw [List.flatMap_cons, head_append_ne (code_ne _ _)] at h
      simp [code_file_dash c h]
  | cons c p =>
    rw [hp] at h
    unfold codes at h
    rw [List.flatMap_cons, List.append_assoc, head_append_ne (code_ne _ _)] at h
    simp [code_pre c h]

theorem body_nil {E : Env} {t : Str} (h : body E t = []) : E.pre ++ t = [] := by
  have := decode_body E t
  rw [h] at this
  have e : Hex.decode [] = some [] := by decide +kernel
  rw [e] at this
  simpa using this.symm

theorem body_one {E : Env} {t : Str} (h : body E t = [45]) : E.pre ++ t = [45] := by
  have := decode_body E t
  rw [h] at this
  have e : Hex.decode [45] = some [45] := by decide +kernel
  rw [e] at this
  simpa using this.symm

theorem body_no_space (E : Env) (t : Str) : ∀ c ∈ body E t, (c == 32) = false := by
  intro c hc
  unfold body at hc
  rw [encodedPrefix_codes] at hc
  simp only [List.mem_append] at hc
  simp only [beq_eq_false_iff_ne]
  rcases hc with hc | hc
  · unfold codes at hc
    simp only [List.mem_flatMap] at hc
    obtain ⟨d, _, hc⟩ := hc
    exact code_pre_chars d c hc
  · intro e
    subst e
    exact absurd (hexQuote_chars t 32 hc).2.1 (by decide)

/-- The operation of a tag. -/
def opOf (E : Env) (add : Bool) (t : Str) : TagOp := ⟨E.pre ++ t, !add⟩

/-- The sign. -/
def signOf (add : Bool) : UInt8 := if add then 43 else 45

/-- What is asked of a tag. -/
def Legal (add : Bool) (t : Str) : Prop := if add then Addable t else Removable t

theorem legal_removable {add : Bool} {t : Str} (h : Legal add t) : Removable t := by
  cases add with
  | true => exact h.1
  | false => exact h

theorem parseTags_body (E : Env) (add : Bool) (t : Str) (hl : Legal add (E.pre ++ t)) (r : Str) (acc : List TagOp) :
    parseTags false ((signOf add :: body E t) ++ 32 :: r) acc = parseTags false r (acc ++ [opOf E add t]) := by
  have htok : strtokLen (· == 32) ((signOf add :: body E t) ++ 32 :: r) = some (signOf add :: body E t, 32 :: r) := by
    apply strtok_token
    · simp
    · intro c hc
      simp only [List.mem_cons] at hc
      rcases hc with rfl | hc
      · cases add <;> decide
      · exact body_no_space E t c hc
    · intro c hc; simp at hc; subst hc; decide
  have hrm := legal_removable hl
  rw [parseTags]
  split
  · rename_i h; rw [htok] at h; simp at h
  · rename_i tok rest h
    rw [htok] at h
    simp only [Option.some.injEq, Prod.mk.injEq] at h
    obtain ⟨rfl, rfl⟩ := h
    have hne : signOf add :: body E t ≠ [45, 45] := by
      intro h
      simp only [List.cons.injEq] at h
      exact hrm.2.2.1 (body_one h.2)
    rw [if_neg hne, if_neg (by cases add <;> simp [signOf])]
    simp only
    have hrem : ((signOf add :: body E t).head? == some 45) = !add := by cases add <;> rfl
    rw [hrem, List.tail_cons]
    have hill : (!false && illegalTag (body E t) (!add)) = false := by
      cases add with
      | false => simp [illegalTag]
      | true =>
        simp only [illegalTag, Bool.not_true, Bool.not_false, Bool.and_true, Bool.true_and, Bool.or_eq_false_iff]
        refine ⟨?_, ?_⟩
        · cases e : body E t with
          | nil => exact absurd (body_nil e) hl.2.1
          | cons _ _ => rfl
        · simp only [beq_eq_false_iff_ne]
          intro e
          exact hl.2.2 (body_dash e)
    rw [hill]
    simp only [Bool.false_eq_true, if_false, decode_body, cstr_self hrm.1]
    rfl

theorem parseTags_batch (E : Env) (add : Bool) (q : Str) (hq : q ≠ []) (hh : q.head? ≠ some 32) (tags : List Str) :
    ∀ acc, tags ≠ [] → (∀ t ∈ tags, Legal add (E.pre ++ t)) →
      parseTags false (batchTags E (signOf add) tags ++ 32 :: ([45, 45, 32] ++ q)) acc = .ok (acc ++ tags.map (opOf E add)) q := by
  induction tags with
  | nil => intro acc h; exact absurd rfl h
  | cons t ts ih =>
    intro acc _ h
    cases ts with
    | nil =>
      simp only [batchTags]
      have := parseTags_body E add t (h t (by simp)) ([45, 45, 32] ++ q) acc
      unfold body at this
      rw [this, TagUtil.parseTags_end false q _ hq hh]
      rfl
    | cons u ts =>
      have e : batchTags E (signOf add) (t :: u :: ts) ++ 32 :: ([45, 45, 32] ++ q) =
          (signOf add :: body E t) ++ 32 :: (batchTags E (signOf add) (u :: ts) ++ 32 :: ([45, 45, 32] ++ q)) := by
        rw [batchTags]
        · simp only [body, List.append_assoc, List.cons_append]
        · simp
      rw [e, parseTags_body E add t (h t (by simp)), ih _ (by simp) (fun x hx => h x (by simp [hx]))]
      simp

/-- The query of a batch line. -/
def idQuery (id : Str) : Str := bs "id:" ++ xapianQuote id

theorem parse_batchLine (E : Env) (add : Bool) (id : Str) (tags : List Str) (hne : tags ≠ []) (hl : ∀ t ∈ tags, Legal add (E.pre ++ t)) :
    parseTagLine false (batchLine E (signOf add) id tags) = .ok (tags.map (opOf E add)) (idQuery id) := by
  have e : batchLine E (signOf add) id tags = (batchTags E (signOf add) tags ++ 32 :: ([45, 45, 32] ++ idQuery id)) ++ [10] := by
    unfold batchLine idQuery
    rw [show bs " -- id:" = 32 :: ([45, 45, 32] ++ bs "id:") from by decide +kernel]
    simp only [List.append_assoc, List.cons_append]
  have hp := parseTags_batch E add (idQuery id) (by unfold idQuery xapianQuote; simp) (by
    unfold idQuery
    rw [head_append_ne (by decide +kernel)]
    decide +kernel) tags [] hne hl
  unfold parseTagLine
  rw [e, chomp_append]
  obtain ⟨x, hx⟩ : ∃ x, batchTags E (signOf add) tags ++ 32 :: ([45, 45, 32] ++ idQuery id) = signOf add :: x := by
    cases tags with
    | nil => exact absurd rfl hne
    | cons t ts => cases ts <;> exact ⟨_, rfl⟩
  rw [hx] at hp ⊢
  have hd : (signOf add :: x).dropWhile (fun c => c == 32 || c == 9) = signOf add :: x := by
    rw [dropWhile_cons_neg]
    cases add <;> decide
  simp only [hd]
  rw [if_neg (by cases add <;> decide)]
  simpa using hp

theorem parse_idQuery (id : Str) : parseBooleanTerm (idQuery id) = some (bs "id", id) := by
  apply parse_of_reads
  refine ⟨⟨by decide +kernel, by decide +kernel, by intro c hc; have : c = 105 := by simpa [bs] using hc.symm
                                                    subst this; decide⟩, [], [], by simp [BoolTermSpec.Blank], by simp [BoolTermSpec.Blank], Or.inr ⟨quoteBody id, quoteBody_doubled id, ?_⟩⟩
  unfold idQuery xapianQuote
  rw [show bs "id:" = bs "id" ++ [58] from by decide +kernel]
  simp

/-! ## The effect on the database -/

theorem final_uniform (E : Env) (add : Bool) (ts tags : List Str) (t : Str) :
    Final (ts.map (opOf E add)) false tags t ↔
      if add then (∃ s ∈ ts, t = E.pre ++ s) ∨ t ∈ tags else t ∈ tags ∧ ¬ ∃ s ∈ ts, t = E.pre ++ s := by
  have hU : Unnamed (ts.map (opOf E add)) t ↔ ¬ ∃ s ∈ ts, t = E.pre ++ s := by
    unfold Unnamed
    simp only [List.mem_map, forall_exists_index, and_imp, forall_apply_eq_imp_iff₂, opOf, not_exists, not_and]
    constructor
    · intro h s hs e; exact h s hs e.symm
    · intro h s hs e; exact h s hs e.symm
  have hL : ∀ b, LastIs (ts.map (opOf E add)) t b → b = !add := by
    rintro b ⟨pre, op, post, e, _, hb, _⟩
    have : op ∈ ts.map (opOf E add) := by rw [e]; simp
    simp only [List.mem_map] at this
    obtain ⟨s, _, rfl⟩ := this
    exact hb.symm
  unfold Final
  rw [hU]
  cases add with
  | true =>
    simp only [true_and, if_true]
    constructor
    · rintro (h | h)
      · exact Or.inl (Decidable.byContradiction fun hn => lastIs_not_unnamed h (hU.mpr hn))
      · exact Or.inr h.2
    · intro h
      by_cases hn : ∃ s ∈ ts, t = E.pre ++ s
      · rcases lastIs_or_unnamed (ts.map (opOf E true)) t with h' | h' | h'
        · exact absurd (hL _ h') (by decide)
        · exact Or.inl h'
        · exact absurd hn (hU.mp h')
      · exact Or.inr ⟨hn, h.resolve_left hn⟩
  | false =>
    simp only [true_and, Bool.false_eq_true, if_false]
    constructor
    · rintro (h | h)
      · exact absurd (hL _ h) (by decide)
      · exact ⟨h.2, h.1⟩
    · intro h; exact Or.inr ⟨h.2, h.1⟩

/-- Message by message, what a list of batch lines does: `f` says what the new tags are. -/
structure Retag (f : Msg → Str → Prop) (a b : Db) : Prop where
  uuid : b.uuid = a.uuid
  config : b.config = a.config
  rev : a.rev ≤ b.rev
  len : b.msgs.length = a.msgs.length
  msg : ∀ (i : Nat) m, a.msgs[i]? = some m → ∃ m', b.msgs[i]? = some m' ∧ m'.id = m.id ∧ m'.props = m.props ∧
    (∀ t, t ∈ m'.tags ↔ f m t) ∧ (m' = m ∨ (a.rev < m'.lastmod ∧ m'.lastmod ≤ b.rev))

theorem tagOne_retag (E : Env) (db : Db) (add : Bool) (id : Str) (ts : List Str) (hl : ∀ t ∈ ts, Legal add (E.pre ++ t)) :
    ∃ db', tagOne E db (ts.map (opOf E add)) (idQuery id) = (db', true) ∧
      Retag (fun m t => if m.id = id then (if add then (∃ s ∈ ts, t = E.pre ++ s) ∨ t ∈ m.tags else t ∈ m.tags ∧ ¬ ∃ s ∈ ts, t = E.pre ++ s) else t ∈ m.tags) db db' := by
  obtain ⟨res, e, hlen, hsp⟩ := Props.C12_tag_query_effect E.rx false false (ts.map (opOf E add)) (db.msgs.map (fun m => (m.id == id, m.tags)))
    (by
      intro o ho
      simp only [List.mem_map] at ho
      obtain ⟨t, ht, rfl⟩ := ho
      exact (legal_removable (hl t ht)).2.1)
    (by
      intro _ o ho
      simp only [List.mem_map] at ho
      obtain ⟨t, ht, rfl⟩ := ho
      exact (legal_removable (hl t ht)).2.2.2)
    (by simp)
  refine ⟨_, by unfold tagOne; rw [parse_idQuery]; simp only [if_true]; rw [e], ?_⟩
  simp only [List.length_map] at hlen
  refine ⟨rfl, rfl, Nat.le_succ _, by simp [hlen], fun i m hm => ?_⟩
  obtain ⟨x, hx, hx2⟩ := hsp i (m.id == id, m.tags) (by rw [List.getElem?_map, hm]; rfl)
  refine ⟨if x.2 = m.tags then m else { m with tags := x.2, lastmod := db.rev + 1 }, by simp only [List.getElem?_zipWith, hm, hx], ?_⟩
  have hf : ∀ t, t ∈ x.2 ↔ (if m.id = id then (if add then (∃ s ∈ ts, t = E.pre ++ s) ∨ t ∈ m.tags else t ∈ m.tags ∧ ¬ ∃ s ∈ ts, t = E.pre ++ s) else t ∈ m.tags) := by
    intro t
    rw [hx2 t]
    simp only [beq_iff_eq]
    split
    · exact final_uniform E add ts m.tags t
    · exact Iff.rfl
  split
  · rename_i h
    exact ⟨rfl, rfl, fun t => by rw [← hf t, h], Or.inl rfl⟩
  · exact ⟨rfl, rfl, hf, Or.inr ⟨Nat.lt_succ_self _, Nat.le_refl _⟩⟩

theorem retag_refl {f : Msg → Str → Prop} (a : Db) (h : ∀ m t, f m t ↔ t ∈ m.tags) : Retag f a a :=
  ⟨rfl, rfl, Nat.le_refl _, rfl, fun _ m hm => ⟨m, hm, rfl, rfl, fun t => (h m t).symm, Or.inl rfl⟩⟩

theorem retag_trans {f g k : Msg → Str → Prop} {a b c : Db} (h1 : Retag f a b) (h2 : Retag g b c)
    (hk : ∀ m m' t, m'.id = m.id → (∀ t, t ∈ m'.tags ↔ f m t) → (g m' t ↔ k m t)) : Retag k a c := by
  refine ⟨by rw [h2.uuid, h1.uuid], by rw [h2.config, h1.config], Nat.le_trans h1.rev h2.rev, by rw [h2.len, h1.len], fun i m hm => ?_⟩
  obtain ⟨m', hm', e1, e2, e3, e4⟩ := h1.msg i m hm
  obtain ⟨m'', hm'', e1', e2', e3', e4'⟩ := h2.msg i m' hm'
  refine ⟨m'', hm'', by rw [e1', e1], by rw [e2', e2], fun t => by rw [e3' t]; exact hk m m' t e1 e3, ?_⟩
  have := h1.rev
  have := h2.rev
  rcases e4' with rfl | e4'
  · rcases e4 with rfl | e4
    · exact Or.inl rfl
    · exact Or.inr ⟨e4.1, by omega⟩
  · exact Or.inr ⟨by omega, e4'.2⟩

theorem tagBatch_append (E : Env) (a b : List Str) (db db' : Db) (h : tagBatch E db a = (db', true)) : tagBatch E db (a ++ b) = tagBatch E db' b := by
  induction a generalizing db with
  | nil => simp only [tagBatch, Prod.mk.injEq, and_true] at h; subst h; rfl
  | cons l a ih =>
    simp only [List.cons_append]
    rw [tagBatch] at h
    rw [tagBatch]
    split
    · rename_i h1
      rw [h1] at h
      exact ih db h
    · rename_i h1
      rw [h1] at h
      simp at h
    · rename_i ops q h1
      rw [h1] at h
      simp only at h ⊢
      split
      · rename_i d h2
        rw [h2] at h
        simp at h
      · rename_i d h2
        rw [h2] at h
        exact ih d h

/-- A phase of the checkout: all the lines with one sign. -/
theorem tagBatch_phase (E : Env) (add : Bool) (l : List (Str × Str)) (hl : ∀ x ∈ l, Legal add (E.pre ++ x.2)) (ids : List Str) (hi : ∀ i ∈ ids, tagsOf l i ≠ []) (db : Db) :
    ∃ db', tagBatch E db (ids.map (fun i => batchLine E (signOf add) i (tagsOf l i))) = (db', true) ∧
      Retag (fun m t => if add then (m.id ∈ ids ∧ ∃ s, (m.id, s) ∈ l ∧ t = E.pre ++ s) ∨ t ∈ m.tags else t ∈ m.tags ∧ ¬ (m.id ∈ ids ∧ ∃ s, (m.id, s) ∈ l ∧ t = E.pre ++ s)) db db' := by
  have mt : ∀ i s, s ∈ tagsOf l i ↔ (i, s) ∈ l := by
    intro i s
    unfold tagsOf
    simp only [List.mem_map, List.mem_filter, beq_iff_eq, Prod.exists]
    constructor
    · rintro ⟨a, b, ⟨h, rfl⟩, rfl⟩; exact h
    · intro h; exact ⟨i, s, ⟨h, rfl⟩, rfl⟩
  induction ids generalizing db with
  | nil =>
    refine ⟨db, rfl, retag_refl db fun m t => ?_⟩
    cases add <;> simp
  | cons i ids ih =>
    have hli : ∀ t ∈ tagsOf l i, Legal add (E.pre ++ t) := fun t ht => hl _ ((mt i t).mp ht)
    obtain ⟨db1, h1, r1⟩ := tagOne_retag E db add i (tagsOf l i) hli
    obtain ⟨db2, h2, r2⟩ := ih (fun j hj => hi j (by simp [hj])) db1
    refine ⟨db2, ?_, retag_trans r1 r2 ?_⟩
    · simp only [List.map_cons]
      unfold tagBatch
      rw [parse_batchLine E add i (tagsOf l i) (hi i (by simp)) hli]
      simp only
      rw [h1]
      exact h2
    · intro m m' t e hm
      simp only [e, hm, mt, List.mem_cons]
      cases add with
      | true =>
        simp only [if_true]
        by_cases h : m.id = i
        · subst h; simp only [if_true, true_or, true_and]; grind
        · simp only [h, if_false, false_or]
      | false =>
        simp only [Bool.false_eq_true, if_false]
        by_cases h : m.id = i
        · subst h; simp only [if_true, true_or, true_and]; grind
        · simp only [h, if_false, false_or]

theorem mem_eraseDups_fst {l : List (Str × Str)} {i : Str} : i ∈ (l.map Prod.fst).eraseDups ↔ ∃ s, (i, s) ∈ l := by
  rw [List.mem_eraseDups]
  simp

/-- **The checkout's batch.** -/
theorem tagBatch_checkout (E : Env) (a d : List (Str × Str)) (ha : ∀ x ∈ a, Removable (E.pre ++ x.2)) (hd : ∀ x ∈ d, Addable (E.pre ++ x.2)) (db : Db) :
    ∃ db', tagBatch E db (batchLines E 45 a ++ batchLines E 43 d) = (db', true) ∧
      Retag (fun m t => (∃ s, (m.id, s) ∈ d ∧ t = E.pre ++ s) ∨ (t ∈ m.tags ∧ ¬ ∃ s, (m.id, s) ∈ a ∧ t = E.pre ++ s)) db db' := by
  have ne : ∀ (l : List (Str × Str)), ∀ i ∈ (l.map Prod.fst).eraseDups, tagsOf l i ≠ [] := by
    intro l i hi
    obtain ⟨s, hs⟩ := mem_eraseDups_fst.mp hi
    intro e
    have : s ∈ tagsOf l i := by
      unfold tagsOf
      simp only [List.mem_map, List.mem_filter, beq_iff_eq, Prod.exists]
      exact ⟨i, s, ⟨hs, rfl⟩, rfl⟩
    rw [e] at this
    simp at this
  obtain ⟨db1, h1, r1⟩ := tagBatch_phase E false a ha _ (ne a) db
  obtain ⟨db2, h2, r2⟩ := tagBatch_phase E true d hd _ (ne d) db1
  refine ⟨db2, ?_, retag_trans r1 r2 ?_⟩
  · exact (tagBatch_append E _ _ db db1 h1).trans h2
  · intro m m' t e hm
    simp only [if_true, Bool.false_eq_true, if_false, e, hm, mem_eraseDups_fst]
    grind

theorem retag_known {f : Msg → Str → Prop} {a b : Db} (h : Retag f a b) (id : Str) : Known b id ↔ Known a id := by
  unfold Known
  constructor
  · rintro ⟨m', hm', rfl⟩
    obtain ⟨i, hi⟩ := List.mem_iff_getElem?.mp hm'
    have hlt : i < a.msgs.length := by
      rw [← h.len]
      exact (List.getElem?_eq_some_iff.mp hi).1
    obtain ⟨m, hm, e, _⟩ := h.msg i _ (List.getElem?_eq_getElem hlt)
    rw [hi] at hm
    simp only [Option.some.injEq] at hm
    subst hm
    exact ⟨_, List.getElem_mem hlt, e.symm⟩
  · rintro ⟨m, hm, rfl⟩
    obtain ⟨i, hi⟩ := List.mem_iff_getElem?.mp hm
    obtain ⟨m', hm', e, _⟩ := h.msg i m hi
    exact ⟨m', List.mem_of_getElem? hm', e⟩

theorem retag_back {f : Msg → Str → Prop} {a b : Db} (h : Retag f a b) {m' : Msg} (hm' : m' ∈ b.msgs) :
    ∃ m ∈ a.msgs, m'.id = m.id ∧ m'.props = m.props ∧ (∀ t, t ∈ m'.tags ↔ f m t) ∧ (m' = m ∨ (a.rev < m'.lastmod ∧ m'.lastmod ≤ b.rev)) := by
  obtain ⟨i, hi⟩ := List.mem_iff_getElem?.mp hm'
  have hlt : i < a.msgs.length := by
    rw [← h.len]
    exact (List.getElem?_eq_some_iff.mp hi).1
  obtain ⟨m, hm, e⟩ := h.msg i _ (List.getElem?_eq_getElem hlt)
  rw [hi] at hm
  simp only [Option.some.injEq] at hm
  subst hm
  exact ⟨_, List.getElem_mem hlt, e⟩

theorem retag_later {f : Msg → Str → Prop} {a b : Db} (h : Retag f a b) : Later a b where
  uuid := h.uuid
  rev := h.rev
  keeps := fun m hm => (retag_known h m.id).mpr ⟨m, hm, rfl⟩
  touched := fun m' hm' hl => by
    obtain ⟨m, hm, _, _, _, e⟩ := retag_back h hm'
    rcases e with rfl | e
    · exact hm
    · omega

end Notmuch.GitProof
