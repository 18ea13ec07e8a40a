import Verif.Model.ElTag
import Verif.Spec.ElTag
import Verif.Proofs.TagOps
import Verif.Proofs.BoolTerm
import Verif.Proofs.StringMap

namespace Notmuch.ElTag
open Notmuch.TagUtil Notmuch.StringUtil Notmuch.TagSpec Notmuch.ElTagSpec

theorem isBlank_iff (c : UInt8) : isBlank c = true ↔ Space c := by
  simp [isBlank, Space, or_assoc]

theorem linesOf_one {s : Str} (h : 10 ∉ s) : linesOf s = [s] := by
  induction s with
  | nil => rfl
  | cons c s ih =>
    simp only [List.mem_cons, not_or] at h
    unfold linesOf
    rw [if_neg (fun e => h.1 e.symm), ih h.2]

theorem valid_text {o : TagOp} (h1 : o.tag ≠ []) (h2 : ∀ c ∈ o.tag, ¬ Space c) : validChange (text o) = true := by
  have hn : 10 ∉ text o := by
    unfold text
    intro hc
    rcases List.mem_cons.1 hc with e | e
    · revert e; cases o.remove <;> decide
    · exact h2 _ e (by simp [Space])
  unfold validChange
  rw [linesOf_one hn]
  simp only [List.any_cons, List.any_nil, Bool.or_false, text, lineOk, Bool.and_eq_true, List.all_eq_true, Bool.not_eq_true']
  refine ⟨⟨?_, ?_⟩, ?_⟩
  · cases o.remove <;> rfl
  · simpa using h1
  · intro c hc
    cases hb : isBlank c
    · rfl
    · exact absurd ((isBlank_iff c).1 hb) (h2 c hc)

theorem valid_iff {s : Str} (hn : 10 ∉ s) :
    validChange s = true ↔ ∃ o : TagOp, s = text o ∧ o.tag ≠ [] ∧ ∀ c ∈ o.tag, ¬ Space c := by
  constructor
  · unfold validChange
    rw [linesOf_one hn]
    simp only [List.any_cons, List.any_nil, Bool.or_false]
    cases s with
    | nil => intro h; cases h
    | cons c s =>
      simp only [lineOk, Bool.and_eq_true, List.all_eq_true, Bool.not_eq_true', Bool.or_eq_true, beq_iff_eq]
      rintro ⟨⟨h1, h2⟩, h3⟩
      refine ⟨⟨s, c == 45⟩, ?_, by simpa using h2, ?_⟩
      · rcases h1 with rfl | rfl <;> simp [text]
      · intro d hd hs
        have := h3 d hd
        rw [(isBlank_iff d).2 hs] at this
        cases this
  · rintro ⟨o, rfl, h1, h2⟩
    exact valid_text h1 h2

/-! ### The encoding -/

theorem hex_no_space (t : Str) : ∀ c ∈ hexEncode t, (c == 32) = false := by
  induction t with
  | nil => intro c hc; cases hc
  | cons a t ih =>
    intro c hc
    unfold hexEncode at hc
    split at hc
    · rename_i h
      rcases List.mem_append.1 hc with h' | h'
      · rcases h with rfl | rfl | rfl <;> (clear hc; revert h'; revert c; apply forall_byte; decide +kernel)
      · exact ih c h'
    · rename_i h
      rcases List.mem_cons.1 hc with rfl | h'
      · simp only [not_or] at h
        simpa using h.1
      · exact ih c h'

theorem hex_decode (t : Str) : Hex.decode (hexEncode t) = some t := by
  have : ∀ t, Hex.decodeRun (hexEncode t) = (t, true) := by
    intro t
    induction t with
    | nil => rfl
    | cons a t ih =>
      unfold hexEncode
      split
      · rename_i h
        rcases h with rfl | rfl | rfl
        · show Hex.decodeRun (37 :: 50 :: 48 :: hexEncode t) = _
          rw [Hex.decodeRun, if_pos (show (37 : UInt8) = Hex.escapeChar from rfl), if_neg (by decide)]
          simp only [ih]
          rfl
        · show Hex.decodeRun (37 :: 50 :: 53 :: hexEncode t) = _
          rw [Hex.decodeRun, if_pos (show (37 : UInt8) = Hex.escapeChar from rfl), if_neg (by decide)]
          simp only [ih]
          rfl
        · show Hex.decodeRun (37 :: 50 :: 50 :: hexEncode t) = _
          rw [Hex.decodeRun, if_pos (show (37 : UInt8) = Hex.escapeChar from rfl), if_neg (by decide)]
          simp only [ih]
          rfl
      · rename_i h
        simp only [not_or] at h
        have h37 : ¬ a = Hex.escapeChar := h.2.1
        unfold Hex.decodeRun
        simp only [if_neg h37, ih]
  simp [Hex.decode, this]

theorem hex_head {t : Str} {c : UInt8} (h : (hexEncode t).head? = some c) (hc : c ≠ 37) : t.head? = some c := by
  cases t with
  | nil => cases h
  | cons a t =>
    unfold hexEncode at h
    split at h
    · simp [Hex.escapeByte, Hex.escapeChar] at h
      exact absurd h.symm hc
    · simpa using h

theorem hex_nil {t : Str} (h : hexEncode t = []) : t = [] := by
  have := hex_decode t
  rw [h] at this
  exact (Option.some.inj this).symm

theorem hex_dash {t : Str} (h : hexEncode t = [45]) : t = [45] := by
  have := hex_decode t
  rw [h] at this
  exact (Option.some.inj this).symm

theorem hex_no_newline {t : Str} (h : 10 ∉ t) : 10 ∉ hexEncode t := by
  induction t with
  | nil => exact h
  | cons a t ih =>
    simp only [List.mem_cons, not_or] at h
    unfold hexEncode
    split
    · rename_i h'
      rw [List.mem_append]
      rintro (h2 | h2)
      · rcases h' with rfl | rfl | rfl <;> (revert h2; decide +kernel)
      · exact ih h.2 h2
    · intro h2
      rcases List.mem_cons.1 h2 with e | e
      · exact h.1 e
      · exact ih h.2 e

theorem hexEncode_text (o : TagOp) : hexEncode (text o) = opText hexEncode o := by
  unfold text opText
  rw [hexEncode, if_neg]
  cases o.remove <;> decide

theorem joinChanges_text : ∀ ops : List TagOp, joinChanges (ops.map text) = opsText hexEncode ops
  | [] => rfl
  | [o] => hexEncode_text o
  | o :: o' :: ops => by
    have := joinChanges_text (o' :: ops)
    simp only [List.map_cons] at this ⊢
    simp only [joinChanges, opsText, hexEncode_text, this]

/-! ### The line -/

theorem parse_op {o : TagOp} (h : Sendable o) (r : Str) (acc : List TagOp) :
    parseTags false (opText hexEncode o ++ 32 :: r) acc = parseTags false r (acc ++ [o]) := by
  have htok : strtokLen (· == 32) (opText hexEncode o ++ 32 :: r) = some (opText hexEncode o, 32 :: r) := by
    apply strtok_token
    · simp [opText]
    · intro c hc
      unfold opText at hc
      simp at hc
      rcases hc with rfl | hc
      · cases o.remove <;> decide
      · exact hex_no_space _ c hc
    · intro c hc; simp at hc; subst hc; decide
  rw [parseTags]
  split
  · rename_i h; rw [htok] at h; simp at h
  · rename_i tok rest h'
    rw [htok] at h'
    simp at h'
    obtain ⟨rfl, rfl⟩ := h'
    have hne : opText hexEncode o ≠ [45, 45] := by
      intro h'
      unfold opText at h'
      simp at h'
      obtain ⟨h1, h2⟩ := h'
      cases hr : o.remove
      · simp [hr] at h1
      · exact h.remove hr (hex_dash h2)
    rw [if_neg hne]
    have hhead : ¬ ((opText hexEncode o).head? ≠ some 45 ∧ (opText hexEncode o).head? ≠ some 43) := by
      unfold opText; cases o.remove <;> simp
    rw [if_neg hhead]
    simp only
    have hrem : ((opText hexEncode o).head? == some 45) = o.remove := by
      unfold opText; cases o.remove <;> rfl
    have htail : (opText hexEncode o).tail = hexEncode o.tag := by simp [opText]
    rw [hrem, htail]
    have hill : illegalTag (hexEncode o.tag) o.remove = false := by
      unfold illegalTag
      cases hr : o.remove
      · simp only [Bool.not_false, Bool.and_true, Bool.or_eq_false_iff]
        refine ⟨?_, ?_⟩
        · have : hexEncode o.tag ≠ [] := fun e => h.nonempty (hex_nil e)
          simpa using this
        · have : (hexEncode o.tag).head? ≠ some 45 := fun e => h.add hr (hex_head e (by decide))
          simpa using this
      · simp
    rw [hill]
    simp only [Bool.not_false, Bool.and_false, Bool.false_eq_true, if_false, hex_decode, cstr_self h.noNul]

theorem parse_ops {q : Str} (hq : OneLine q) (ops : List TagOp) :
    ∀ acc, ops ≠ [] → (∀ o ∈ ops, Sendable o) →
    parseTags false (opsText hexEncode ops ++ 32 :: ([45, 45, 32] ++ q)) acc = .ok (acc ++ ops) q := by
  induction ops with
  | nil => intro acc h; exact absurd rfl h
  | cons o os ih =>
    intro acc _ h
    cases os with
    | nil =>
      show parseTags false (opText hexEncode o ++ 32 :: ([45, 45, 32] ++ q)) acc = _
      rw [parse_op (h o (by simp)), parseTags_end false q _ hq.nonempty hq.head]
    | cons o' os =>
      have e : opsText hexEncode (o :: o' :: os) ++ 32 :: ([45, 45, 32] ++ q) =
          opText hexEncode o ++ 32 :: (opsText hexEncode (o' :: os) ++ 32 :: ([45, 45, 32] ++ q)) := by
        simp [opsText]
      rw [e, parse_op (h o (by simp)), ih (acc ++ [o]) (by simp) (fun x hx => h x (by simp [hx]))]
      simp

theorem chomp_none {s : Str} (h : 10 ∉ s) : chomp s = s := by
  unfold chomp
  rw [if_neg]
  intro h'
  exact h (List.mem_of_getLast? h')

theorem text_no_newline {o : TagOp} (h : Sendable o) : 10 ∉ text o := by
  unfold text
  intro hc
  rcases List.mem_cons.1 hc with e | e
  · revert e; cases o.remove <;> decide
  · exact h.noSpace _ e (by simp [Space])

theorem opsText_no_newline : ∀ ops : List TagOp, (∀ o ∈ ops, Sendable o) → 10 ∉ opsText hexEncode ops
  | [], _ => by simp [opsText]
  | [o], h => by
    show 10 ∉ opText hexEncode o
    rw [← hexEncode_text]
    exact hex_no_newline (text_no_newline (h o (by simp)))
  | o :: o' :: ops, h => by
    have h1 : 10 ∉ opText hexEncode o := by
      rw [← hexEncode_text]
      exact hex_no_newline (text_no_newline (h o (by simp)))
    have h2 := opsText_no_newline (o' :: ops) (fun x hx => h x (by simp [hx]))
    show 10 ∉ opText hexEncode o ++ 32 :: opsText hexEncode (o' :: ops)
    rw [List.mem_append, List.mem_cons]
    rintro (e | e | e)
    · exact h1 e
    · cases e
    · exact h2 e

theorem parse_batch {ops : List TagOp} {q : Str} (hne : ops ≠ []) (h : ∀ o ∈ ops, Sendable o) (hq : OneLine q) :
    parseTagLine false (batchText (ops.map text) q) = .ok ops q := by
  have hn : 10 ∉ batchText (ops.map text) q := by
    unfold batchText
    rw [joinChanges_text]
    simp only [List.mem_append]
    rintro ((e | e) | e)
    · exact opsText_no_newline ops h e
    · revert e; decide
    · exact hq.noNewline e
  unfold parseTagLine
  rw [chomp_none hn]
  unfold batchText
  rw [joinChanges_text]
  have e2 : opsText hexEncode ops ++ [32, 45, 45, 32] ++ q = opsText hexEncode ops ++ 32 :: ([45, 45, 32] ++ q) := by simp
  rw [e2]
  obtain ⟨c, t, e, hc⟩ : ∃ c t, opsText hexEncode ops = c :: t ∧ (c = 45 ∨ c = 43) := by
    cases ops with
    | nil => exact absurd rfl hne
    | cons o os =>
      cases os with
      | nil => exact ⟨_, _, rfl, by cases o.remove <;> simp⟩
      | cons o' os => exact ⟨_, _, rfl, by cases o.remove <;> simp⟩
  have hd : (opsText hexEncode ops ++ 32 :: ([45, 45, 32] ++ q)).dropWhile (fun c => c == 32 || c == 9) =
      opsText hexEncode ops ++ 32 :: ([45, 45, 32] ++ q) := by
    rw [e]; rcases hc with rfl | rfl <;> simp
  simp only [hd]
  have hp := parse_ops hq ops [] hne h
  rw [e] at hp ⊢
  simp only [List.cons_append] at hp ⊢
  rw [if_neg (by rcases hc with rfl | rfl <;> decide), hp]
  simp

theorem splitLines_one {s : Str} (h : 10 ∉ s) (hne : s ≠ []) : DumpRestore.splitLines s = [s] := by
  induction s with
  | nil => exact absurd rfl hne
  | cons c s ih =>
    simp only [List.mem_cons, not_or] at h
    unfold DumpRestore.splitLines
    rw [if_neg (fun e => h.1 e.symm)]
    cases s with
    | nil => rfl
    | cons d s => rw [ih h.2 (by simp)]

theorem batch_run {σ} (run : List TagOp → Str → σ → σ × Bool) {ops : List TagOp} {q : Str} (hne : ops ≠ [])
    (h : ∀ o ∈ ops, Sendable o) (hq : OneLine q) (s : σ) : tagBatch run (batchText (ops.map text) q) s = run ops q s := by
  have hn : 10 ∉ batchText (ops.map text) q := by
    unfold batchText
    rw [joinChanges_text]
    simp only [List.mem_append]
    rintro ((e | e) | e)
    · exact opsText_no_newline ops h e
    · revert e; decide
    · exact hq.noNewline e
  have hne' : batchText (ops.map text) q ≠ [] := by simp [batchText]
  unfold tagBatch
  rw [splitLines_one hn hne']
  unfold tagFile
  rw [parse_batch hne h hq]
  simp only
  cases hr : run ops q s with
  | mk s' b => cases b <;> rfl

theorem tag_ok {σ} (run : List TagOp → Str → σ → σ × Bool) {ops : List TagOp} {q : Str} (hne : ops ≠ [])
    (h : ∀ o ∈ ops, Sendable o) (hq : OneLine q) (s : St σ) (om : Bool) :
    notmuchTag run s (some q) (ops.map text) om =
      if (run ops q s.db).2 then
        ({ db := (run ops q s.db).1, hist := if om then s.hist else (q, ops.map text) :: s.hist }, .done)
      else ({ s with db := (run ops q s.db).1 }, .tagFailed) := by
  unfold notmuchTag
  have hv : (ops.map text).all validChange = true := by
    rw [List.all_eq_true]
    intro c hc
    obtain ⟨o, ho, rfl⟩ := List.mem_map.1 hc
    exact valid_text (h o ho).nonempty (h o ho).noSpace
  rw [if_pos hv]
  simp only
  rw [if_neg (by simpa using hne), batch_run run hne h hq]
  cases hr : run ops q s.db with
  | mk s' b => cases b <;> simp

/-! ### Change lists -/

theorem changeList_text (r : Bool) (ops : List TagOp) (h : ∀ o ∈ ops, 10 ∉ o.tag) :
    changeList r (ops.map text) = (ops.map (fun o => if r then inv o else o)).map text := by
  unfold changeList
  rw [List.map_map, List.map_map]
  apply List.map_congr_left
  intro o ho
  have hn : 10 ∉ text o := by
    unfold text
    intro hc
    rcases List.mem_cons.1 hc with e | e
    · revert e; cases o.remove <;> decide
    · exact h o ho e
  simp only [Function.comp, linesOf_one hn, List.any_cons, List.any_nil, Bool.or_false]
  have : ((text o).head? == some 43 || (text o).head? == some 45) = true := by
    unfold text; cases o.remove <;> rfl
  rw [if_pos this]
  cases r
  · simp
  · cases hr : o.remove <;> simp [text, inv, hr]

theorem inv_sendable {o : TagOp} (h : Sendable o) (h2 : o.tag.head? ≠ some 45) : Sendable (inv o) :=
  ⟨h.nonempty, h.noSpace, h.noNul, fun _ => h2, fun _ e => h2 (by rw [show o.tag = [45] from e]; rfl)⟩

end Notmuch.ElTag
