import Verif.Proofs.PyCollections

/-! # Proofs: the collections of the Python bindings, the tags -/

namespace Notmuch.PyColl

open Notmuch.Message
open Notmuch.TermList (Sorted PropOp sorted_nodup sorted_ext)
open Notmuch.StringMap (Pair strcmp strcmp_lt)
open Notmuch.StringMapSpec (LexLe PairLe Matches)
open Notmuch.Utf8Spec (Valid)

variable {W : World} {T : List Str} {m : Msg}

theorem give_does {α : Type} {f : α → Out} {p : Py α} {Q : Except Exc Out → Msg → Prop} (h : Does W T p m (fun o m' => Q (o.map f) m')) : Does W T (give f p) m Q := by
  unfold give
  exact Does.bind h (fun a m' q => Does.pure q) (fun e m' q => q)

theorem give_reads {α : Type} {f : α → Out} {p : Py α} {a : α} {Q : Except Exc Out → Msg → Prop} (h : Reads W T p m a) (hq : Q (.ok (f a)) m) : Does W T (give f p) m Q := by
  refine give_does (h.weaken ?_)
  rintro o m' ⟨rfl, rfl⟩; exact hq

/-! ## Questions -/

theorem compares_of {x : Operand} (hx : x.isSet = true) {P : Prop} {o : Except Exc Out} (h : Answers P o) : Compares x P o := by
  cases x with
  | list l => cases hx
  | _ => exact h

theorem le_reads (hW : W.Ok) (hr : Readable m) {l xs : List Str} (hl : Lists m l) {x : Operand} (ov : Over W T m x xs) (hs : x.isSet = true) :
    ∃ b, Reads W T (le W x) m b ∧ (b = true ↔ ∀ t, m.tags t → x.Has m t) := by
  have hsub : (∀ t, m.tags t → x.Has m t) ↔ ∀ t ∈ l, t ∈ xs := by
    constructor
    · intro h t ht; exact (ov.mem t).2 (h t ((hl.mem t).1 ht))
    · intro h t ht; exact (ov.mem t).1 (h t ((hl.mem t).2 ht))
  by_cases hn : l.length > xs.length
  · refine ⟨false, ?_, ?_⟩
    · unfold le
      rw [if_pos hs]
      refine Reads.bind (len_reads hW hr hl) (Reads.bind ov.len ?_)
      rw [if_pos hn]; exact Reads.pure _
    · constructor
      · intro h; cases h
      · intro h
        have := New.nodup_length_le (sorted_nodup hl.sorted) (hsub.1 h)
        omega
  · refine ⟨l.all (fun t => decide (t ∈ xs)), ?_, ?_⟩
    · unfold le
      rw [if_pos hs]
      refine Reads.bind (len_reads hW hr hl) (Reads.bind ov.len ?_)
      rw [if_neg hn]
      exact Reads.bind (iter_reads hW hr hl) (allOf_text ov.contains)
    · rw [hsub]; simp

theorem ge_reads (hW : W.Ok) (hr : Readable m) {l xs : List Str} (hl : Lists m l) {x : Operand} (ov : Over W T m x xs) (hs : x.isSet = true) :
    ∃ b, Reads W T (ge W x) m b ∧ (b = true ↔ ∀ t, x.Has m t → m.tags t) := by
  have hsub : (∀ t, x.Has m t → m.tags t) ↔ ∀ t ∈ xs, t ∈ l := by
    constructor
    · intro h t ht; exact (hl.mem t).2 (h t ((ov.mem t).1 ht))
    · intro h t ht; exact (hl.mem t).1 (h t ((ov.mem t).2 ht))
  by_cases hn : l.length < xs.length
  · refine ⟨false, ?_, ?_⟩
    · unfold ge
      rw [if_pos hs]
      refine Reads.bind (len_reads hW hr hl) (Reads.bind ov.len ?_)
      rw [if_pos hn]; exact Reads.pure _
    · constructor
      · intro h; cases h
      · intro h
        have := New.nodup_length_le (ov.nodup hs) (hsub.1 h)
        omega
  · refine ⟨xs.all (fun t => decide (t ∈ l)), ?_, ?_⟩
    · unfold ge
      rw [if_pos hs]
      refine Reads.bind (len_reads hW hr hl) (Reads.bind ov.len ?_)
      rw [if_neg hn]
      exact Reads.bind ov.iter (allOf_text (contains_text hW hl))
    · rw [hsub]; simp

/-- Of two lists without repetition the shorter has not all of the other, and one that has all of the other is as long only if it has nothing else. -/
theorem shorter {a b : List Str} (ha : a.Nodup) (hb : b.Nodup) (h : ∀ t ∈ a, t ∈ b) : a.length < b.length ↔ ∃ t ∈ b, t ∉ a := by
  constructor
  · intro hlt
    refine Classical.byContradiction fun hn => ?_
    have := New.nodup_length_le hb (fun t ht => Classical.byContradiction fun h' => hn ⟨t, ht, h'⟩)
    omega
  · rintro ⟨t, ht, hta⟩
    have := New.nodup_length_le (l := t :: a) (m := b) (List.nodup_cons.2 ⟨hta, ha⟩) (by simpa using ⟨ht, h⟩)
    rw [List.length_cons] at this
    omega

theorem lt_reads (hW : W.Ok) (hr : Readable m) {l xs : List Str} (hl : Lists m l) {x : Operand} (ov : Over W T m x xs) (hs : x.isSet = true) :
    ∃ b, Reads W T (lt W x) m b ∧ (b = true ↔ (∀ t, m.tags t → x.Has m t) ∧ ∃ t, x.Has m t ∧ ¬ m.tags t) := by
  have hex : (∃ t, x.Has m t ∧ ¬ m.tags t) ↔ ∃ t ∈ xs, t ∉ l := by
    constructor
    · rintro ⟨t, h1, h2⟩; exact ⟨t, (ov.mem t).2 h1, fun h => h2 ((hl.mem t).1 h)⟩
    · rintro ⟨t, h1, h2⟩; exact ⟨t, (ov.mem t).1 h1, fun h => h2 ((hl.mem t).2 h)⟩
  have hsub : (∀ t, m.tags t → x.Has m t) → ∀ t ∈ l, t ∈ xs := fun h t ht => (ov.mem t).2 (h t ((hl.mem t).1 ht))
  by_cases hn : l.length < xs.length
  · obtain ⟨b, hb, he⟩ := le_reads hW hr hl ov hs
    refine ⟨b, ?_, ?_⟩
    · unfold lt
      rw [if_pos hs]
      refine Reads.bind (len_reads hW hr hl) (Reads.bind ov.len ?_)
      rw [if_pos hn]; exact hb
    · rw [he]
      constructor
      · intro h; exact ⟨h, hex.2 ((shorter (sorted_nodup hl.sorted) (ov.nodup hs) (hsub h)).1 hn)⟩
      · exact (·.1)
  · refine ⟨false, ?_, ?_⟩
    · unfold lt
      rw [if_pos hs]
      refine Reads.bind (len_reads hW hr hl) (Reads.bind ov.len ?_)
      rw [if_neg hn]; exact Reads.pure _
    · constructor
      · intro h; cases h
      · rintro ⟨h1, h2⟩
        exact absurd ((shorter (sorted_nodup hl.sorted) (ov.nodup hs) (hsub h1)).2 (hex.1 h2)) hn

theorem gt_reads (hW : W.Ok) (hr : Readable m) {l xs : List Str} (hl : Lists m l) {x : Operand} (ov : Over W T m x xs) (hs : x.isSet = true) :
    ∃ b, Reads W T (gt W x) m b ∧ (b = true ↔ (∀ t, x.Has m t → m.tags t) ∧ ∃ t, m.tags t ∧ ¬ x.Has m t) := by
  have hex : (∃ t, m.tags t ∧ ¬ x.Has m t) ↔ ∃ t ∈ l, t ∉ xs := by
    constructor
    · rintro ⟨t, h1, h2⟩; exact ⟨t, (hl.mem t).2 h1, fun h => h2 ((ov.mem t).1 h)⟩
    · rintro ⟨t, h1, h2⟩; exact ⟨t, (hl.mem t).1 h1, fun h => h2 ((ov.mem t).2 h)⟩
  have hsub : (∀ t, x.Has m t → m.tags t) → ∀ t ∈ xs, t ∈ l := fun h t ht => (hl.mem t).2 (h t ((ov.mem t).1 ht))
  by_cases hn : l.length > xs.length
  · obtain ⟨b, hb, he⟩ := ge_reads hW hr hl ov hs
    refine ⟨b, ?_, ?_⟩
    · unfold gt
      rw [if_pos hs]
      refine Reads.bind (len_reads hW hr hl) (Reads.bind ov.len ?_)
      rw [if_pos hn]; exact hb
    · rw [he]
      constructor
      · intro h; exact ⟨h, hex.2 ((shorter (ov.nodup hs) (sorted_nodup hl.sorted) (hsub h)).1 hn)⟩
      · exact (·.1)
  · refine ⟨false, ?_, ?_⟩
    · unfold gt
      rw [if_pos hs]
      refine Reads.bind (len_reads hW hr hl) (Reads.bind ov.len ?_)
      rw [if_neg hn]; exact Reads.pure _
    · constructor
      · intro h; cases h
      · rintro ⟨h1, h2⟩
        exact absurd ((shorter (ov.nodup hs) (sorted_nodup hl.sorted) (hsub h1)).2 (hex.1 h2)) hn

theorem disjoint_reads (hW : W.Ok) {l xs : List Str} (hl : Lists m l) {x : Operand} (ov : Over W T m x xs) :
    ∃ b, Reads W T (disjoint W x) m b ∧ (b = true ↔ ∀ t, ¬ (m.tags t ∧ x.Has m t)) := by
  refine ⟨xs.all (fun t => !decide (t ∈ l)), Reads.bind ov.iter (allOf_text (fun t => not_reads (contains_text hW hl t))), ?_⟩
  simp only [List.all_eq_true, Bool.not_eq_true', decide_eq_false_iff_not]
  constructor
  · rintro h t ⟨h1, h2⟩; exact h t ((ov.mem t).2 h2) ((hl.mem t).2 h1)
  · intro h t ht h'; exact h t ⟨(hl.mem t).1 h', (ov.mem t).1 ht⟩

/-! ## New sets -/

theorem setOf_mkset {l : List Str} {P : Str → Prop} (h : ∀ t, t ∈ l ↔ P t) : SetOf (mkset (l.map .text)) P := by
  refine ⟨nodup_mkset _, fun v => ?_⟩
  rw [mem_mkset, List.mem_map]
  constructor
  · rintro ⟨t, ht, rfl⟩; exact ⟨t, rfl, (h t).1 ht⟩
  · rintro ⟨t, rfl, ht⟩; exact ⟨t, (h t).2 ht, rfl⟩

theorem and_reads (hW : W.Ok) {l xs : List Str} (hl : Lists m l) {x : Operand} (ov : Over W T m x xs) :
    ∃ r, Reads W T (and W x) m r ∧ SetOf r (fun t => m.tags t ∧ x.Has m t) := by
  refine ⟨_, Reads.bind ov.iter (Reads.bind (select_text (contains_text hW hl)) (Reads.pure _)), setOf_mkset fun t => ?_⟩
  rw [List.mem_filter, decide_eq_true_eq, ov.mem, hl.mem, And.comm]

theorem or_reads (hW : W.Ok) (hr : Readable m) {l xs : List Str} (hl : Lists m l) {x : Operand} (ov : Over W T m x xs) :
    ∃ r, Reads W T (or W x) m r ∧ SetOf r (fun t => m.tags t ∨ x.Has m t) := by
  refine ⟨_, Reads.bind (iter_reads hW hr hl) (Reads.bind ov.iter (Reads.pure _)), ?_⟩
  rw [← List.map_append]
  refine setOf_mkset fun t => ?_
  rw [List.mem_append, ov.mem, hl.mem]

theorem sub_reads (hW : W.Ok) (hr : Readable m) {l xs : List Str} (hl : Lists m l) {x : Operand} (ov : Over W T m x.toSet xs) :
    ∃ ts : List Str, Reads W T (sub W x) m (mkset (ts.map .text)) ∧ (∀ t ∈ ts, Valid t) ∧ ∀ t, t ∈ ts ↔ m.tags t ∧ ¬ x.Has m t := by
  refine ⟨_, Reads.bind (iter_reads hW hr hl) (Reads.bind (select_text (fun t => not_reads (ov.contains t))) (Reads.pure _)), ?_, fun t => ?_⟩
  · intro t ht
    exact hr.tags t ((hl.mem t).1 (List.mem_filter.1 ht).1)
  · rw [List.mem_filter, Bool.not_eq_true', decide_eq_false_iff_not, ov.mem, toSet_has, hl.mem]

theorem rsub_reads (hW : W.Ok) {l xs : List Str} (hl : Lists m l) {x : Operand} (ov : Over W T m x xs) :
    ∃ ts : List Str, Reads W T (rsub W x) m (mkset (ts.map .text)) ∧ ∀ t, t ∈ ts ↔ x.Has m t ∧ ¬ m.tags t := by
  refine ⟨_, Reads.bind ov.iter (Reads.bind (select_text (fun t => not_reads (contains_text hW hl t))) (Reads.pure _)), fun t => ?_⟩
  rw [List.mem_filter, Bool.not_eq_true', decide_eq_false_iff_not, ov.mem, hl.mem]

theorem toSet_toSet (x : Operand) : x.toSet.toSet = x.toSet := by cases x <;> rfl

theorem xor_reads (hW : W.Ok) (hr : Readable m) {l xs : List Str} (hl : Lists m l) {x : Operand} (ov : Over W T m x.toSet xs) :
    ∃ r, Reads W T (xor W x) m r ∧ SetOf r (fun t => (m.tags t ∧ ¬ x.Has m t) ∨ (x.Has m t ∧ ¬ m.tags t)) := by
  obtain ⟨ts, h1, _, h2⟩ := sub_reads (x := x.toSet) hW hr hl (by rw [toSet_toSet]; exact ov)
  obtain ⟨us, h3, h4⟩ := rsub_reads hW hl ov
  refine ⟨_, Reads.bind h1 (Reads.bind h3 (Reads.pure _)), nodup_mkset _, fun v => ?_⟩
  rw [mem_mkset, List.mem_append, mem_mkset, mem_mkset, List.mem_map, List.mem_map]
  constructor
  · rintro (⟨t, ht, rfl⟩ | ⟨t, ht, rfl⟩)
    · have := (h2 t).1 ht; rw [toSet_has] at this; exact ⟨t, rfl, .inl this⟩
    · have := (h4 t).1 ht; rw [toSet_has] at this; exact ⟨t, rfl, .inr this⟩
  · rintro ⟨t, rfl, h | h⟩
    · left; refine ⟨t, (h2 t).2 ?_, rfl⟩; rw [toSet_has]; exact h
    · right; refine ⟨t, (h4 t).2 ?_, rfl⟩; rw [toSet_has]; exact h

theorem eq_reads (hW : W.Ok) {l : List Str} (hl : Lists m l) {x : Operand} (hx : x.Ok) :
    Does W T (eq W x) m (fun o m' => m' = m ∧ (match x with
      | .set _ => o = .error .attribute
      | .list _ => o = .error .attribute
      | x => ∃ b, o = .ok b ∧ (b = true ↔ ∀ t, m.tags t ↔ x.Has m t))) := by
  cases x with
  | it =>
    refine Reads.then (rawTags_reads hW hl) (Reads.then (rawTags_reads hW hl) (Does.pure ⟨rfl, _, rfl, ?_⟩))
    simp [Operand.Has]
  | tags k =>
    refine Reads.then (rawTags_reads hW hl) (Does.pure ⟨rfl, _, rfl, ?_⟩)
    rw [decide_eq_true_eq, sortBytes_sorted hl.sorted, sortBytes_sorted hx.1]
    constructor
    · rintro rfl t; exact (hl.mem t).symm
    · intro h; exact sorted_ext hl.sorted hx.1 (fun t => (hl.mem t).trans (h t))
  | set k => exact Reads.then (rawTags_reads hW hl) (Does.raise ⟨rfl, rfl⟩)
  | list k => exact Reads.then (rawTags_reads hW hl) (Does.raise ⟨rfl, rfl⟩)

/-! ## Changes -/

theorem argument_reads {v : Val} {t : Str} (hv : v.Names t) (ht : Valid t) : Reads W T (argument v) m t := by
  unfold argument
  rcases hv with rfl | rfl
  · refine Reads.bind (Reads.pure (some t)) ?_
    show Reads W T (Pure.pure (cut t)) m t
    rw [cut_valid ht]; exact Reads.pure _
  · refine Reads.bind (Reads.pure (some t)) ?_
    show Reads W T (Pure.pure (cut t)) m t
    rw [cut_valid ht]; exact Reads.pure _

/-- A call that gives a status. -/
theorem checked_does (hW : W.Ok) {c : Call} (hc : c.Ok W) {Q : Except Exc Unit → Msg → Prop}
    (h : ∀ r m', Step W m c r m' → (r = .status .success ∧ Q (.ok ()) m') ∨ ∃ s, s ≠ .success ∧ r = .status s ∧ Q (.error (.notmuch s)) m') :
    Does W T (checked W c) m Q := by
  unfold checked
  refine Does.bind (Does.ccall hW hc) ?_ ?_
  · rintro r m' ⟨_, e, hs⟩
    cases e
    rcases h r m' hs with ⟨rfl, q⟩ | ⟨s, hne, rfl, q⟩
    · exact Does.pure q
    · cases s <;> first | exact absurd rfl hne | exact Does.raise q
  · rintro e m' ⟨r, h, _⟩; cases h

/-- What happens to one tag. -/
def Act (P : (Str → Prop) → Str → Str → Prop) (m : Msg) (t : Str) (o : Except Exc Unit) (m' : Msg) : Prop :=
  if m.writable = false then m' = m ∧ o = .error (.notmuch .readOnly)
  else if t.length > 200 then m' = m ∧ o = .error (.notmuch .tagTooLong)
  else m' = { m with tags := P m.tags t } ∧ o = .ok ()

/-- Put in, taken out, and the one or the other. -/
def putIn (S : Str → Prop) (t x : Str) : Prop := S x ∨ x = t
def takenOut (S : Str → Prop) (t x : Str) : Prop := S x ∧ x ≠ t
def turned (S : Str → Prop) (t x : Str) : Prop := (S x ∧ x ≠ t) ∨ (x = t ∧ ¬ S x)

theorem add_does (hW : W.Ok) {v : Val} {t : Str} (hv : v.Names t) (ht : Valid t) : Does W T (add W v) m (Act putIn m t) := by
  unfold add
  refine Reads.then (argument_reads hv ht) (checked_does hW (c := .addTag t) trivial ?_)
  intro r m' hs
  simp only [Step] at hs
  unfold Act
  split at hs
  · rename_i hw; right; exact ⟨.readOnly, (by simp), hs.2, by rw [if_pos hw]; exact ⟨hs.1, rfl⟩⟩
  · rename_i hw
    split at hs
    · rename_i hn; right; exact ⟨.tagTooLong, (by simp), hs.2, by rw [if_neg hw, if_pos hn]; exact ⟨hs.1, rfl⟩⟩
    · rename_i hn; left; exact ⟨hs.2, by rw [if_neg hw, if_neg hn]; exact ⟨hs.1, rfl⟩⟩

theorem discard_does (hW : W.Ok) {v : Val} {t : Str} (hv : v.Names t) (ht : Valid t) : Does W T (discard W v) m (Act takenOut m t) := by
  unfold discard
  refine Reads.then (argument_reads hv ht) (checked_does hW (c := .removeTag t) trivial ?_)
  intro r m' hs
  simp only [Step] at hs
  unfold Act
  split at hs
  · rename_i hw; right; exact ⟨.readOnly, (by simp), hs.2, by rw [if_pos hw]; exact ⟨hs.1, rfl⟩⟩
  · rename_i hw
    split at hs
    · rename_i hn; right; exact ⟨.tagTooLong, (by simp), hs.2, by rw [if_neg hw, if_pos hn]; exact ⟨hs.1, rfl⟩⟩
    · rename_i hn; left; exact ⟨hs.2, by rw [if_neg hw, if_neg hn]; exact ⟨hs.1, rfl⟩⟩

theorem clear_does (hW : W.Ok) : Does W T (clear W) m (fun o m' => Clears m (o.map (fun _ => .unit)) m') := by
  unfold clear
  refine checked_does hW (c := .removeAllTags) trivial ?_
  intro r m' hs
  simp only [Step] at hs
  unfold Clears
  split at hs
  · rename_i hw; right; exact ⟨.readOnly, (by simp), hs.2, by rw [if_pos hw]; exact ⟨hs.1, rfl⟩⟩
  · rename_i hw; left; exact ⟨hs.2, by rw [if_neg hw]; exact ⟨hs.1, rfl⟩⟩

theorem turn_does (hW : W.Ok) {t : Str} (ht : Valid t) :
    Does W T (do let b ← contains W (.text t); if b then discard W (.text t) else add W (.text t)) m (Act turned m t) := by
  refine Does.listed fun l hl => ?_
  refine Reads.then (contains_text hW hl t) ?_
  by_cases h : t ∈ l
  · have hm := (hl.mem t).1 h
    simp only [h, decide_true, if_true]
    refine (discard_does hW (.inl rfl) ht).weaken ?_
    intro o m' ha
    unfold Act at ha ⊢
    have : takenOut m.tags t = turned m.tags t := by
      funext x
      refine propext ⟨.inl, ?_⟩
      rintro (h' | ⟨rfl, h'⟩)
      · exact h'
      · exact absurd hm h'
    rw [← this]; exact ha
  · have hm : ¬ m.tags t := fun h' => h ((hl.mem t).2 h')
    simp only [h, decide_false, Bool.false_eq_true, if_false]
    refine (add_does hW (.inl rfl) ht).weaken ?_
    intro o m' ha
    unfold Act at ha ⊢
    have : putIn m.tags t = turned m.tags t := by
      funext x
      refine propext ⟨?_, ?_⟩
      · rintro (h' | rfl)
        · exact .inl ⟨h', fun e => hm (e ▸ h')⟩
        · exact .inr ⟨rfl, hm⟩
      · rintro (h' | ⟨rfl, _⟩)
        · exact .inl h'.1
        · exact .inr rfl
    rw [← this]; exact ha

/-- What happens to many. -/
def Acts (P : (Str → Prop) → Str → Str → Prop) (m : Msg) (ts : List Str) (o : Except Exc Unit) (m' : Msg) : Prop :=
  ((m.writable = true ∨ ts = []) ∧ (∀ t ∈ ts, t.length ≤ 200) ∧ o = .ok () ∧ m' = { m with tags := ts.foldl P m.tags }) ∨
  (m.writable = false ∧ ts ≠ [] ∧ o = .error (.notmuch .readOnly) ∧ m' = m) ∨
  (m.writable = true ∧ ∃ a t b, ts = a ++ t :: b ∧ t.length > 200 ∧ o = .error (.notmuch .tagTooLong) ∧ m' = { m with tags := a.foldl P m.tags })

theorem each_does {P : (Str → Prop) → Str → Str → Prop} {f : Val → Py Unit} (hf : ∀ (m : Msg) (t : Str), Valid t → Does W T (f (.text t)) m (Act P m t)) :
    ∀ (ts : List Str) (m : Msg), (∀ t ∈ ts, Valid t) → Does W T (each f (ts.map .text)) m (Acts P m ts)
  | [], m, _ => Does.pure (.inl ⟨.inr rfl, (fun _ h => by cases h), rfl, rfl⟩)
  | t :: ts, m, hv => by
    unfold each
    refine Does.bind (hf m t (hv t (by simp))) ?_ ?_
    · rintro ⟨⟩ m1 ha
      unfold Act at ha
      split at ha
      · cases ha.2
      · rename_i hw
        split at ha
        · cases ha.2
        · rename_i hn
          obtain ⟨rfl, _⟩ := ha
          refine (each_does hf ts _ (fun t h => hv t (by simp [h]))).weaken ?_
          have hw' : m.writable = true := by simpa using hw
          intro o m' h
          rcases h with ⟨_, h2, h3, h4⟩ | ⟨h1, _⟩ | ⟨_, a, u, b, e, h2, h3, h4⟩
          · exact .inl ⟨.inl hw', by simpa using ⟨by omega, h2⟩, h3, h4⟩
          · exact absurd h1 hw
          · exact .inr (.inr ⟨hw', t :: a, u, b, by rw [e]; rfl, h2, h3, h4⟩)
    · intro e m1 ha
      unfold Act at ha
      split at ha
      · rename_i hw; exact .inr (.inl ⟨hw, (by simp), ha.2, ha.1⟩)
      · rename_i hw
        split at ha
        · rename_i hn; exact .inr (.inr ⟨by simpa using hw, [], t, ts, rfl, hn, ha.2, ha.1⟩)
        · cases ha.2

theorem foldl_putIn : ∀ (ts : List Str) (S : Str → Prop) (x : Str), ts.foldl putIn S x ↔ S x ∨ x ∈ ts
  | [], S, x => by simp
  | t :: ts, S, x => by
    rw [List.foldl_cons, foldl_putIn, List.mem_cons]
    show ((S x ∨ x = t) ∨ _) ↔ _
    rw [or_assoc]

theorem foldl_takenOut : ∀ (ts : List Str) (S : Str → Prop) (x : Str), ts.foldl takenOut S x ↔ S x ∧ x ∉ ts
  | [], S, x => by simp
  | t :: ts, S, x => by
    rw [List.foldl_cons, foldl_takenOut, List.mem_cons, not_or]
    show ((S x ∧ x ≠ t) ∧ _) ↔ _
    rw [and_assoc]

theorem foldl_turned : ∀ (ts : List Str) (S : Str → Prop) (x : Str), ts.Nodup → (ts.foldl turned S x ↔ (S x ∧ x ∉ ts) ∨ (x ∈ ts ∧ ¬ S x))
  | [], S, x, _ => by simp
  | t :: ts, S, x, hn => by
    obtain ⟨h1, h2⟩ := List.nodup_cons.1 hn
    rw [List.foldl_cons, foldl_turned ts _ x h2, List.mem_cons]
    unfold turned
    by_cases hx : x = t
    · subst hx
      by_cases hs : S x <;> simp [h1, hs]
    · by_cases hs : S x <;> by_cases hm : x ∈ ts <;> simp [hx, hs, hm]

theorem changes_of {P : (Str → Prop) → Str → Str → Prop} {ts : List Str} {C R : Str → Prop} (hC : ∀ t, t ∈ ts ↔ C t) (hR : ∀ t, ts.foldl P m.tags t ↔ R t)
    (hD : ∀ a b, ts = a ++ b → ∀ t, (¬ C t → (a.foldl P m.tags t ↔ m.tags t)) ∧ (C t → a.foldl P m.tags t → m.tags t ∨ R t) ∧ (C t → m.tags t → R t → a.foldl P m.tags t))
    {o : Except Exc Unit} {m' : Msg} (h : Acts P m ts o m') : Changes m C R (o.map (fun _ => .unit)) m' := by
  rcases h with ⟨h1, h2, rfl, rfl⟩ | ⟨h1, h2, rfl, rfl⟩ | ⟨h1, a, t, b, e, h2, rfl, rfl⟩
  · refine .inl ⟨?_, fun t ht => h2 t ((hC t).2 ht), rfl, ?_⟩
    · rcases h1 with h1 | rfl
      · exact .inl h1
      · exact .inr (fun t ht => by cases (hC t).2 ht)
    · rw [show ts.foldl P m.tags = R from funext fun t => propext (hR t)]
  · refine .inr (.inl ⟨h1, ?_, rfl, rfl⟩)
    cases ts with
    | nil => exact absurd rfl h2
    | cons t ts => exact ⟨t, (hC t).1 (by simp)⟩
  · exact .inr (.inr ⟨h1, ⟨t, (hC t).1 (by rw [e]; simp), h2⟩, rfl, _, rfl, hD a (t :: b) e⟩)

theorem mem_prefix {ts a b : List Str} (e : ts = a ++ b) {t : Str} (h : t ∈ a) : t ∈ ts := by rw [e]; exact List.mem_append_left _ h

theorem readable_tags {S : Str → Prop} (hr : Readable m) (h : ∀ t, S t → m.tags t ∨ Valid t) : Readable { m with tags := S } :=
  ⟨fun t ht => (h t ht).elim (hr.tags t) id, hr.keys⟩

theorem readable_changes (hr : Readable m) {C R : Str → Prop} (hC : ∀ t, C t → m.tags t ∨ Valid t) (hR : ∀ t, R t → m.tags t ∨ C t) {o : Except Exc Out} {m' : Msg}
    (h : Changes m C R o m') : Readable m' := by
  rcases h with ⟨_, _, _, rfl⟩ | ⟨_, _, _, rfl⟩ | ⟨_, _, _, D, rfl, hD⟩
  · refine readable_tags hr fun t ht => ?_
    rcases hR t ht with h | h
    · exact .inl h
    · exact hC t h
  · exact hr
  · refine readable_tags hr fun t ht => ?_
    by_cases hc : C t
    · exact hC t hc
    · exact .inl (((hD t).1 hc).1 ht)

end Notmuch.PyColl
