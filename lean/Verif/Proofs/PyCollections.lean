import Verif.Spec.PyCollections
import Verif.Proofs.MessageCalls
import Verif.Proofs.Utf8
import Verif.Proofs.NewScan

/-! # Proofs: the collections of the Python bindings -/

namespace Notmuch.PyColl

open Notmuch.Message
open Notmuch.TermList (Sorted PropOp sorted_nodup sorted_ext)
open Notmuch.StringMap (Pair strcmp strcmp_lt)
open Notmuch.StringMapSpec (LexLe PairLe Matches)
open Notmuch.Utf8Spec (Valid)
open Notmuch.ConfigCmd (Utf8 utf8 utf8From utf8Step)

/-! ## Text -/

theorem ignore_valid : ∀ (s : Str) (q : Utf8) (p : Str), utf8From q s = true → (q = .start → p = []) → ignoreFrom q p s = p ++ s
  | [], q, p, h, hp => by
    have : q = .start := by simpa [utf8From] using h
    simp [ignoreFrom, hp this]
  | c :: s, q, p, h, hp => by
    unfold utf8From at h
    unfold ignoreFrom
    cases e : utf8Step q c with
    | none => rw [e] at h; cases h
    | some q' =>
      rw [e] at h
      cases q' with
      | start => simp only; rw [ignore_valid s .start [] h (fun _ => rfl)]; simp
      | _ => simp only; rw [ignore_valid s _ _ h (fun x => by cases x)]; simp

theorem decode_valid {s : Str} (h : Valid s) : decode s = .text s := by
  unfold decode
  rw [ignore_valid s .start [] ((ConfigCmd.utf8_iff s).2 h) (fun _ => rfl)]; rfl

theorem cut_valid {s : Str} (h : Valid s) : cut s = s := by
  have := ConfigCmd.utf8_no_nul .start s ((ConfigCmd.utf8_iff s).2 h)
  unfold cut
  clear h
  induction s with
  | nil => rfl
  | cons c s ih =>
    rw [List.mem_cons, not_or] at this
    rw [List.takeWhile_cons, if_pos (by simpa using fun h => this.1 h.symm), ih this.2]

/-! ## Programs -/

/-- What a program does with a message. -/
def Does (W : World) (T : List Str) {α : Type} (p : Py α) (m : Msg) (Q : Except Exc α → Msg → Prop) : Prop :=
  ∀ h, Inv W T h m → ∃ h' o m', p h = some (h', o) ∧ Q o m' ∧ Inv W T h' m'

/-- A program that only reads. -/
def Reads (W : World) (T : List Str) {α : Type} (p : Py α) (m : Msg) (a : α) : Prop := Does W T p m (fun o m' => m' = m ∧ o = .ok a)

section

variable {W : World} {T : List Str} {α β : Type} {m : Msg}

theorem Does.pure {Q : Except Exc α → Msg → Prop} {a : α} (h : Q (.ok a) m) : Does W T (pure a) m Q := fun hd i => ⟨hd, _, m, rfl, h, i⟩

theorem Does.raise {Q : Except Exc α → Msg → Prop} {e : Exc} (h : Q (.error e) m) : Does W T (PyColl.raise e) m Q := fun hd i => ⟨hd, _, m, rfl, h, i⟩

theorem Does.weaken {Q Q' : Except Exc α → Msg → Prop} {p : Py α} (h : Does W T p m Q) (hq : ∀ o m', Q o m' → Q' o m') : Does W T p m Q' := by
  intro hd i
  obtain ⟨h', o, m', e, q, i'⟩ := h hd i
  exact ⟨h', o, m', e, hq _ _ q, i'⟩

theorem Does.bind {Q1 : Except Exc α → Msg → Prop} {Q : Except Exc β → Msg → Prop} {p : Py α} {f : α → Py β} (h : Does W T p m Q1)
    (ho : ∀ a m', Q1 (.ok a) m' → Does W T (f a) m' Q) (he : ∀ e m', Q1 (.error e) m' → Q (.error e) m') : Does W T (p >>= f) m Q := by
  intro hd i
  obtain ⟨h', o, m', e, q, i'⟩ := h hd i
  cases o with
  | error x => exact ⟨h', .error x, m', by show Py.next (p hd) f = _; rw [e]; rfl, he _ _ q, i'⟩
  | ok a =>
    obtain ⟨h2, o2, m2, e2, q2, i2⟩ := ho a m' q h' i'
    exact ⟨h2, o2, m2, by show Py.next (p hd) f = _; rw [e]; exact e2, q2, i2⟩

theorem Reads.pure (a : α) : Reads W T (pure a) m a := Does.pure ⟨rfl, rfl⟩

theorem Reads.then {Q : Except Exc β → Msg → Prop} {p : Py α} {f : α → Py β} {a : α} (h : Reads W T p m a) (hf : Does W T (f a) m Q) : Does W T (p >>= f) m Q := by
  refine Does.bind h ?_ ?_
  · rintro b m' ⟨rfl, e⟩; cases e; exact hf
  · rintro e m' ⟨_, h⟩; cases h

theorem Reads.bind {p : Py α} {f : α → Py β} {a : α} {b : β} (h : Reads W T p m a) (hf : Reads W T (f a) m b) : Reads W T (p >>= f) m b := h.then hf

theorem Does.ccall (hW : W.Ok) {c : Call} (hc : c.Ok W) : Does W T (PyColl.ccall W c) m (fun o m' => ∃ r, o = .ok r ∧ Step W m c r m') := by
  intro h i
  obtain ⟨h', r, m', e, s, i'⟩ := i.call hW c hc
  exact ⟨h', .ok r, m', by simp [PyColl.ccall, e], ⟨r, rfl, s⟩, i'⟩

theorem Does.orKey {Q1 Q : Except Exc α → Msg → Prop} {p q : Py α} (h : Does W T p m Q1) (hk : ∀ m', Q1 (.error .key) m' → Does W T q m' Q)
    (ho : ∀ o m', Q1 o m' → o ≠ .error .key → Q o m') : Does W T (PyColl.orKey p q) m Q := by
  intro hd i
  obtain ⟨h', o, m', e, q1, i'⟩ := h hd i
  by_cases hx : o = .error .key
  · subst hx
    obtain ⟨h2, o2, m2, e2, q2, i2⟩ := hk m' q1 h' i'
    exact ⟨h2, o2, m2, by unfold PyColl.orKey; rw [e]; exact e2, q2, i2⟩
  · refine ⟨h', o, m', ?_, ho o m' q1 hx, i'⟩
    unfold PyColl.orKey; rw [e]
    cases o with
    | ok a => rfl
    | error x => cases x <;> first | rfl | exact absurd rfl hx

theorem allOf_reads {f : Val → Py Bool} {g : Val → Bool} : ∀ {l : List Val}, (∀ v ∈ l, Reads W T (f v) m (g v)) → Reads W T (allOf f l) m (l.all g)
  | [], _ => Reads.pure _
  | v :: l, h => by
    unfold allOf
    refine Reads.bind (h v (by simp)) ?_
    rw [List.all_cons]
    cases g v with
    | true => simpa using allOf_reads (fun v hv => h v (by simp [hv]))
    | false => simpa using Reads.pure _

theorem select_reads {f : Val → Py Bool} {g : Val → Bool} : ∀ {l : List Val}, (∀ v ∈ l, Reads W T (f v) m (g v)) → Reads W T (select f l) m (l.filter g)
  | [], _ => Reads.pure _
  | v :: l, h => by
    unfold select
    refine Reads.bind (h v (by simp)) (Reads.bind (select_reads (fun v hv => h v (by simp [hv]))) ?_)
    rw [List.filter_cons]
    exact Reads.pure _

end

/-! ## Lists -/

theorem mem_mkset {α : Type} [DecidableEq α] {v : α} : ∀ {l : List α}, v ∈ mkset l ↔ v ∈ l
  | [] => Iff.rfl
  | w :: l => by
    unfold mkset
    split
    · rename_i h
      rw [mem_mkset, List.mem_cons]
      constructor
      · exact .inr
      · rintro (rfl | h')
        · exact mem_mkset.1 h
        · exact h'
    · rw [List.mem_cons, List.mem_cons, mem_mkset]

theorem nodup_mkset {α : Type} [DecidableEq α] : ∀ (l : List α), (mkset l).Nodup
  | [] => List.nodup_nil
  | w :: l => by
    unfold mkset
    split
    · exact nodup_mkset l
    · rename_i h; exact List.nodup_cons.2 ⟨h, nodup_mkset l⟩

theorem insertBytes_sorted {x : Str} {l : List Str} (h : Sorted (x :: l)) : insertBytes x l = x :: l := by
  cases l with
  | nil => rfl
  | cons y l =>
    unfold insertBytes
    rw [if_neg]
    have h1 : strcmp x y = .lt := (List.pairwise_cons.1 h).1 y (by simp)
    intro h2
    rw [strcmp_lt] at h1 h2
    exact h1.2 (StringMap.lexLe_antisymm _ _ h2.1 h1.1)

theorem sortBytes_sorted : ∀ {l : List Str}, Sorted l → sortBytes l = l
  | [], _ => rfl
  | x :: l, h => by
    have := sortBytes_sorted (l := l) (List.pairwise_cons.1 h).2
    unfold sortBytes at this ⊢
    rw [List.foldr_cons, this, insertBytes_sorted h]

theorem nodup_map_text {l : List Str} (h : l.Nodup) : (l.map Val.text).Nodup := by
  unfold List.Nodup
  rw [List.pairwise_map]
  refine List.Pairwise.imp (fun hab he => ?_) h
  cases he; exact hab rfl

theorem texts_of : ∀ {l : List Val}, (∀ v ∈ l, ∃ t, v = .text t ∧ Valid t) → ∃ xs : List Str, l = xs.map .text ∧ ∀ t ∈ xs, Valid t
  | [], _ => ⟨[], rfl, by simp⟩
  | v :: l, h => by
    obtain ⟨t, rfl, ht⟩ := h v (by simp)
    obtain ⟨xs, rfl, hx⟩ := texts_of (l := l) (fun v hv => h v (by simp [hv]))
    exact ⟨t :: xs, rfl, by simpa using ⟨ht, hx⟩⟩

theorem nodup_of_map_text {l : List Str} (h : (l.map Val.text).Nodup) : l.Nodup := by
  unfold List.Nodup at h
  rw [List.pairwise_map] at h
  exact h.imp (fun hab he => hab (by rw [he]))

theorem map_decode {l : List Str} (h : ∀ t ∈ l, Valid t) : l.map decode = l.map .text := List.map_congr_left (fun t ht => decode_valid (h t ht))

theorem mem_map_text {l : List Str} {t : Str} : Val.text t ∈ l.map Val.text ↔ t ∈ l := by
  rw [List.mem_map]
  constructor
  · rintro ⟨a, h, e⟩; cases e; exact h
  · intro h; exact ⟨t, h, rfl⟩

/-! ## The tags -/

/-- The list of the tags. -/
structure Lists (m : Msg) (l : List Str) : Prop where
  sorted : Sorted l
  mem : ∀ t, t ∈ l ↔ m.tags t

theorem valuesWith_sorted {p : Str} {terms : List Str} (h : Sorted terms) : Sorted (TermList.valuesWith p terms) := by
  unfold TermList.valuesWith TermList.Sorted
  rw [List.pairwise_filterMap]
  refine h.imp ?_
  intro a b hab x hx y hy
  split at hx
  · split at hy
    · rename_i h1 h2
      cases hx; cases hy
      obtain ⟨a', rfl⟩ := List.isPrefixOf_iff_prefix.1 h1
      obtain ⟨b', rfl⟩ := List.isPrefixOf_iff_prefix.1 h2
      rw [List.drop_left, List.drop_left]
      clear h1 h2
      induction p with
      | nil => exact hab
      | cons c p ih => exact ih (by simpa [strcmp] using hab)
    · cases hy
  · cases hx

section

variable {W : World} {T : List Str} {m : Msg}

theorem Does.listed {α : Type} {p : Py α} {Q : Except Exc α → Msg → Prop} (h : ∀ l, Lists m l → Does W T p m Q) : Does W T p m Q := by
  intro hd i
  refine h (TermList.valuesWith (bs "K") hd.terms) ⟨valuesWith_sorted i.holds.sorted, fun t => ?_⟩ hd i
  rw [TermList.mem_valuesWith]; exact i.holds.tags t

theorem rawTags_reads (hW : W.Ok) {l : List Str} (hl : Lists m l) : Reads W T (rawTags W) m l := by
  unfold rawTags
  refine Does.bind (Does.ccall hW (c := .tags) trivial) ?_ ?_
  · rintro r m' ⟨_, e, rfl, l', rfl, hs, hm⟩
    cases e
    have : l' = l := sorted_ext hs hl.sorted (fun t => (hm t).trans (hl.mem t).symm)
    subst this
    exact Reads.pure _
  · rintro e m' ⟨r, h, _⟩; cases h

theorem iter_reads (hW : W.Ok) (hr : Readable m) {l : List Str} (hl : Lists m l) : Reads W T (iter W) m (l.map .text) := by
  unfold iter
  refine Reads.bind (rawTags_reads hW hl) ?_
  rw [map_decode (fun t ht => hr.tags t ((hl.mem t).1 ht))]
  exact Reads.pure _

theorem len_reads (hW : W.Ok) (hr : Readable m) {l : List Str} (hl : Lists m l) : Reads W T (len W) m l.length := by
  unfold len
  refine Reads.bind (iter_reads hW hr hl) ?_
  rw [List.length_map]
  exact Reads.pure _

theorem contains_text (hW : W.Ok) {l : List Str} (hl : Lists m l) (t : Str) : Reads W T (contains W (.text t)) m (decide (t ∈ l)) := by
  unfold contains
  exact Reads.bind (Reads.pure _) (Reads.bind (rawTags_reads hW hl) (Reads.pure _))

theorem contains_raw (hW : W.Ok) {l : List Str} (hl : Lists m l) (t : Str) : Reads W T (contains W (.raw t)) m (decide (t ∈ l)) := by
  unfold contains
  exact Reads.bind (Reads.pure _) (Reads.bind (rawTags_reads hW hl) (Reads.pure _))

theorem contains_other (hW : W.Ok) {l : List Str} (hl : Lists m l) (n : Nat) : Reads W T (contains W (.other n)) m false := by
  unfold contains
  exact Reads.bind (Reads.pure _) (Reads.bind (rawTags_reads hW hl) (Reads.pure _))

/-- The names of the other operand. -/
structure Over (W : World) (T : List Str) (m : Msg) (x : Operand) (xs : List Str) : Prop where
  iter : Reads W T (x.iter W) m (xs.map .text)
  mem : ∀ t, t ∈ xs ↔ x.Has m t
  nodup : x.isSet = true → xs.Nodup
  len : Reads W T (x.len W) m xs.length
  contains : ∀ t, Reads W T (x.contains W (.text t)) m (decide (t ∈ xs))
  valid : ∀ t ∈ xs, Valid t

theorem over (hW : W.Ok) (hr : Readable m) {l : List Str} (hl : Lists m l) {x : Operand} (hx : x.Ok) : ∃ xs, Over W T m x xs := by
  cases x with
  | it => exact ⟨l, iter_reads hW hr hl, hl.mem, fun _ => sorted_nodup hl.sorted, len_reads hW hr hl, contains_text hW hl, fun t ht => hr.tags t ((hl.mem t).1 ht)⟩
  | tags k =>
    refine ⟨k, ?_, fun _ => Iff.rfl, fun _ => sorted_nodup hx.1, Reads.pure _, fun t => ?_, hx.2⟩
    · show Reads W T (Pure.pure (k.map decode)) m _
      rw [map_decode hx.2]; exact Reads.pure _
    · exact Reads.bind (Reads.pure _) (Reads.pure _)
  | set k =>
    obtain ⟨xs, rfl, hv⟩ := texts_of hx.2
    refine ⟨xs, Reads.pure _, fun t => mem_map_text.symm, fun _ => nodup_of_map_text hx.1, ?_, fun t => ?_, hv⟩
    · show Reads W T (Pure.pure (xs.map Val.text).length) m _
      rw [List.length_map]; exact Reads.pure _
    · show Reads W T (Pure.pure (decide (Val.text t ∈ xs.map Val.text))) m _
      rw [decide_eq_decide.2 mem_map_text]; exact Reads.pure _
  | list k =>
    obtain ⟨xs, rfl, hv⟩ := texts_of hx
    refine ⟨xs, Reads.pure _, fun t => mem_map_text.symm, (fun h => by cases h), ?_, fun t => ?_, hv⟩
    · show Reads W T (Pure.pure (xs.map Val.text).length) m _
      rw [List.length_map]; exact Reads.pure _
    · show Reads W T (Pure.pure (decide (Val.text t ∈ xs.map Val.text))) m _
      rw [decide_eq_decide.2 mem_map_text]; exact Reads.pure _

theorem toSet_ok {x : Operand} (hx : x.Ok) : x.toSet.Ok := by
  cases x with
  | list l => exact ⟨nodup_mkset l, fun v hv => hx v (mem_mkset.1 hv)⟩
  | _ => exact hx

theorem toSet_has {x : Operand} {t : Str} : x.toSet.Has m t ↔ x.Has m t := by
  cases x with
  | list l => exact mem_mkset
  | _ => exact Iff.rfl

theorem toSet_isSet (x : Operand) : x.toSet.isSet = true := by cases x <;> rfl

/-- The value of a test of texts. -/
def onText (g : Str → Bool) : Val → Bool
  | .text t => g t
  | _ => false

theorem filter_text (g : Str → Bool) (l : List Str) : (l.map Val.text).filter (onText g) = (l.filter g).map .text := by
  rw [List.filter_map]; rfl

theorem all_text (g : Str → Bool) (l : List Str) : (l.map Val.text).all (onText g) = l.all g := by
  rw [List.all_map]; rfl

theorem allOf_text {f : Val → Py Bool} {g : Str → Bool} {l : List Str} (h : ∀ t, Reads W T (f (.text t)) m (g t)) : Reads W T (allOf f (l.map .text)) m (l.all g) := by
  rw [← all_text]
  refine allOf_reads (fun v hv => ?_)
  obtain ⟨t, _, rfl⟩ := List.mem_map.1 hv
  exact h t

theorem select_text {f : Val → Py Bool} {g : Str → Bool} {l : List Str} (h : ∀ t, Reads W T (f (.text t)) m (g t)) :
    Reads W T (select f (l.map .text)) m ((l.filter g).map .text) := by
  rw [← filter_text]
  refine select_reads (fun v hv => ?_)
  obtain ⟨t, _, rfl⟩ := List.mem_map.1 hv
  exact h t

theorem not_reads {f : Py Bool} {b : Bool} (h : Reads W T f m b) : Reads W T (do let b ← f; pure (!b)) m (!b) := Reads.bind h (Reads.pure _)

end

end Notmuch.PyColl
