import Verif.Proofs.PyCollections2

/-! # Proofs: the collections of the Python bindings, the properties, and programs -/

namespace Notmuch.PyColl

open Notmuch.Message
open Notmuch.TermList (Sorted PropOp sorted_nodup sorted_ext)
open Notmuch.StringMap (Pair strcmp strcmp_lt)
open Notmuch.StringMapSpec (LexLe PairLe Matches)
open Notmuch.Utf8Spec (Valid)

variable {W : World} {T : List Str} {m : Msg}

/-! ## The properties -/

theorem pairs_does (hW : W.Ok) (key : Str) (e : Bool) : Does W T (pairs W key e) m (fun o m' => m' = m ∧ ∃ l : List Pair, o = .ok l ∧ l.Pairwise PairLe ∧ l.Nodup ∧
    ∀ k v, (k, v) ∈ l ↔ m.props k v ∧ Matches key e k) := by
  unfold pairs
  refine Does.bind (Does.ccall hW (c := .properties key e) trivial) ?_ ?_
  · rintro r m' ⟨_, e, rfl, l, rfl, h1, h2, h3⟩
    cases e
    exact Does.pure ⟨rfl, l, rfl, h1, h2, h3⟩
  · rintro e m' ⟨r, h, _⟩; cases h

/-- All of them. -/
theorem pairs_all (hW : W.Ok) : Does W T (pairs W [] false) m (fun o m' => m' = m ∧ ∃ l : List Pair, o = .ok l ∧ l.Pairwise PairLe ∧ l.Nodup ∧
    ∀ k v, (k, v) ∈ l ↔ m.props k v) := by
  refine (pairs_does hW [] false).weaken ?_
  rintro o m' ⟨h, l, e, h1, h2, h3⟩
  refine ⟨h, l, e, h1, h2, fun k v => (h3 k v).trans ?_⟩
  simp [Matches]

theorem keyIter_does (hW : W.Ok) (hr : Readable m) : Does W T (keyIter W) m (fun o m' => m' = m ∧ ∃ l : List Pair, o = .ok (l.map (fun p => .text p.1)) ∧ l.Pairwise PairLe ∧
    l.Nodup ∧ ∀ k v, (k, v) ∈ l ↔ m.props k v) := by
  unfold keyIter
  refine Does.bind (pairs_all hW) ?_ ?_
  · rintro l m' ⟨rfl, _, e, h1, h2, h3⟩
    cases e
    refine Does.pure ⟨rfl, l, ?_, h1, h2, h3⟩
    rw [List.map_congr_left]
    rintro ⟨k, v⟩ hp
    exact decode_valid (hr.keys k v ((h3 k v).1 hp)).1
  · rintro e m' ⟨_, l, h, _⟩; cases h

theorem getitem_does (hW : W.Ok) (hr : Readable m) {k : Val} {t : Str} (hk : k.Names t) (ht : Valid t) : Does W T (getitem W k) m (fun o m' => m' = m ∧
    (((∀ w, ¬ m.props t w) ∧ o = .error .key) ∨ ∃ w, First m t w ∧ Valid w ∧ o = .ok (.text w))) := by
  unfold getitem
  refine Reads.then (argument_reads hk ht) (Does.bind (Does.ccall hW (c := .property t) trivial) ?_ ?_)
  · rintro r m' ⟨_, e, rfl, v, rfl, h1, h2⟩
    cases e
    cases v with
    | none => exact Does.raise ⟨rfl, .inl ⟨h1.1 rfl, rfl⟩⟩
    | some w =>
      have hw := (hr.keys t w (h2 w rfl).1).2
      exact Does.pure ⟨rfl, .inr ⟨w, h2 w rfl, hw, by rw [decode_valid hw]⟩⟩
  · rintro e m' ⟨r, h, _⟩; cases h

/-- The lookup of `pop` and `setdefault`. -/
theorem lookup_does (hW : W.Ok) (hr : Readable m) {k : Val} {t : Str} (hk : k.Names t) (ht : Valid t) :
    Does W T (orKey (do let v ← getitem W k; pure (some v)) (pure none)) m (fun o m' => m' = m ∧
      (((∀ w, ¬ m.props t w) ∧ o = .ok none) ∨ ∃ w, First m t w ∧ Valid w ∧ o = .ok (some (.text w)))) := by
  refine Does.orKey (Q1 := fun o m' => m' = m ∧ (((∀ w, ¬ m.props t w) ∧ o = .error .key) ∨ ∃ w, First m t w ∧ Valid w ∧ o = .ok (some (.text w)))) ?_ ?_ ?_
  · refine Does.bind (getitem_does hW hr hk ht) ?_ ?_
    · rintro v m' ⟨rfl, ⟨_, h⟩ | ⟨w, h1, h2, h3⟩⟩
      · cases h
      · cases h3; exact Does.pure ⟨rfl, .inr ⟨w, h1, h2, rfl⟩⟩
    · rintro e m' ⟨rfl, ⟨h1, h⟩ | ⟨w, h1, h2, h3⟩⟩
      · cases h; exact ⟨rfl, .inl ⟨h1, rfl⟩⟩
      · cases h3
  · rintro m' ⟨rfl, ⟨h1, h⟩ | ⟨w, h1, h2, h3⟩⟩
    · exact Does.pure ⟨rfl, .inl ⟨h1, rfl⟩⟩
    · cases h3
  · rintro o m' ⟨rfl, ⟨h1, h⟩ | ⟨w, h1, h2, h3⟩⟩ hn
    · exact absurd h hn
    · exact ⟨rfl, .inr ⟨w, h1, h2, h3⟩⟩

/-- The properties become `P`. -/
def SetsU (m : Msg) (P : Str → Str → Prop) (o : Except Exc Unit) (m' : Msg) : Prop :=
  if m.writable = false then m' = m ∧ o = .error (.notmuch .readOnly) else m' = { m with props := P } ∧ o = .ok ()

theorem setitem_does (hW : W.Ok) {k v : Val} {t w : Str} (hk : k.Names t) (hv : v.Names w) (ht : Valid t) (hw : Valid w) (hn : t.length + w.length ≤ 235) :
    Does W T (setitem W k v) m (fun o m' => if m.writable = true ∧ 61 ∈ t then m' = m ∧ o = .error (.notmuch .illegalArgument) else
      SetsU m (PropOp.apply m.props (.add t w)) o m') := by
  unfold setitem
  refine Reads.then (argument_reads hk ht) (Reads.then (argument_reads hv hw) (checked_does hW (c := .addProperty t w) hn ?_))
  intro r m' hs
  simp only [Step] at hs
  unfold SetsU
  cases hw : m.writable <;> simp only [hw] at hs
  · right; exact ⟨.readOnly, (by simp), hs.2, by simpa using hs.1⟩
  · by_cases h61 : 61 ∈ t <;> simp only [h61] at hs
    · right; exact ⟨.illegalArgument, (by simp), hs.2, by simpa [h61] using hs.1⟩
    · left; exact ⟨hs.2, by simpa [h61] using hs.1⟩

theorem removeProp_does (hW : W.Ok) {k v : Val} {t w : Str} (hk : k.Names t) (hv : v.Names w) (ht : Valid t) (hw : Valid w) (hn : t.length + w.length ≤ 235) :
    Does W T (removeProp W k v) m (fun o m' => if m.writable = true ∧ 61 ∈ t then m' = m ∧ o = .error (.notmuch .illegalArgument) else
      SetsU m (PropOp.apply m.props (.remove t w)) o m') := by
  unfold removeProp
  refine Reads.then (argument_reads hk ht) (Reads.then (argument_reads hv hw) (checked_does hW (c := .removeProperty t w) hn ?_))
  intro r m' hs
  simp only [Step] at hs
  unfold SetsU
  cases hw : m.writable <;> simp only [hw] at hs
  · right; exact ⟨.readOnly, (by simp), hs.2, by simpa using hs.1⟩
  · by_cases h61 : 61 ∈ t <;> simp only [h61] at hs
    · right; exact ⟨.illegalArgument, (by simp), hs.2, by simpa [h61] using hs.1⟩
    · left; exact ⟨hs.2, by simpa [h61] using hs.1⟩

theorem removeAll_does (hW : W.Ok) (k : Option Str) (hk : ∀ t, k = some t → 61 ∉ t) :
    Does W T (checked W (.removeAllProperties k false)) m (fun o m' => SetsU m (PropOp.apply m.props (.removeAll k)) o m') := by
  refine checked_does hW (c := .removeAllProperties k false) ?_ ?_
  · cases k with
    | none => exact trivial
    | some t => exact hk t rfl
  intro r m' hs
  simp only [Step] at hs
  unfold SetsU
  cases hw : m.writable <;> simp only [hw] at hs
  · right; exact ⟨.readOnly, (by simp), hs.2, by simpa using hs.1⟩
  · left; exact ⟨hs.2, by simpa using hs.1⟩

/-- A property that is there is short, and its key has no `=`. -/
theorem Does.props {α : Type} {p : Py α} {Q : Except Exc α → Msg → Prop} (h : (∀ k v, m.props k v → 61 ∉ k ∧ k.length + v.length ≤ 235) → Does W T p m Q) : Does W T p m Q := by
  intro hd i
  refine h (fun k v hp => ⟨i.holds.propKeys k v hp, ?_⟩) hd i
  have := i.holds.short _ ((i.holds.props _).2 ⟨k, v, hp, rfl⟩)
  simp only [List.length_append] at this
  have e1 : (bs "XPROPERTY").length = 9 := by decide +kernel
  have e2 : (bs "=").length = 1 := by decide +kernel
  omega

theorem popProp_does (hW : W.Ok) (hr : Readable m) {k : Val} {t : Str} (d : Option Val) (hk : k.Names t) (ht : Valid t) :
    Does W T (popProp W k d) m (fun o m' => ((∀ w, ¬ m.props t w) ∧ m' = m ∧ o = (match d with | some d => .ok d | none => .error .key)) ∨
      ∃ w, First m t w ∧ SetsU m (PropOp.apply m.props (.remove t w)) (o.map (fun _ => ())) m' ∧ ∀ v, o = .ok v → v = .text w) := by
  refine Does.props fun hp => ?_
  unfold popProp
  refine Does.bind (lookup_does hW hr hk ht) ?_ ?_
  · rintro v m' ⟨rfl, ⟨h1, h⟩ | ⟨w, h1, h2, h⟩⟩
    · cases h
      cases d with
      | none => exact Does.raise (.inl ⟨h1, rfl, rfl⟩)
      | some d => exact Does.pure (.inl ⟨h1, rfl, rfl⟩)
    · cases h
      obtain ⟨hq, hn⟩ := hp t w h1.1
      refine Does.bind (removeProp_does hW hk (.inl rfl) ht h2 hn) ?_ ?_
      · rintro ⟨⟩ m1 hs
        rw [if_neg (fun h => hq h.2)] at hs
        refine Does.pure (.inr ⟨w, h1, hs, ?_⟩)
        rintro v h; cases h; rfl
      · intro e m1 hs
        rw [if_neg (fun h => hq h.2)] at hs
        refine .inr ⟨w, h1, hs, ?_⟩
        rintro v h; cases h
  · rintro e m' ⟨rfl, ⟨h1, h⟩ | ⟨w, h1, h2, h⟩⟩ <;> cases h

theorem setsU_map {P : Str → Str → Prop} {α : Type} {o : Except Exc α} {m' : Msg} {f : α → Out} {r : Out} (h : SetsU m P (o.map (fun _ => ())) m')
    (hr : ∀ a, o = .ok a → f a = r) : Sets m P (o.map f) m' r := by
  unfold SetsU at h
  unfold Sets
  split at h
  · rename_i hw
    rw [if_pos hw]
    refine ⟨h.1, ?_⟩
    cases o with
    | ok a => cases h.2
    | error e => cases h.2; rfl
  · rename_i hw
    rw [if_neg hw]
    refine ⟨h.1, ?_⟩
    cases o with
    | ok a => rw [← hr a rfl]; rfl
    | error e => cases h.2

theorem except_id {o : Except Exc Unit} : o.map (fun _ => ()) = o := by cases o <;> rfl

theorem readable_sets (hr : Readable m) {P : Str → Str → Prop} (hP : ∀ k w, P k w → m.props k w ∨ (Valid k ∧ Valid w)) {o : Except Exc Out} {m' : Msg} {r : Out} (h : Sets m P o m' r) :
    Readable m' := by
  unfold Sets at h
  split at h
  · rw [h.1]; exact hr
  · rw [h.1]; exact ⟨hr.tags, fun k w hk => (hP k w hk).elim (hr.keys k w) id⟩

theorem pairLe_keys {p q : Pair} (h : PairLe p q) : LexLe p.1 q.1 := by
  rcases h with ⟨_, h⟩ | ⟨h, _⟩
  · exact h
  · rw [h]; exact StringMap.lexLe_refl _

theorem popitem_does (hW : W.Ok) (hr : Readable m) :
    Does W T (popitem W) m (fun o m' => ((∀ k w, ¬ m.props k w) ∧ m' = m ∧ o = .error .key) ∨
      ∃ k w, First m k w ∧ (∀ k' w', m.props k' w' → LexLe k k') ∧ SetsU m (PropOp.apply m.props (.remove k w)) (o.map (fun _ => ())) m' ∧
        ∀ v, o = .ok v → v = (.text k, .text w)) := by
  unfold popitem
  refine Does.bind (keyIter_does hW hr) ?_ ?_
  · rintro ks m' ⟨rfl, l, e, h1, _, h3⟩
    cases e
    cases l with
    | nil => exact Does.raise (.inl ⟨(fun k w h => by cases (h3 k w).2 h), rfl, rfl⟩)
    | cons p l =>
      obtain ⟨k, w0⟩ := p
      have hk := (h3 k w0).1 (by simp)
      have hlow : ∀ k' w', m'.props k' w' → LexLe k k' := by
        intro k' w' h
        rcases List.mem_cons.1 ((h3 k' w').2 h) with h' | h'
        · cases h'; exact StringMap.lexLe_refl _
        · exact pairLe_keys ((List.pairwise_cons.1 h1).1 _ h')
      refine Does.bind (popProp_does hW hr none (.inl rfl) (hr.keys k w0 hk).1) ?_ ?_
      · rintro v m1 (⟨h, _⟩ | ⟨w, h4, h5, h6⟩)
        · exact absurd hk (h w0)
        · have := h6 v rfl
          subst this
          exact Does.pure (.inr ⟨k, w, h4, hlow, h5, fun v h => by cases h; rfl⟩)
      · rintro e m1 (⟨h, _⟩ | ⟨w, h4, h5, h6⟩)
        · exact absurd hk (h w0)
        · exact .inr ⟨k, w, h4, hlow, h5, fun v h => by cases h⟩
  · rintro e m' ⟨_, l, h, _⟩; cases h

/-! ## Operations -/

theorem act_adds {t : Str} {o : Except Exc Unit} {m' : Msg} (h : Act putIn m t o m') : Adds m t (o.map (fun _ => .unit)) m' .unit := by
  unfold Act at h
  unfold Adds
  split at h
  · rename_i hw; rw [if_pos hw]; obtain ⟨h1, rfl⟩ := h; exact ⟨h1, rfl⟩
  · rename_i hw
    rw [if_neg hw]
    split at h
    · rename_i hn; rw [if_pos hn]; obtain ⟨h1, rfl⟩ := h; exact ⟨h1, rfl⟩
    · rename_i hn; rw [if_neg hn]; obtain ⟨h1, rfl⟩ := h; exact ⟨h1, rfl⟩

theorem act_drops {t : Str} {o : Except Exc Unit} {m' : Msg} (h : Act takenOut m t o m') (r : Out) : Drops m t (o.map (fun _ => r)) m' r := by
  unfold Act at h
  unfold Drops
  split at h
  · rename_i hw; rw [if_pos hw]; obtain ⟨h1, rfl⟩ := h; exact ⟨h1, rfl⟩
  · rename_i hw
    rw [if_neg hw]
    split at h
    · rename_i hn; rw [if_pos hn]; obtain ⟨h1, rfl⟩ := h; exact ⟨h1, rfl⟩
    · rename_i hn; rw [if_neg hn]; obtain ⟨h1, rfl⟩ := h; exact ⟨h1, rfl⟩

theorem readable_adds (hr : Readable m) {t : Str} (ht : Valid t) {o : Except Exc Out} {m' : Msg} {r : Out} (h : Adds m t o m' r) : Readable m' := by
  unfold Adds at h
  split at h
  · rw [h.1]; exact hr
  · split at h
    · rw [h.1]; exact hr
    · rw [h.1]; exact readable_tags hr (fun x (hx : m.tags x ∨ x = t) => hx.imp id (fun e => by rw [e]; exact ht))

theorem readable_drops (hr : Readable m) {t : Str} {o : Except Exc Out} {m' : Msg} {r : Out} (h : Drops m t o m' r) : Readable m' := by
  unfold Drops at h
  split at h
  · rw [h.1]; exact hr
  · split at h
    · rw [h.1]; exact hr
    · rw [h.1]; exact readable_tags hr (fun x hx => .inl hx.1)

theorem readable_clears (hr : Readable m) {o : Except Exc Out} {m' : Msg} (h : Clears m o m') : Readable m' := by
  unfold Clears at h
  split at h
  · rw [h.1]; exact hr
  · rw [h.1]; exact readable_tags hr (fun x (hx : False) => hx.elim)

theorem has_valid {x : Operand} (hx : x.Ok) {t : Str} (h : x.Has m t) : m.tags t ∨ Valid t := by
  cases x with
  | it => exact .inl h
  | tags l => exact .inr (hx.2 t h)
  | set l => obtain ⟨u, e, hu⟩ := hx.2 _ h; cases e; exact .inr hu
  | list l => obtain ⟨u, e, hu⟩ := hx _ h; cases e; exact .inr hu

theorem ior_does (hW : W.Ok) (hr : Readable m) {x : Operand} (hx : x.Ok) :
    Does W T (ior W x) m (fun o m' => Changes m (fun t => x.Has m t) (fun t => m.tags t ∨ x.Has m t) (o.map (fun _ => .unit)) m') := by
  refine Does.listed fun l hl => ?_
  obtain ⟨xs, ov⟩ := over (T := T) hW hr hl hx
  unfold ior
  refine Reads.then ov.iter ((each_does (fun m t ht => add_does hW (.inl rfl) ht) xs m ov.valid).weaken ?_)
  intro o m' h
  refine changes_of ov.mem (fun t => by rw [foldl_putIn, ov.mem]) ?_ h
  intro a b e t
  rw [foldl_putIn]
  refine ⟨fun hc => ?_, fun hc ha => ?_, fun hc h1 _ => .inl h1⟩
  · exact ⟨fun h => h.elim id (fun h => absurd ((ov.mem t).1 (mem_prefix e h)) hc), .inl⟩
  · exact ha.imp id (fun _ => .inr hc)

/-- Discarding the names of a list. -/
theorem drop_does (hW : W.Ok) {xs : List Str} (hv : ∀ t ∈ xs, Valid t) {C R : Str → Prop} (hC : ∀ t, t ∈ xs ↔ C t) (hR : ∀ t, (m.tags t ∧ ¬ C t) ↔ R t) :
    Does W T (each (fun v => discard W v) (xs.map .text)) m (fun o m' => Changes m C R (o.map (fun _ => .unit)) m') := by
  refine (each_does (fun m t ht => discard_does hW (.inl rfl) ht) xs m hv).weaken ?_
  intro o m' h
  refine changes_of hC (fun t => by rw [foldl_takenOut, hC, hR]) ?_ h
  intro a b e t
  rw [foldl_takenOut]
  refine ⟨fun hc => ?_, fun hc ha => .inl ha.1, fun hc h1 h2 => absurd hc ((hR t).2 h2).2⟩
  exact ⟨(·.1), fun h => ⟨h, fun h' => hc ((hC t).1 (mem_prefix e h'))⟩⟩

theorem isub_does (hW : W.Ok) (hr : Readable m) {x : Operand} (hx : x.Ok) (hi : x ≠ .it) :
    Does W T (isub W x) m (fun o m' => Changes m (fun t => x.Has m t) (fun t => m.tags t ∧ ¬ x.Has m t) (o.map (fun _ => .unit)) m') := by
  refine Does.listed fun l hl => ?_
  obtain ⟨xs, ov⟩ := over (T := T) hW hr hl hx
  have : Does W T (do let l ← x.iter W; each (fun v => discard W v) l) m (fun o m' => Changes m (fun t => x.Has m t) (fun t => m.tags t ∧ ¬ x.Has m t) (o.map (fun _ => .unit)) m') :=
    Reads.then ov.iter (drop_does hW ov.valid ov.mem (fun t => Iff.rfl))
  cases x with
  | it => exact absurd rfl hi
  | _ => exact this

theorem mkset_map_text (l : List Str) : mkset (l.map Val.text) = (mkset l).map Val.text := by
  induction l with
  | nil => rfl
  | cons t l ih =>
    simp only [List.map_cons, mkset, ih, mem_map_text]
    split <;> rfl

theorem iand_does (hW : W.Ok) (hr : Readable m) {x : Operand} (hx : x.Ok) :
    Does W T (iand W x) m (fun o m' => Changes m (fun t => m.tags t ∧ ¬ x.Has m t) (fun t => m.tags t ∧ x.Has m t) (o.map (fun _ => .unit)) m') := by
  refine Does.listed fun l hl => ?_
  obtain ⟨xs, ov⟩ := over (T := T) hW hr hl (toSet_ok hx)
  obtain ⟨ts, h1, h2, h3⟩ := sub_reads hW hr hl ov
  unfold iand
  refine Reads.then h1 ?_
  rw [mkset_map_text]
  refine drop_does hW (fun t ht => h2 t (mem_mkset.1 ht)) (fun t => mem_mkset.trans (h3 t)) (fun t => ?_)
  constructor
  · rintro ⟨h, h'⟩; exact ⟨h, Classical.byContradiction fun hn => h' ⟨h, hn⟩⟩
  · rintro ⟨h, h'⟩; exact ⟨h, fun hn => hn.2 h'⟩

theorem ixor_does (hW : W.Ok) (hr : Readable m) {x : Operand} (hx : x.Ok) (hi : x ≠ .it) :
    Does W T (ixor W x) m (fun o m' => Changes m (fun t => x.Has m t) (fun t => (m.tags t ∧ ¬ x.Has m t) ∨ (x.Has m t ∧ ¬ m.tags t)) (o.map (fun _ => .unit)) m') := by
  refine Does.listed fun l hl => ?_
  obtain ⟨xs, ov⟩ := over (T := T) hW hr hl (toSet_ok hx)
  have hnd := ov.nodup (toSet_isSet x)
  have hmem : ∀ t, t ∈ xs ↔ x.Has m t := fun t => (ov.mem t).trans toSet_has
  have : Does W T (do let l ← x.toSet.iter W; each (fun v => do let b ← contains W v; if b then discard W v else add W v) l) m
      (fun o m' => Changes m (fun t => x.Has m t) (fun t => (m.tags t ∧ ¬ x.Has m t) ∨ (x.Has m t ∧ ¬ m.tags t)) (o.map (fun _ => .unit)) m') := by
    refine Reads.then ov.iter ((each_does (fun m t ht => turn_does hW ht) xs m ov.valid).weaken ?_)
    intro o m' h
    refine changes_of hmem (fun t => by rw [foldl_turned xs _ _ hnd, hmem]) ?_ h
    intro a b e t
    have hna : a.Nodup := by rw [e] at hnd; exact (List.nodup_append.1 hnd).1
    rw [foldl_turned a _ _ hna]
    refine ⟨fun hc => ?_, fun hc ha => ?_, fun hc h1 h2 => ?_⟩
    · have hta : t ∉ a := fun h => hc ((hmem t).1 (mem_prefix e h))
      simp [hta]
    · rcases ha with ⟨h, _⟩ | ⟨_, h⟩
      · exact .inl h
      · exact .inr (.inr ⟨hc, h⟩)
    · rcases h2 with ⟨_, h⟩ | ⟨_, h⟩
      · exact absurd hc h
      · exact absurd h1 h
  cases x with
  | it => exact absurd rfl hi
  | _ => exact this

theorem step_does (hW : W.Ok) (hr : Readable m) (op : Op) (hop : op.Ok) : Does W T (step W op) m (fun o m' => Meets m op o m' ∧ Readable m') := by
  cases op with
  | len =>
    refine Does.listed fun l hl => ?_
    exact give_reads (len_reads hW hr hl) ⟨⟨rfl, l, sorted_nodup hl.sorted, hl.mem, rfl⟩, hr⟩
  | iter =>
    refine Does.listed fun l hl => ?_
    exact give_reads (iter_reads hW hr hl) ⟨⟨rfl, l, hl.sorted, hl.mem, rfl⟩, hr⟩
  | iterRaw =>
    refine Does.listed fun l hl => ?_
    exact give_reads (rawTags_reads hW hl) ⟨⟨rfl, l, hl.sorted, hl.mem, rfl⟩, hr⟩
  | contains v =>
    refine Does.listed fun l hl => ?_
    cases v with
    | text t =>
      refine give_reads (contains_text hW hl t) ⟨⟨rfl, _, rfl, ?_⟩, hr⟩
      rw [decide_eq_true_eq, hl.mem]
      constructor
      · intro h; exact ⟨t, .inl rfl, h⟩
      · rintro ⟨u, h | h, h'⟩ <;> cases h; exact h'
    | raw t =>
      refine give_reads (contains_raw hW hl t) ⟨⟨rfl, _, rfl, ?_⟩, hr⟩
      rw [decide_eq_true_eq, hl.mem]
      constructor
      · intro h; exact ⟨t, .inr rfl, h⟩
      · rintro ⟨u, h | h, h'⟩ <;> cases h; exact h'
    | lone n => exact absurd rfl (hop n)
    | other n =>
      refine give_reads (contains_other hW hl n) ⟨⟨rfl, _, rfl, ?_⟩, hr⟩
      constructor
      · intro h; cases h
      · rintro ⟨u, h | h, h'⟩ <;> cases h
  | eq x =>
    refine Does.listed fun l hl => ?_
    refine give_does ((eq_reads hW hl hop).weaken ?_)
    rintro o m' ⟨rfl, h⟩
    refine ⟨⟨rfl, ?_⟩, hr⟩
    cases x with
    | it => obtain ⟨b, rfl, hb⟩ := h; exact ⟨b, rfl, hb⟩
    | tags k => obtain ⟨b, rfl, hb⟩ := h; exact ⟨b, rfl, hb⟩
    | set k => obtain rfl := h; rfl
    | list k => obtain rfl := h; rfl
  | le x =>
    refine Does.listed fun l hl => ?_
    obtain ⟨xs, ov⟩ := over (T := T) hW hr hl hop
    cases hs : x.isSet with
    | true => obtain ⟨b, h1, h2⟩ := le_reads hW hr hl ov hs; exact give_reads h1 ⟨⟨rfl, compares_of hs ⟨b, rfl, h2⟩⟩, hr⟩
    | false => cases x <;> first | exact give_does (Does.raise ⟨⟨rfl, rfl⟩, hr⟩) | cases hs
  | ge x =>
    refine Does.listed fun l hl => ?_
    obtain ⟨xs, ov⟩ := over (T := T) hW hr hl hop
    cases hs : x.isSet with
    | true => obtain ⟨b, h1, h2⟩ := ge_reads hW hr hl ov hs; exact give_reads h1 ⟨⟨rfl, compares_of hs ⟨b, rfl, h2⟩⟩, hr⟩
    | false => cases x <;> first | exact give_does (Does.raise ⟨⟨rfl, rfl⟩, hr⟩) | cases hs
  | lt x =>
    refine Does.listed fun l hl => ?_
    obtain ⟨xs, ov⟩ := over (T := T) hW hr hl hop
    cases hs : x.isSet with
    | true => obtain ⟨b, h1, h2⟩ := lt_reads hW hr hl ov hs; exact give_reads h1 ⟨⟨rfl, compares_of hs ⟨b, rfl, h2⟩⟩, hr⟩
    | false => cases x <;> first | exact give_does (Does.raise ⟨⟨rfl, rfl⟩, hr⟩) | cases hs
  | gt x =>
    refine Does.listed fun l hl => ?_
    obtain ⟨xs, ov⟩ := over (T := T) hW hr hl hop
    cases hs : x.isSet with
    | true => obtain ⟨b, h1, h2⟩ := gt_reads hW hr hl ov hs; exact give_reads h1 ⟨⟨rfl, compares_of hs ⟨b, rfl, h2⟩⟩, hr⟩
    | false => cases x <;> first | exact give_does (Does.raise ⟨⟨rfl, rfl⟩, hr⟩) | cases hs
  | disjoint x =>
    refine Does.listed fun l hl => ?_
    obtain ⟨xs, ov⟩ := over (T := T) hW hr hl hop
    obtain ⟨b, h1, h2⟩ := disjoint_reads hW hl ov
    exact give_reads h1 ⟨⟨rfl, b, rfl, h2⟩, hr⟩
  | and x =>
    refine Does.listed fun l hl => ?_
    obtain ⟨xs, ov⟩ := over (T := T) hW hr hl hop
    obtain ⟨r, h1, h2⟩ := and_reads hW hl ov
    exact give_reads h1 ⟨⟨rfl, r, rfl, h2⟩, hr⟩
  | or x =>
    refine Does.listed fun l hl => ?_
    obtain ⟨xs, ov⟩ := over (T := T) hW hr hl hop
    obtain ⟨r, h1, h2⟩ := or_reads hW hr hl ov
    exact give_reads h1 ⟨⟨rfl, r, rfl, h2⟩, hr⟩
  | sub x =>
    refine Does.listed fun l hl => ?_
    obtain ⟨xs, ov⟩ := over (T := T) hW hr hl (toSet_ok hop)
    obtain ⟨ts, h1, _, h2⟩ := sub_reads hW hr hl ov
    exact give_reads h1 ⟨⟨rfl, _, rfl, setOf_mkset h2⟩, hr⟩
  | xor x =>
    refine Does.listed fun l hl => ?_
    obtain ⟨xs, ov⟩ := over (T := T) hW hr hl (toSet_ok hop)
    obtain ⟨r, h1, h2⟩ := xor_reads hW hr hl ov
    exact give_reads h1 ⟨⟨rfl, r, rfl, h2⟩, hr⟩
  | add v =>
    obtain ⟨t, hv, ht⟩ := hop
    refine give_does ((add_does hW hv ht).weaken ?_)
    intro o m' h
    have := act_adds h
    exact ⟨⟨t, hv, this⟩, readable_adds hr ht this⟩
  | discard v =>
    obtain ⟨t, hv, ht⟩ := hop
    refine give_does ((discard_does hW hv ht).weaken ?_)
    intro o m' h
    have := act_drops h .unit
    exact ⟨⟨t, hv, this⟩, readable_drops hr this⟩
  | remove v =>
    refine Does.listed fun l hl => ?_
    obtain ⟨t, hv, ht⟩ := hop
    have hc : Reads W T (contains W v) m (decide (t ∈ l)) := by
      rcases hv with rfl | rfl
      · exact contains_text hW hl t
      · exact contains_raw hW hl t
    refine give_does ?_
    unfold remove
    refine Reads.then hc ?_
    by_cases h : t ∈ l
    · rw [if_pos (by simpa using h)]
      refine (discard_does hW hv ht).weaken ?_
      intro o m' ha
      have := act_drops ha .unit
      exact ⟨⟨t, hv, .inl ⟨(hl.mem t).1 h, this⟩⟩, readable_drops hr this⟩
    · rw [if_neg (by simpa using h)]
      exact Does.raise ⟨⟨t, hv, .inr ⟨fun h' => h ((hl.mem t).2 h'), rfl, rfl⟩⟩, hr⟩
  | pop =>
    refine Does.listed fun l hl => ?_
    refine give_does ?_
    unfold pop
    refine Reads.then (iter_reads hW hr hl) ?_
    cases l with
    | nil => exact Does.raise ⟨.inl ⟨(fun t h => by cases (hl.mem t).2 h), rfl, rfl⟩, hr⟩
    | cons t l =>
      have hm : m.tags t := (hl.mem t).1 (by simp)
      have hlow : ∀ t', m.tags t' → LexLe t t' := by
        intro t' h
        rcases List.mem_cons.1 ((hl.mem t').2 h) with rfl | h'
        · exact StringMap.lexLe_refl _
        · exact ((strcmp_lt _ _).1 ((List.pairwise_cons.1 hl.sorted).1 _ h')).1
      refine Does.bind (discard_does hW (.inl rfl) (hr.tags t hm)) ?_ ?_
      · rintro ⟨⟩ m' ha
        have := act_drops ha (.val (.text t))
        exact Does.pure ⟨.inr ⟨t, hm, hlow, this⟩, readable_drops hr this⟩
      · intro e m' ha
        have := act_drops ha (.val (.text t))
        exact ⟨.inr ⟨t, hm, hlow, this⟩, readable_drops hr this⟩
  | clear =>
    refine give_does ((clear_does hW).weaken ?_)
    intro o m' h; exact ⟨h, readable_clears hr h⟩
  | ior x =>
    refine give_does ((ior_does hW hr hop).weaken ?_)
    intro o m' h; exact ⟨h, readable_changes hr (fun t h => has_valid hop h) (fun t h => h) h⟩
  | iand x =>
    refine give_does ((iand_does hW hr hop).weaken ?_)
    intro o m' h; exact ⟨h, readable_changes hr (fun t h => .inl h.1) (fun t h => .inl h.1) h⟩
  | isub x =>
    by_cases hi : x = .it
    · subst hi
      refine give_does ((clear_does hW).weaken ?_)
      intro o m' h; exact ⟨h, readable_clears hr h⟩
    · refine give_does ((isub_does hW hr hop hi).weaken ?_)
      intro o m' h
      refine ⟨?_, readable_changes hr (fun t h => has_valid hop h) (fun t h => .inl h.1) h⟩
      cases x with
      | it => exact absurd rfl hi
      | _ => exact h
  | ixor x =>
    by_cases hi : x = .it
    · subst hi
      refine give_does ((clear_does hW).weaken ?_)
      intro o m' h; exact ⟨h, readable_clears hr h⟩
    · refine give_does ((ixor_does hW hr hop hi).weaken ?_)
      intro o m' h
      refine ⟨?_, readable_changes hr (fun t h => has_valid hop h) (fun t h => h.imp (·.1) (·.1)) h⟩
      cases x with
      | it => exact absurd rfl hi
      | _ => exact h
  | propLen =>
    refine give_does ?_
    unfold propLen
    refine Does.bind (pairs_all hW) ?_ ?_
    · rintro l m' ⟨rfl, _, e, _, h2, h3⟩
      cases e
      exact Does.pure ⟨⟨rfl, l, h2, h3, rfl⟩, hr⟩
    · rintro e m' ⟨_, l, h, _⟩; cases h
  | keyIter =>
    refine give_does ((keyIter_does hW hr).weaken ?_)
    rintro o m' ⟨rfl, l, rfl, h1, h2, h3⟩
    exact ⟨⟨rfl, l, h1, h2, h3, rfl⟩, hr⟩
  | getitem k =>
    obtain ⟨t, hk, ht⟩ := hop
    refine give_does ((getitem_does hW hr hk ht).weaken ?_)
    rintro o m' ⟨rfl, ⟨h1, rfl⟩ | ⟨w, h1, _, rfl⟩⟩
    · exact ⟨⟨rfl, t, hk, .inl ⟨h1, rfl⟩⟩, hr⟩
    · exact ⟨⟨rfl, t, hk, .inr ⟨w, h1, rfl⟩⟩, hr⟩
  | hasKey k =>
    obtain ⟨t, hk, ht⟩ := hop
    refine give_does ?_
    unfold hasKey
    refine Does.orKey (Q1 := fun o m' => m' = m ∧ (((∀ w, ¬ m.props t w) ∧ o = .error .key) ∨ ∃ w, m.props t w ∧ o = .ok true)) ?_ ?_ ?_
    · refine Does.bind (getitem_does hW hr hk ht) ?_ ?_
      · rintro v m' ⟨rfl, ⟨_, h⟩ | ⟨w, h1, h2, h3⟩⟩
        · cases h
        · exact Does.pure ⟨rfl, .inr ⟨w, h1.1, rfl⟩⟩
      · rintro e m' ⟨rfl, ⟨h1, h⟩ | ⟨w, h1, h2, h3⟩⟩
        · cases h; exact ⟨rfl, .inl ⟨h1, rfl⟩⟩
        · cases h3
    · rintro m' ⟨rfl, ⟨h1, h⟩ | ⟨w, h1, h3⟩⟩
      · refine Does.pure ⟨⟨rfl, t, hk, false, rfl, ?_⟩, hr⟩
        constructor
        · intro h; cases h
        · rintro ⟨w, h⟩; exact absurd h (h1 w)
      · cases h3
    · rintro o m' ⟨rfl, ⟨h1, h⟩ | ⟨w, h1, rfl⟩⟩ hn
      · exact absurd h hn
      · exact ⟨⟨rfl, t, hk, true, rfl, fun _ => ⟨w, h1⟩, fun _ => rfl⟩, hr⟩
  | keys =>
    refine give_does ?_
    unfold keys
    refine Does.bind (keyIter_does hW hr) ?_ ?_
    · rintro ks m' ⟨rfl, l, e, _, _, h3⟩
      cases e
      refine Does.pure ⟨⟨rfl, _, rfl, nodup_mkset _, fun v => ?_⟩, hr⟩
      rw [mem_mkset, List.mem_map]
      constructor
      · rintro ⟨⟨k, w⟩, h, rfl⟩; exact ⟨k, rfl, w, (h3 k w).1 h⟩
      · rintro ⟨k, rfl, w, h⟩; exact ⟨(k, w), (h3 k w).2 h, rfl⟩
    · rintro e m' ⟨_, l, h, _⟩; cases h
  | values =>
    refine give_does ?_
    unfold values
    refine Does.bind (pairs_all hW) ?_ ?_
    · rintro l m' ⟨rfl, _, e, _, _, h3⟩
      cases e
      refine Does.pure ⟨⟨rfl, _, rfl, nodup_mkset _, fun v => ?_⟩, hr⟩
      rw [mem_mkset, List.mem_map]
      constructor
      · rintro ⟨⟨k, w⟩, h, rfl⟩
        have hp := (h3 k w).1 h
        exact ⟨w, decode_valid (hr.keys k w hp).2, k, hp⟩
      · rintro ⟨w, rfl, k, h⟩; exact ⟨(k, w), (h3 k w).2 h, decode_valid (hr.keys k w h).2⟩
    · rintro e m' ⟨_, l, h, _⟩; cases h
  | items =>
    refine give_does ?_
    unfold items
    refine Does.bind (pairs_all hW) ?_ ?_
    · rintro l m' ⟨rfl, _, e, _, _, h3⟩
      cases e
      refine Does.pure ⟨⟨rfl, _, rfl, nodup_mkset _, fun a b => ?_⟩, hr⟩
      rw [mem_mkset, List.mem_map]
      constructor
      · rintro ⟨⟨k, w⟩, h, e⟩
        have hp := (h3 k w).1 h
        cases e
        exact ⟨k, w, decode_valid (hr.keys k w hp).1, decode_valid (hr.keys k w hp).2, hp⟩
      · rintro ⟨k, w, rfl, rfl, h⟩
        exact ⟨(k, w), (h3 k w).2 h, by simp only [decode_valid (hr.keys k w h).1, decode_valid (hr.keys k w h).2]⟩
    · rintro e m' ⟨_, l, h, _⟩; cases h
  | setitem k v =>
    obtain ⟨t, w, hk, hv, ht, hw, hn⟩ := hop
    refine give_does ((setitem_does hW hk hv ht hw hn).weaken ?_)
    intro o m' h
    split at h
    · rename_i hc
      obtain ⟨rfl, rfl⟩ := h
      exact ⟨⟨t, w, hk, hv, by rw [if_pos hc]; exact ⟨rfl, rfl⟩⟩, hr⟩
    · rename_i hc
      have hs := setsU_map (f := fun _ => .unit) (r := .unit) (by rw [except_id]; exact h) (fun _ _ => rfl)
      refine ⟨⟨t, w, hk, hv, by rw [if_neg hc]; exact hs⟩, readable_sets hr ?_ hs⟩
      rintro k' w' (h' | ⟨rfl, rfl⟩)
      · exact .inl h'
      · exact .inr ⟨ht, hw⟩
  | removeProp k v =>
    obtain ⟨t, w, hk, hv, ht, hw, hn⟩ := hop
    refine give_does ((removeProp_does hW hk hv ht hw hn).weaken ?_)
    intro o m' h
    split at h
    · rename_i hc
      obtain ⟨rfl, rfl⟩ := h
      exact ⟨⟨t, w, hk, hv, by rw [if_pos hc]; exact ⟨rfl, rfl⟩⟩, hr⟩
    · rename_i hc
      have hs := setsU_map (f := fun _ => .unit) (r := .unit) (by rw [except_id]; exact h) (fun _ _ => rfl)
      exact ⟨⟨t, w, hk, hv, by rw [if_neg hc]; exact hs⟩, readable_sets hr (fun k' w' h' => .inl h'.1) hs⟩
  | delitem k =>
    obtain ⟨t, hk, ht, hq⟩ := hop
    refine give_does ?_
    unfold delitem
    refine Reads.then (argument_reads hk ht) ((removeAll_does hW (some t) (fun u e => by cases e; exact hq)).weaken ?_)
    intro o m' h
    have hs := setsU_map (f := fun _ => .unit) (r := .unit) (by rw [except_id]; exact h) (fun _ _ => rfl)
    exact ⟨⟨t, hk, hs⟩, readable_sets hr (fun k' w' h' => .inl h'.1) hs⟩
  | clearProps =>
    refine give_does ((removeAll_does hW none (fun u e => by cases e)).weaken ?_)
    intro o m' h
    have hs := setsU_map (f := fun _ => .unit) (r := .unit) (by rw [except_id]; exact h) (fun _ _ => rfl)
    exact ⟨hs, readable_sets hr (fun k' w' h' => h'.elim) hs⟩
  | popProp k d =>
    obtain ⟨t, hk, ht⟩ := hop
    refine give_does ((popProp_does hW hr d hk ht).weaken ?_)
    rintro o m' (⟨h1, rfl, rfl⟩ | ⟨w, h1, h2, h3⟩)
    · refine ⟨⟨t, hk, .inl ⟨h1, rfl, ?_⟩⟩, hr⟩
      cases d <;> rfl
    · have hs := setsU_map (f := .val) (r := .val (.text w)) h2 (fun v e => by rw [h3 v e])
      exact ⟨⟨t, hk, .inr ⟨w, h1, hs⟩⟩, readable_sets hr (fun k' w' h' => .inl h'.1) hs⟩
  | popitem =>
    refine give_does ((popitem_does hW hr).weaken ?_)
    rintro o m' (⟨h1, rfl, rfl⟩ | ⟨k, w, h1, h2, h3, h4⟩)
    · exact ⟨.inl ⟨h1, rfl, rfl⟩, hr⟩
    · have hs := setsU_map (f := fun p => .pair p.1 p.2) (r := .pair (.text k) (.text w)) h3 (fun v e => by rw [h4 v e])
      exact ⟨.inr ⟨k, w, h1, h2, hs⟩, readable_sets hr (fun k' w' h' => .inl h'.1) hs⟩
  | getall p e =>
    obtain ⟨t, hk, ht⟩ := hop
    refine give_does ?_
    unfold getall
    refine Reads.then (argument_reads hk ht) (Does.bind (pairs_does hW t e) ?_ ?_)
    · rintro l m' ⟨rfl, _, e, h1, h2, h3⟩
      cases e
      refine Does.pure ⟨⟨rfl, t, hk, l, h1, h2, h3, ?_⟩, hr⟩
      show Except.ok (Out.list _) = _
      rw [List.map_congr_left]
      rintro ⟨k, w⟩ hp
      have hp := ((h3 k w).1 hp).1
      simp only [decode_valid (hr.keys k w hp).1, decode_valid (hr.keys k w hp).2]
    · rintro e m' ⟨_, l, h, _⟩; cases h
  | setdefault k d =>
    obtain ⟨t, w, hk, hv, ht, hw, hn⟩ := hop
    refine give_does ?_
    unfold setdefault
    refine Does.bind (lookup_does hW hr hk ht) ?_ ?_
    · rintro v m' ⟨rfl, ⟨h1, h⟩ | ⟨w', h1, h2, h⟩⟩
      · cases h
        refine Does.bind (setitem_does hW hk hv ht hw hn) ?_ ?_
        · rintro ⟨⟩ m1 h
          split at h
          · cases h.2
          · rename_i hc
            have hs := setsU_map (f := fun _ => .val d) (r := .val d) (by rw [except_id]; exact h) (fun _ _ => rfl)
            refine Does.pure ⟨⟨t, w, hk, hv, .inr ⟨h1, by rw [if_neg hc]; exact hs⟩⟩, readable_sets hr ?_ hs⟩
            rintro k' w' (h' | ⟨rfl, rfl⟩)
            · exact .inl h'
            · exact .inr ⟨ht, hw⟩
        · intro e m1 h
          split at h
          · rename_i hc
            obtain ⟨rfl, h⟩ := h
            cases h
            exact ⟨⟨t, w, hk, hv, .inr ⟨h1, by rw [if_pos hc]; exact ⟨rfl, rfl⟩⟩⟩, hr⟩
          · rename_i hc
            have hs := setsU_map (f := fun _ => .val d) (r := .val d) (by rw [except_id]; exact h) (fun _ _ => rfl)
            refine ⟨⟨t, w, hk, hv, .inr ⟨h1, by rw [if_neg hc]; exact hs⟩⟩, readable_sets hr ?_ hs⟩
            rintro k' w' (h' | ⟨rfl, rfl⟩)
            · exact .inl h'
            · exact .inr ⟨ht, hw⟩
      · cases h
        exact Does.pure ⟨⟨t, w, hk, hv, .inl ⟨w', h1, rfl, rfl⟩⟩, hr⟩
    · rintro e m' ⟨rfl, ⟨h1, h⟩ | ⟨w, h1, h2, h⟩⟩ <;> cases h

theorem run_meets (hW : W.Ok) : ∀ (ops : List Op) {h : Handle} {m : Msg}, Inv W T h m → Readable m → (∀ o ∈ ops, o.Ok) →
    ∃ h' rs m', run W h ops = some (h', rs) ∧ MeetsAll m ops rs m' ∧ Inv W T h' m'
  | [], h, m, i, _, _ => ⟨h, [], m, rfl, rfl, i⟩
  | o :: ops, h, m, i, hr, ho => by
    obtain ⟨h1, r, m1, e1, ⟨s1, hr1⟩, i1⟩ := step_does hW hr o (ho o (by simp)) h i
    obtain ⟨h2, rs, m2, e2, s2, i2⟩ := run_meets hW ops i1 hr1 (fun o h => ho o (by simp [h]))
    exact ⟨h2, r :: rs, m2, by simp [run, e1, e2], ⟨m1, s1, s2⟩, i2⟩

end Notmuch.PyColl
