import Verif.Proofs.Message

/-! # One call, and sequences of calls -/

namespace Notmuch.Message

open Notmuch.TermList
open Notmuch.StringMap (Pair Map cmppair)
open Notmuch.StringMapSpec (LexLe PairLe Matches QSort walk)

theorem combinedFlags_spec : ∀ (l : List Str), (Maildir.combinedFlags l ≠ none ↔ ∃ f ∈ l, Info f) ∧
    ∀ c, c ∈ (Maildir.combinedFlags l).getD [] ↔ ∃ f ∈ l, Flag f c
  | [] => by simp [Maildir.combinedFlags]
  | f :: fs => by
    obtain ⟨h1, h2⟩ := combinedFlags_spec fs
    cases hm : Maildir.inMaildir f with
    | none =>
      have hi : ¬ Info f := by rintro ⟨a, d, b, h, _⟩; rw [hm] at h; cases h
      have hf : ∀ c, ¬ Flag f c := fun c h => h.1 hm
      simp only [Maildir.combinedFlags, hm, List.mem_cons, exists_eq_or_imp, hi, false_or, hf]
      exact ⟨h1, h2⟩
    | some x =>
      obtain ⟨a, d, b⟩ := x
      cases hs : Maildir.splitInfo f with
      | some y =>
        obtain ⟨p, q⟩ := y
        have hi : Info f := ⟨a, d, b, hm, .inr (by rw [hs]; simp)⟩
        have hf : ∀ c, Flag f c ↔ c ∈ q := by
          intro c
          constructor
          · rintro ⟨_, a', b', h, hc⟩
            rw [hs, Option.some.injEq, Prod.mk.injEq] at h
            rw [h.2]; exact hc
          · intro hc
            exact ⟨by rw [hm]; simp, p, q, hs, hc⟩
        simp only [Maildir.combinedFlags, hm, hs, List.mem_cons, exists_eq_or_imp, hi, true_or, hf]
        refine ⟨by simp, ?_⟩
        intro c
        rw [Option.getD_some, List.mem_append, h2]
      | none =>
        have hf : ∀ c, ¬ Flag f c := by rintro c ⟨_, a', b', h, _⟩; rw [hs] at h; cases h
        simp only [Maildir.combinedFlags, hm, hs, List.mem_cons, exists_eq_or_imp, hf, false_or]
        by_cases hd : d = bs "new"
        · have hi : Info f := ⟨a, d, b, hm, .inl hd⟩
          simp only [hd, if_true, hi, true_or]
          exact ⟨by simp, h2⟩
        · have hi : ¬ Info f := by
            rintro ⟨a', d', b', h, h'⟩
            rw [hm, Option.some.injEq, Prod.mk.injEq, Prod.mk.injEq] at h
            rcases h' with h' | h'
            · exact hd (h.2.1.trans h')
            · exact h' hs
          simp only [hd, if_false, hi, false_or]
          exact ⟨h1, h2⟩

theorem Inv.getFilenames {W : World} (hW : W.Ok) {T : List Str} {h : Handle} {m : Msg} (i : Inv W T h m) :
    ∃ h' l, getFilenames W h = some (h', some l) ∧ Same h h' ∧ Inv W T h' m ∧ FileNames W m l ∧ h'.mflags = h.mflags := by
  obtain ⟨h', l, e, s, i', hf, hn, hq⟩ := i.ensureFiles hW
  exact ⟨h', l, by simp [Message.getFilenames, e, hf], s, i', hn, hq⟩

theorem Inv.setFlags {W : World} {T : List Str} {h : Handle} {m : Msg} (i : Inv W T h m) (fl : Option Str) : Inv W T { h with mflags := fl } m :=
  i.same ⟨rfl, rfl, rfl, rfl, rfl, rfl, rfl⟩ ⟨i.cache.1, i.cache.2, i.cache.3, i.cache.4, i.cache.5, i.cache.6, i.cache.7, i.cache.8⟩

theorem Inv.ensureFlags {W : World} (hW : W.Ok) {T : List Str} {h : Handle} {m : Msg} (i : Inv W T h m) (force : Bool) :
    ∃ h' l, ensureMaildirFlags W force h = some (h', true) ∧ Inv W T h' m ∧ FileNames W m l ∧ h'.writable = h.writable ∧
      ((∃ f ∈ l, Info f) → ∃ fl, h'.mflags = some fl ∧ ∀ c, c ∈ fl ↔ ∃ f ∈ l, Flag f c) ∧ (force = true → ¬ (∃ f ∈ l, Info f) → h'.mflags = none) := by
  unfold ensureMaildirFlags
  have i0 : Inv W T (if force then { h with mflags := none } else h) m := by
    split
    · exact i.setFlags none
    · exact i
  obtain ⟨h', l, e, s, i', hn, hq⟩ := i0.getFilenames hW
  have hw : h'.writable = h.writable := by rw [s.writable]; split <;> rfl
  simp only [e]
  obtain ⟨c1, c2⟩ := combinedFlags_spec l
  cases hc : Maildir.combinedFlags l with
  | none =>
    refine ⟨h', l, rfl, i', hn, hw, ?_, ?_⟩
    · intro hi; exact absurd hc (c1.2 hi)
    · intro hf _; rw [hq, hf]; rfl
  | some fl =>
    refine ⟨_, l, rfl, i'.setFlags _, hn, hw, ?_, ?_⟩
    · intro _
      refine ⟨fl, rfl, ?_⟩
      intro c; have := c2 c; rw [hc] at this; exact this
    · intro _ hi
      exact absurd (c1.1 (by rw [hc]; simp)) hi

theorem Inv.addTag {W : World} {T : List Str} {h : Handle} {m : Msg} (i : Inv W T h m) (hw : h.writable = true) {t : Str} (ht : t.length ≤ 200) :
    ∃ h', addTag t h = some (h', .success) ∧ h'.writable = true ∧ Inv W T h' { m with tags := fun x => m.tags x ∨ x = t } := by
  obtain ⟨h1, e, w, i1⟩ := i.toPre.addTag hw (t := t) (by omega)
  have i2 := i1.syncUnlessFrozen w
  refine ⟨syncUnlessFrozen h1, ?_, ?_, i2⟩
  · unfold Message.addTag
    rw [if_neg (by simp [hw]), if_neg (by omega), e]
  · have := i2.writable; rw [this]; exact i.writable.symm.trans hw

theorem Inv.removeTag {W : World} {T : List Str} {h : Handle} {m : Msg} (i : Inv W T h m) (hw : h.writable = true) {t : Str} (ht : t.length ≤ 200) :
    ∃ h', removeTag t h = some (h', .success) ∧ h'.writable = true ∧ Inv W T h' { m with tags := fun x => m.tags x ∧ x ≠ t } := by
  obtain ⟨h1, e, w, i1⟩ := i.toPre.removeTag hw (t := t) (by omega)
  have i2 := i1.syncUnlessFrozen w
  refine ⟨syncUnlessFrozen h1, ?_, ?_, i2⟩
  · unfold Message.removeTag
    rw [if_neg (by simp [hw]), if_neg (by omega), e]
  · have := i2.writable; rw [this]; exact i.writable.symm.trans hw

/-- The tags after the loop. -/
def tagsAfter (fl : Str) : List Maildir.FlagTag → (Str → Prop) → Str → Prop
  | [], P => P
  | e :: es, P => tagsAfter fl es (if xor (decide (e.flag ∈ fl)) e.inverse then fun x => P x ∨ x = e.tag else fun x => P x ∧ x ≠ e.tag)

theorem Inv.setTags {W : World} {T : List Str} (fl : Str) : ∀ (es : List Maildir.FlagTag) {h : Handle} {m : Msg}, Inv W T h m → h.writable = true → (∀ e ∈ es, e.tag.length ≤ 200) →
    ∃ h', setTags fl es h = some (h', .success) ∧ h'.writable = true ∧ Inv W T h' { m with tags := tagsAfter fl es m.tags }
  | [], h, m, i, hw, _ => ⟨h, rfl, hw, i⟩
  | e :: es, h, m, i, hw, hl => by
    have he := hl e (by simp)
    by_cases hx : xor (decide (e.flag ∈ fl)) e.inverse = true
    · obtain ⟨h1, e1, w1, i1⟩ := i.addTag hw he
      obtain ⟨h2, e2, w2, i2⟩ := Inv.setTags fl es i1 w1 (fun e h => hl e (by simp [h]))
      refine ⟨h2, ?_, w2, ?_⟩
      · unfold Message.setTags; rw [if_pos hx, e1]; exact e2
      · simp only [tagsAfter, hx, if_true]; exact i2
    · obtain ⟨h1, e1, w1, i1⟩ := i.removeTag hw he
      obtain ⟨h2, e2, w2, i2⟩ := Inv.setTags fl es i1 w1 (fun e h => hl e (by simp [h]))
      refine ⟨h2, ?_, w2, ?_⟩
      · unfold Message.setTags; rw [if_neg hx, e1]; exact e2
      · rw [tagsAfter, if_neg hx]; exact i2

theorem tagsAfter_eq (fl : Str) (P : Str → Prop) (F : UInt8 → Prop) (hF : ∀ c, c ∈ fl ↔ F c) : tagsAfter fl Maildir.flag2tag P = tagsFrom F P := by
  funext t
  have inj : ∀ a ∈ [bs "draft", bs "flagged", bs "passed", bs "replied", bs "unread"], ∀ b ∈ [bs "draft", bs "flagged", bs "passed", bs "replied", bs "unread"], (a = b) = (decide (a = b) = true) := by
    intros; simp
  have n1 : bs "draft" ≠ bs "flagged" := by decide +kernel
  have n2 : bs "draft" ≠ bs "passed" := by decide +kernel
  have n3 : bs "draft" ≠ bs "replied" := by decide +kernel
  have n4 : bs "draft" ≠ bs "unread" := by decide +kernel
  have n5 : bs "flagged" ≠ bs "passed" := by decide +kernel
  have n6 : bs "flagged" ≠ bs "replied" := by decide +kernel
  have n7 : bs "flagged" ≠ bs "unread" := by decide +kernel
  have n8 : bs "passed" ≠ bs "replied" := by decide +kernel
  have n9 : bs "passed" ≠ bs "unread" := by decide +kernel
  have n10 : bs "replied" ≠ bs "unread" := by decide +kernel
  simp only [tagsAfter, Maildir.flag2tag, tagsFrom, ← hF, eq_iff_iff, List.mem_cons, List.not_mem_nil, or_false, not_or]
  generalize bs "draft" = d at *
  generalize bs "flagged" = f at *
  generalize bs "passed" = p at *
  generalize bs "replied" = r at *
  generalize bs "unread" = u at *
  by_cases h1 : (68 : UInt8) ∈ fl <;> by_cases h2 : (70 : UInt8) ∈ fl <;> by_cases h3 : (80 : UInt8) ∈ fl <;> by_cases h4 : (82 : UInt8) ∈ fl <;> by_cases h5 : (83 : UInt8) ∈ fl <;>
    simp only [h1, h2, h3, h4, h5, decide_true, decide_false, Bool.xor_false, Bool.false_xor, Bool.xor_true, Bool.true_xor, Bool.not_true, Bool.not_false, if_true, and_true, and_false, not_true, not_false_eq_true,
      false_or, or_false, Bool.false_eq_true, if_false, Bool.bne_true] <;> grind

theorem Inv.getTags {W : World} (hW : W.Ok) {T : List Str} {h : Handle} {m : Msg} (i : Inv W T h m) :
    ∃ h' l, getTags W h = some (h', l) ∧ Same h h' ∧ Inv W T h' m ∧ Sorted l ∧ (∀ t, t ∈ l ↔ m.tags t) ∧ ∀ t ∈ l, t.length ≤ 244 := by
  obtain ⟨h1, e1, s1, i1, _, _, _, hr⟩ := i.ensure hW h.md.tagList.isSome
  have ht : h1.md.tagList = some (vals h1.terms).k := by
    rcases hr with ⟨hb, rfl⟩ | hr
    · rcases i.cache.tags with h2 | h2
      · rw [h2] at hb; exact absurd hb (by simp)
      · exact h2
    · exact hr.tags
  have hm : ∀ t, t ∈ (vals h1.terms).k ↔ bs "K" ++ t ∈ h1.terms := fun t => mem_valuesWith
  refine ⟨h1, (vals h1.terms).k, by simp only [Message.getTags, e1, ht], s1, i1, valuesWith_sorted i1.holds.sorted, ?_, ?_⟩
  · intro t; rw [hm]; exact i1.holds.tags t
  · intro t h
    have := i1.holds.short _ ((hm t).1 h)
    rw [List.length_append, show (bs "K").length = 1 by decide +kernel] at this
    omega

theorem Inv.getMessageId {W : World} (hW : W.Ok) {T : List Str} {h : Handle} {m : Msg} (i : Inv W T h m) :
    ∃ h', getMessageId W h = some (h', .text m.id) ∧ Inv W T h' m := by
  obtain ⟨h1, e1, s1, i1, _, _, _, hr⟩ := i.ensure hW h.md.messageId.isSome
  have hid : (vals h1.terms).q.head? = some m.id := by show (valuesWith _ _).head? = _; rw [i1.holds.id]; rfl
  have ht : h1.md.messageId = some m.id := by
    rcases hr with ⟨hb, rfl⟩ | hr
    · rcases i.cache.id with h2 | h2
      · rw [h2] at hb; exact absurd hb (by simp)
      · exact h2.trans hid
    · exact hr.id.trans hid
  exact ⟨h1, by simp only [Message.getMessageId, e1, ht], i1⟩

theorem Inv.getThreadId {W : World} (hW : W.Ok) {T : List Str} {h : Handle} {m : Msg} (i : Inv W T h m) :
    ∃ h', getThreadId W h = some (h', .text m.thread) ∧ Inv W T h' m := by
  obtain ⟨h1, e1, s1, i1, _, _, _, hr⟩ := i.ensure hW h.md.threadId.isSome
  have hid : (vals h1.terms).g.head? = some m.thread := by show (valuesWith _ _).head? = _; rw [i1.holds.thread]; rfl
  have ht : h1.md.threadId = some m.thread := by
    rcases hr with ⟨hb, rfl⟩ | hr
    · rcases i.cache.thread with h2 | h2
      · rw [h2] at hb; exact absurd hb (by simp)
      · exact h2.trans hid
    · exact hr.thread.trans hid
  exact ⟨h1, by simp only [Message.getThreadId, e1, ht], i1⟩

theorem Inv.isGhost {W : World} (hW : W.Ok) {T : List Str} {h : Handle} {m : Msg} (i : Inv W T h m) :
    ∃ h', isGhost W h = some (h', .bool m.ghost) ∧ Inv W T h' m := by
  unfold Message.isGhost
  by_cases hg : h.md.ghost = none
  · obtain ⟨h1, e1, s1, i1, _, _, _, hr⟩ := i.ensure hW false
    have ht : h1.md.ghost = some m.ghost := by
      rcases hr with ⟨hb, _⟩ | hr
      · cases hb
      · exact hr.ghost.trans i1.holds.ghostVal
    simp only [hg, if_true, e1, ht]
    exact ⟨h1, rfl, i1⟩
  · have ht : h.md.ghost = some m.ghost := by
      rcases i.cache.ghost with h2 | h2
      · exact absurd h2 hg
      · exact h2.trans i.holds.ghostVal
    rw [if_neg hg]
    simp only [ht]
    exact ⟨h, rfl, i⟩

theorem Inv.freeze {W : World} {T : List Str} {h : Handle} {m : Msg} (i : Inv W T h m) (hw : h.writable = true) :
    (freeze h).2 = .success ∧ (freeze h).1.writable = true ∧ Inv W T (freeze h).1 { m with frozen := m.frozen + 1 } := by
  have e : Message.freeze h = ({ h with frozen := h.frozen + 1 }, .success) := by unfold Message.freeze; rw [if_neg (by simp [hw])]
  rw [e]
  have hh := i.holds
  have c := i.cache
  refine ⟨rfl, hw, ⟨⟨⟨hh.1, hh.2, hh.3, hh.4, hh.5, hh.6, hh.7, hh.8, hh.9, hh.10⟩, i.data, i.writable, ?_, ⟨c.1, c.2, c.3, c.4, c.5, c.6, c.7, c.8⟩, i.clean, i.other, i.readOnly⟩, ?_⟩⟩
  · show h.frozen + 1 = m.frozen + 1
    rw [i.frozen]
  · intro h0; exact absurd h0 (Nat.succ_ne_zero _)

theorem Inv.thaw {W : World} {T : List Str} {h : Handle} {m : Msg} (i : Inv W T h m) (hw : h.writable = true) (hf : m.frozen ≠ 0) :
    (thaw h).2 = .success ∧ Inv W T (thaw h).1 { m with frozen := m.frozen - 1 } := by
  have hf' : h.frozen > 0 := by rw [i.frozen]; omega
  have hh := i.holds
  have c := i.cache
  have p : Pre W T { h with frozen := h.frozen - 1 } { m with frozen := m.frozen - 1 } := by
    refine ⟨⟨hh.1, hh.2, hh.3, hh.4, hh.5, hh.6, hh.7, hh.8, hh.9, hh.10⟩, i.data, i.writable, ?_, ⟨c.1, c.2, c.3, c.4, c.5, c.6, c.7, c.8⟩, i.clean, i.other, i.readOnly⟩
    show h.frozen - 1 = m.frozen - 1
    rw [i.frozen]
  unfold Message.thaw
  rw [if_neg (by simp [hw]), if_pos hf']
  refine ⟨rfl, ?_⟩
  show Inv W T (if h.frozen - 1 = 0 then _ else _) _
  split
  · exact p.sync hw
  · rename_i h0
    exact ⟨p, fun h => absurd h h0⟩

theorem Inv.flagsToTags {W : World} (hW : W.Ok) {T : List Str} {h : Handle} {m : Msg} (i : Inv W T h m) :
    ∃ h' s m', flagsToTags W h = some (h', s) ∧ Step W m .flagsToTags (.status s) m' ∧ Inv W T h' m' := by
  obtain ⟨h1, l, e1, i1, hn, w1, f1, f2⟩ := i.ensureFlags hW true
  unfold Message.flagsToTags
  simp only [e1]
  by_cases hi : ∃ f ∈ l, Info f
  · obtain ⟨fl, hm, hfl⟩ := f1 hi
    simp only [hm]
    cases hw : h1.writable with
    | false =>
      have e2 : Message.freeze h1 = (h1, .readOnly) := by unfold Message.freeze; rw [if_pos hw]
      simp only [e2]
      exact ⟨h1, _, m, rfl, ⟨l, hn, .inr (.inl ⟨hi, i1.writable.symm.trans hw, rfl, rfl⟩)⟩, i1⟩
    | true =>
      obtain ⟨e2, w2, i2⟩ := i1.freeze hw
      obtain ⟨h3, e3, w3, i3⟩ := Inv.setTags fl Maildir.flag2tag i2 w2 (by decide +kernel)
      obtain ⟨e4, i4⟩ := i3.thaw w3 (Nat.succ_ne_zero _)
      have e2' : Message.freeze h1 = ((Message.freeze h1).1, .success) := Prod.ext rfl e2
      rw [e2']
      simp only [e3]
      refine ⟨(Message.thaw h3).1, (Message.thaw h3).2, { m with tags := tagsFrom (fun c => ∃ f ∈ l, Flag f c) m.tags }, rfl, ⟨l, hn, .inr (.inr ⟨hi, i1.writable.symm.trans hw, by rw [e4], rfl⟩)⟩, ?_⟩
      rw [← tagsAfter_eq fl m.tags _ hfl]
      exact i4
  · simp only [f2 rfl hi]
    exact ⟨h1, _, m, rfl, ⟨l, hn, .inl ⟨hi, rfl, rfl⟩⟩, i1⟩

theorem eq_prefix {k k' v' : Str} (hk : 61 ∉ k) (hk' : 61 ∉ k') : k ++ bs "=" <+: k' ++ bs "=" ++ v' ↔ k' = k := by
  have := prefix_propTerm_key (v' := v') hk hk'
  unfold propTerm at this
  rw [List.append_assoc (bs "XPROPERTY"), List.prefix_append_right_inj] at this
  exact this

theorem Inv.removeAllProperties {W : World} {T : List Str} {h : Handle} {m : Msg} (i : Inv W T h m) (hw : h.writable = true) (k : Option Str) (pre : Bool) (hk : ∀ k', k = some k' → 61 ∉ k') :
    ∃ h', removeAllProperties k pre h = some (h', .success) ∧
      Inv W T h' { m with props := PropOp.apply m.props (if pre then .removeAllWithPrefix k else .removeAll k) } := by
  have key : ∀ q, (∀ k' v, (m.props k' v ∧ ¬ q <+: k' ++ bs "=" ++ v) = PropOp.apply m.props (if pre then .removeAllWithPrefix k else .removeAll k) k' v) →
      ∃ h', removeTermsFrom (bs "XPROPERTY" ++ q) h = some h' ∧ Inv W T (syncUnlessFrozen h') { m with props := PropOp.apply m.props (if pre then .removeAllWithPrefix k else .removeAll k) } := by
    intro q hq
    obtain ⟨h1, e1, w1, i1⟩ := i.toPre.removeProps hw q
    refine ⟨h1, e1, ?_⟩
    have e : (fun k' v => m.props k' v ∧ ¬ q <+: k' ++ bs "=" ++ v) = PropOp.apply m.props (if pre then .removeAllWithPrefix k else .removeAll k) := by
      funext k' v; exact hq k' v
    rw [← e]
    exact i1.syncUnlessFrozen w1
  unfold Message.removeAllProperties
  rw [if_neg (by simp [hw]), prefix_property]
  cases k with
  | none =>
    obtain ⟨h1, e1, i1⟩ := key [] (by
      intro k' v; cases pre <;> simp [PropOp.apply])
    rw [List.append_nil] at e1
    simp only [e1]
    exact ⟨_, rfl, i1⟩
  | some k =>
    have hk := hk k rfl
    cases pre with
    | true =>
      obtain ⟨h1, e1, i1⟩ := key k (by
        intro k' v; simp only [PropOp.apply, if_true, prefix_of_eq hk])
      simp only [if_true, List.append_nil, e1]
      exact ⟨_, rfl, i1⟩
    | false =>
      obtain ⟨h1, e1, i1⟩ := key (k ++ bs "=") (by
        intro k' v
        simp only [PropOp.apply, Bool.false_eq_true, if_false, eq_iff_iff]
        constructor
        · rintro ⟨a, b⟩; exact ⟨a, fun h => b ((eq_prefix hk (i.holds.propKeys _ _ a)).2 h)⟩
        · rintro ⟨a, b⟩; exact ⟨a, fun h => b ((eq_prefix hk (i.holds.propKeys _ _ a)).1 h)⟩)
      rw [← List.append_assoc] at e1
      simp only [Bool.false_eq_true, if_false, e1]
      exact ⟨_, rfl, i1⟩

theorem Inv.removeAllTags {W : World} (hW : W.Ok) {T : List Str} {h : Handle} {m : Msg} (i : Inv W T h m) (hw : h.writable = true) :
    ∃ h', removeAllTags W h = some (h', .success) ∧ Inv W T h' { m with tags := fun _ => False } := by
  obtain ⟨h1, l, e1, s1, i1, _, hm, hl⟩ := i.getTags hW
  obtain ⟨h2, e2, w2, i2⟩ := Pre.removeTags l i1.toPre (s1.writable.trans hw) hl
  unfold Message.removeAllTags
  rw [if_neg (by simp [hw])]
  simp only [e1, e2]
  refine ⟨_, rfl, ?_⟩
  have e : (fun x => m.tags x ∧ x ∉ l) = fun _ => False := by
    funext x
    simp only [eq_iff_iff, iff_false, not_and, Classical.not_not]
    exact (hm x).2
  rw [← e]
  exact i2.syncUnlessFrozen w2

theorem Inv.modifyProperty {W : World} {T : List Str} {h : Handle} {m : Msg} (i : Inv W T h m) (hw : h.writable = true) {k v : Str} (hk : 61 ∉ k) (hl : k.length + v.length ≤ 235) (d : Bool) :
    ∃ h', modifyProperty k v d h = some (h', .success) ∧ Inv W T h' { m with props := PropOp.apply m.props (if d then .remove k v else .add k v) } := by
  obtain ⟨⟨h1, e1, w1, i1⟩, ⟨h2, e2, w2, i2⟩⟩ := i.toPre.modifyProperty hw hk hl
  unfold Message.modifyProperty
  rw [if_neg (by simp [hw]), if_neg hk]
  cases d with
  | false => simp only [Bool.false_eq_true, if_false, e1]; exact ⟨_, rfl, i1.syncUnlessFrozen w1⟩
  | true => simp only [if_true, e2]; exact ⟨_, rfl, i2.syncUnlessFrozen w2⟩

theorem Inv.moveFile {W : World} (hW : W.Ok) {T : List Str} {h : Handle} {m : Msg} (i : Inv W T h m) (hw : h.writable = true) {o n : Str} (ho : o.length ≤ 235) (hn : n.length ≤ 235)
    (hf : ∃ f, nameOf W n f) : ∃ h', moveFile W o n h = some (h', .success) ∧ Inv W T h' { m with files := fun e => (m.files e ∧ e ≠ o) ∨ e = n } := by
  obtain ⟨h1, e1, w1, i1⟩ := i.toPre.removeFilename hW hw ho
  obtain ⟨h2, e2, w2, i2⟩ := i1.addFilename hW w1 hn hf
  unfold Message.moveFile
  rw [if_neg (by simp [hw])]
  simp only [e1, e2]
  exact ⟨_, rfl, i2.sync w2⟩

theorem Inv.reopen {W : World} {T : List Str} {h : Handle} {m : Msg} (i : Inv W T h m) : Inv W T { h with view := h.view + 1 } m := by
  have c := i.cache
  exact ⟨⟨i.holds, i.data, i.writable, i.frozen, ⟨c.1, c.2, c.3, c.4, c.5, c.6, c.7, c.8⟩, i.clean, i.other, i.readOnly⟩, i.thawed⟩

/-- One call. -/
theorem Inv.call {W : World} (hW : W.Ok) {T : List Str} {h : Handle} {m : Msg} (i : Inv W T h m) (c : Call) (hc : c.Ok W) :
    ∃ h' r m', call W h c = some (h', r) ∧ Step W m c r m' ∧ Inv W T h' m' := by
  have hwm := i.writable
  cases c with
  | messageId => obtain ⟨h', e, i'⟩ := i.getMessageId hW; exact ⟨h', _, m, e, ⟨rfl, rfl⟩, i'⟩
  | threadId => obtain ⟨h', e, i'⟩ := i.getThreadId hW; exact ⟨h', _, m, e, ⟨rfl, rfl⟩, i'⟩
  | isGhost => obtain ⟨h', e, i'⟩ := i.isGhost hW; exact ⟨h', _, m, e, ⟨rfl, rfl⟩, i'⟩
  | tags =>
    obtain ⟨h', l, e, _, i', hs, hm, _⟩ := i.getTags hW
    exact ⟨h', .texts l, m, by simp [Message.call, e], ⟨rfl, l, rfl, hs, hm⟩, i'⟩
  | filename =>
    obtain ⟨h', l, e, s, i', hf, hn, hq⟩ := i.ensureFiles hW
    cases l with
    | nil => exact absurd rfl hn.ne_nil
    | cons f l => exact ⟨h', .text f, m, by simp [Message.call, getFilename, e, hf], ⟨rfl, _, f, hn, rfl, rfl⟩, i'⟩
  | filenames =>
    obtain ⟨h', l, e, s, i', hn, _⟩ := i.getFilenames hW
    exact ⟨h', .texts l, m, by simp [Message.call, e], ⟨rfl, l, hn, rfl⟩, i'⟩
  | countFiles =>
    obtain ⟨h', l, e, s, i', hn, _⟩ := i.getFilenames hW
    exact ⟨h', .number l.length, m, by simp [Message.call, Message.countFiles, e], ⟨rfl, l, hn, rfl⟩, i'⟩
  | maildirFlag f =>
    obtain ⟨h', l, e, i', hn, _, h1, _⟩ := i.ensureFlags hW false
    refine ⟨h', _, m, by simp only [Message.call, Message.hasMaildirFlag, e]; rfl, ⟨rfl, l, _, hn, rfl, ?_⟩, i'⟩
    intro hi
    obtain ⟨fl, hfl, hm⟩ := h1 hi
    simp only [hfl, decide_eq_true_eq, List.mem_append, hm, List.mem_singleton]
    exact or_comm
  | property k =>
    obtain ⟨h', v, e, _, i', h1, h2⟩ := i.getProperty hW k
    exact ⟨h', _, m, e, ⟨rfl, v, rfl, h1, h2⟩, i'⟩
  | properties k ex =>
    obtain ⟨h', l, e, _, i', h1, h2, h3⟩ := i.getProperties hW k ex
    exact ⟨h', .pairs l, m, by simp [Message.call, e], ⟨rfl, l, rfl, h1, h2, h3⟩, i'⟩
  | countProperties k =>
    obtain ⟨h', l, e, _, i', h1, h2, h3⟩ := i.getProperties hW k true
    have hk : ∀ p ∈ l, p.1 = k := by
      rintro ⟨a, b⟩ hp
      have := ((h3 a b).1 hp).2
      simpa [Matches] using this
    refine ⟨h', .number l.length, m, by simp [Message.call, e], ⟨rfl, l.map (·.2), ?_, ?_, by simp⟩, i'⟩
    · rw [List.Nodup, List.pairwise_map]
      refine List.Pairwise.imp_of_mem ?_ h2
      intro a b ha hb hab heq
      exact hab (Prod.ext ((hk a ha).trans (hk b hb).symm) heq)
    · intro v
      rw [List.mem_map]
      constructor
      · rintro ⟨⟨a, b⟩, hp, rfl⟩
        have h4 := ((h3 a b).1 hp).1
        have h5 : a = k := hk _ hp
        rw [← h5]; exact h4
      · intro hv
        exact ⟨(k, v), (h3 k v).2 ⟨hv, by simp [Matches]⟩, rfl⟩
  | reopen => exact ⟨_, _, m, rfl, ⟨rfl, rfl⟩, i.reopen⟩
  | flagsToTags =>
    obtain ⟨h', s, m', e, hs, i'⟩ := i.flagsToTags hW
    exact ⟨h', _, m', by simp [Message.call, withStatus, e], hs, i'⟩
  | addTag t =>
    cases hw : h.writable with
    | false => exact ⟨h, .status .readOnly, m, by simp [Message.call, withStatus, Message.addTag, hw], by simp [Step, ← hwm, hw], i⟩
    | true =>
      by_cases hl : t.length > 200
      · exact ⟨h, .status .tagTooLong, m, by simp [Message.call, withStatus, Message.addTag, hw, hl], by simp [Step, ← hwm, hw, hl], i⟩
      · obtain ⟨h', e, _, i'⟩ := i.addTag hw (t := t) (by omega)
        exact ⟨h', _, _, by simp [Message.call, withStatus, e]; rfl, by simp [Step, ← hwm, hw, hl], i'⟩
  | removeTag t =>
    cases hw : h.writable with
    | false => exact ⟨h, .status .readOnly, m, by simp [Message.call, withStatus, Message.removeTag, hw], by simp [Step, ← hwm, hw], i⟩
    | true =>
      by_cases hl : t.length > 200
      · exact ⟨h, .status .tagTooLong, m, by simp [Message.call, withStatus, Message.removeTag, hw, hl], by simp [Step, ← hwm, hw, hl], i⟩
      · obtain ⟨h', e, _, i'⟩ := i.removeTag hw (t := t) (by omega)
        exact ⟨h', _, _, by simp [Message.call, withStatus, e]; rfl, by simp [Step, ← hwm, hw, hl], i'⟩
  | removeAllTags =>
    cases hw : h.writable with
    | false => exact ⟨h, .status .readOnly, m, by simp [Message.call, withStatus, Message.removeAllTags, hw], by simp [Step, ← hwm, hw], i⟩
    | true =>
      obtain ⟨h', e, i'⟩ := i.removeAllTags hW hw
      exact ⟨h', _, _, by simp [Message.call, withStatus, e]; rfl, by simp [Step, ← hwm, hw], i'⟩
  | addProperty k v =>
    cases hw : h.writable with
    | false => exact ⟨h, .status .readOnly, m, by simp [Message.call, withStatus, Message.modifyProperty, hw], by simp [Step, ← hwm, hw], i⟩
    | true =>
      by_cases hk : 61 ∈ k
      · exact ⟨h, .status .illegalArgument, m, by simp [Message.call, withStatus, Message.modifyProperty, hw, hk], by simp [Step, ← hwm, hw, hk], i⟩
      · obtain ⟨h', e, i'⟩ := i.modifyProperty hw hk hc false
        exact ⟨h', _, _, by simp [Message.call, withStatus, e]; rfl, by simp [Step, ← hwm, hw, hk], i'⟩
  | removeProperty k v =>
    cases hw : h.writable with
    | false => exact ⟨h, .status .readOnly, m, by simp [Message.call, withStatus, Message.modifyProperty, hw], by simp [Step, ← hwm, hw], i⟩
    | true =>
      by_cases hk : 61 ∈ k
      · exact ⟨h, .status .illegalArgument, m, by simp [Message.call, withStatus, Message.modifyProperty, hw, hk], by simp [Step, ← hwm, hw, hk], i⟩
      · obtain ⟨h', e, i'⟩ := i.modifyProperty hw hk hc true
        exact ⟨h', _, _, by simp [Message.call, withStatus, e]; rfl, by simp [Step, ← hwm, hw, hk], i'⟩
  | removeAllProperties k p =>
    cases hw : h.writable with
    | false => exact ⟨h, .status .readOnly, m, by simp [Message.call, withStatus, Message.removeAllProperties, hw], by simp [Step, ← hwm, hw], i⟩
    | true =>
      obtain ⟨h', e, i'⟩ := i.removeAllProperties hw k p (by rintro k' rfl; exact hc)
      exact ⟨h', _, _, by simp [Message.call, withStatus, e]; rfl, by simp [Step, ← hwm, hw], i'⟩
  | moveFile o n =>
    cases hw : h.writable with
    | false => exact ⟨h, .status .readOnly, m, by simp [Message.call, withStatus, Message.moveFile, hw], by simp [Step, ← hwm, hw], i⟩
    | true =>
      obtain ⟨h', e, i'⟩ := i.moveFile hW hw hc.1 hc.2.1 hc.2.2
      exact ⟨h', _, _, by simp [Message.call, withStatus, e]; rfl, by simp [Step, ← hwm, hw], i'⟩
  | freeze =>
    cases hw : h.writable with
    | false => exact ⟨h, .status .readOnly, m, by simp [Message.call, Message.freeze, hw], by simp [Step, ← hwm, hw], i⟩
    | true =>
      obtain ⟨e, _, i'⟩ := i.freeze hw
      exact ⟨_, _, _, rfl, by simp [Step, ← hwm, hw, e], i'⟩
  | thaw =>
    cases hw : h.writable with
    | false => exact ⟨h, .status .readOnly, m, by simp [Message.call, Message.thaw, hw], by simp [Step, ← hwm, hw], i⟩
    | true =>
      by_cases hf : m.frozen = 0
      · have hf' : h.frozen = 0 := i.frozen.trans hf
        exact ⟨h, .status .unbalancedFreezeThaw, m, by simp [Message.call, Message.thaw, hw, hf'], by simp [Step, ← hwm, hw, hf], i⟩
      · obtain ⟨e, i'⟩ := i.thaw hw hf
        exact ⟨_, _, _, rfl, by simp [Step, ← hwm, hw, e, hf], i'⟩

theorem Inv.run {W : World} (hW : W.Ok) {T : List Str} : ∀ (cs : List Call) {h : Handle} {m : Msg}, Inv W T h m → (∀ c ∈ cs, c.Ok W) →
    ∃ h' rs m', run W h cs = some (h', rs) ∧ Conform W m cs rs m' ∧ Inv W T h' m'
  | [], h, m, i, _ => ⟨h, [], m, rfl, rfl, i⟩
  | c :: cs, h, m, i, hc => by
    obtain ⟨h1, r, m1, e1, s1, i1⟩ := i.call hW c (hc c (by simp))
    obtain ⟨h2, rs, m2, e2, s2, i2⟩ := Inv.run hW cs i1 (fun c h => hc c (by simp [h]))
    exact ⟨h2, r :: rs, m2, by simp [Message.run, e1, e2], ⟨m1, s1, s2⟩, i2⟩

/-- A new object. -/
theorem Inv.create {W : World} {T : List Str} {m : Msg} (w : Bool) (v : Nat) (hm : Holds W T m) (hw : m.writable = w) (hf : m.frozen = 0) : Inv W T (create w v T m.data) m := by
  refine ⟨⟨hm, rfl, hw.symm, hf.symm, ⟨.inl rfl, .inl rfl, .inl rfl, .inl rfl, .inl rfl, .inl rfl, ?_, ?_⟩, fun _ => rfl, fun _ _ => Iff.rfl, fun _ => ⟨rfl, rfl⟩⟩, fun _ => rfl⟩
  · intro l h; cases h
  · intro l h; cases h

end Notmuch.Message
