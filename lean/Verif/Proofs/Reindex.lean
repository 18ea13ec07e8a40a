import Verif.Spec.Reindex
import Verif.Proofs.MessageCalls

/-! # Reindexing -/

namespace Notmuch.Reindex

open Notmuch.TermList
open Notmuch.Message

/-- Terms were added. -/
structure Adds (h h' : Handle) (S : Str → Prop) : Prop where
  mem : ∀ x, x ∈ h'.terms ↔ x ∈ h.terms ∨ S x
  sorted : Sorted h.terms → Sorted h'.terms
  writable : h'.writable = h.writable
  frozen : h'.frozen = h.frozen

theorem Adds.refl (h : Handle) : Adds h h (fun _ => False) := ⟨by simp, id, rfl, rfl⟩
theorem Adds.trans {a b c : Handle} {S S' : Str → Prop} (h1 : Adds a b S) (h2 : Adds b c S') : Adds a c (fun x => S x ∨ S' x) :=
  ⟨fun x => by rw [h2.mem, h1.mem, or_assoc], h2.sorted ∘ h1.sorted, h2.writable.trans h1.writable, h2.frozen.trans h1.frozen⟩
theorem Adds.congr {a b : Handle} {S S' : Str → Prop} (h : Adds a b S) (e : ∀ x, S x ↔ S' x) : Adds a b S' :=
  ⟨fun x => by rw [h.mem, e], h.sorted, h.writable, h.frozen⟩

theorem invalidate_frozen (n : Str) (h : Handle) : (invalidate n h).frozen = h.frozen := by
  simp only [invalidate, apply_ite Handle.frozen, ite_self]
theorem invalidate_modified (n : Str) (h : Handle) : (invalidate n h).modified = h.modified := by
  simp only [invalidate, apply_ite Handle.modified, ite_self]

theorem adds_addTermTo {n v : Str} {h : Handle} (hl : (prefixOf n ++ v).length ≤ 245) :
    ∃ h', addTermTo n v h = some h' ∧ Adds h h' (fun x => x = prefixOf n ++ v) ∧ h'.modified = true := by
  unfold addTermTo
  simp only [show ¬ (prefixOf n ++ v).length > 245 by omega, if_false]
  refine ⟨_, rfl, ⟨?_, ?_, ?_, ?_⟩, invalidate_modified _ _⟩
  · intro x; rw [invalidate_terms, mem_addTerm]; exact or_comm
  · intro hs; rw [invalidate_terms]; exact sorted_addTerm hs
  · exact invalidate_writable _ _
  · exact invalidate_frozen _ _

/-- A term whose length is not checked. -/
theorem adds_maybe (n v : Str) (h : Handle) :
    Adds h ((addTermTo n v h).getD h) (fun x => x = prefixOf n ++ v ∧ x.length ≤ 245) ∧ (h.modified = true → ((addTermTo n v h).getD h).modified = true) := by
  by_cases hl : (prefixOf n ++ v).length ≤ 245
  · obtain ⟨h', e, a, m⟩ := adds_addTermTo (h := h) hl
    rw [e]
    refine ⟨a.congr ?_, fun _ => m⟩
    intro x
    constructor
    · rintro rfl; exact ⟨rfl, hl⟩
    · exact fun h => h.1
  · have e : addTermTo n v h = none := by unfold addTermTo; simp only [show (prefixOf n ++ v).length > 245 by omega, if_true]
    rw [e]
    refine ⟨(Adds.refl h).congr ?_, id⟩
    intro x
    constructor
    · exact False.elim
    · rintro ⟨rfl, h⟩; exact hl h

theorem adds_sync (h : Handle) : Adds h (sync h) (fun _ => False) := by
  unfold sync
  split
  · exact .refl h
  · split
    · exact .refl h
    · exact ⟨by simp, id, rfl, rfl⟩

theorem adds_syncUnlessFrozen (h : Handle) : Adds h (syncUnlessFrozen h) (fun _ => False) := by
  unfold syncUnlessFrozen
  split
  · exact adds_sync h
  · exact .refl h

theorem adds_prop {k v : Str} {h : Handle} (hw : h.writable = true) (hk : 61 ∉ k) (hl : k.length + v.length ≤ 235) :
    ∃ h', (Message.modifyProperty k v false h).map (·.1) = some h' ∧ Adds h h' (fun x => x = bs "XPROPERTY" ++ k ++ bs "=" ++ v) ∧ (h'.modified = false → h'.stored = h'.terms) := by
  have h245 : (prefixOf (bs "property") ++ (k ++ bs "=" ++ v)).length ≤ 245 := by
    rw [prefix_property]
    have a : (bs "XPROPERTY").length = 9 := by decide
    have b : (bs "=").length = 1 := by decide
    simp only [List.length_append, a, b]; omega
  obtain ⟨h', e, a, m⟩ := adds_addTermTo (h := h) h245
  unfold Message.modifyProperty
  rw [if_neg (by simp [hw]), if_neg hk]
  simp only [Bool.false_eq_true, if_false, e, Option.map_some]
  refine ⟨_, rfl, (a.trans (adds_syncUnlessFrozen h')).congr ?_, ?_⟩
  · intro x; rw [prefix_property]; simp [List.append_assoc]
  · unfold syncUnlessFrozen sync
    split
    · rw [if_neg (by rw [a.writable, hw]; simp), if_neg (by rw [m]; simp)]
      intro _; rfl
    · intro h0; rw [m] at h0; cases h0

theorem adds_addOne {a : Add} {h : Handle} (hw : h.writable = true) (ha : ∀ k v, a = .prop k v → 61 ∉ k ∧ k.length + v.length ≤ 235) :
    ∃ h', addOne a h = some h' ∧ Adds h h' a.gives ∧ ((∀ k v, a ≠ .prop k v) → h.modified = true → h'.modified = true) := by
  cases a with
  | term n v =>
    obtain ⟨a, m⟩ := adds_maybe n v h
    exact ⟨_, rfl, a, fun _ => m⟩
  | text w =>
    refine ⟨_, rfl, ⟨?_, sorted_addTerm, rfl, rfl⟩, fun _ h => h⟩
    intro x; show x ∈ addTerm w h.terms ↔ _; rw [mem_addTerm]; exact or_comm
  | prop k v =>
    obtain ⟨h1, h2⟩ := ha k v rfl
    obtain ⟨h', e, a, c⟩ := adds_prop hw h1 h2
    exact ⟨h', e, a, fun h => absurd rfl (h k v)⟩

theorem addAll_append : ∀ (as bs : List Add) (h : Handle), addAll (as ++ bs) h = (addAll as h).bind (addAll bs)
  | [], bs, h => rfl
  | a :: as, bs, h => by
    show (addOne a h).bind (addAll (as ++ bs)) = ((addOne a h).bind (addAll as)).bind (addAll bs)
    cases addOne a h with
    | none => rfl
    | some h1 => exact addAll_append as bs h1

theorem adds_addAll : ∀ (as : List Add) {h : Handle}, h.writable = true → (∀ k v, .prop k v ∈ as → 61 ∉ k ∧ k.length + v.length ≤ 235) →
    ∃ h', addAll as h = some h' ∧ Adds h h' (fun x => ∃ a ∈ as, a.gives x) ∧ ((∀ k v, .prop k v ∉ as) → h.modified = true → h'.modified = true)
  | [], h, _, _ => ⟨h, rfl, (Adds.refl h).congr (by simp), fun _ h => h⟩
  | a :: as, h, hw, ha => by
    obtain ⟨h1, e1, a1, m1⟩ := adds_addOne (a := a) hw (fun k v e => ha k v (by simp [e]))
    obtain ⟨h2, e2, a2, m2⟩ := adds_addAll as (h := h1) (a1.writable.trans hw) (fun k v e => ha k v (by simp [e]))
    refine ⟨h2, by simp [addAll, e1, e2], (a1.trans a2).congr ?_, ?_⟩
    · intro x; simp
    · intro hn hm
      refine m2 (fun k v h => hn k v (by simp [h])) (m1 (fun k v h => hn k v (by simp [h])) hm)

theorem addAll_saved {as : List Add} {h h' : Handle} (hw : h.writable = true) (ha : ∀ k v, .prop k v ∈ as → 61 ∉ k ∧ k.length + v.length ≤ 235)
    (ht : ∀ n v, .term n v ∈ as → (prefixOf n ++ v).length ≤ 245) (hm : h.modified = true)
    (hs : (∃ w, as.getLast? = some (.text w)) → ∀ k v, .prop k v ∉ as) (e : addAll as h = some h') : h'.modified = false → h'.stored = h'.terms := by
  by_cases hp : ∃ k v, Add.prop k v ∈ as
  · -- the last one is not a word
    have hn : as ≠ [] := by rintro rfl; obtain ⟨k, v, h⟩ := hp; cases h
    have hl : ∀ w, as.getLast hn ≠ .text w := by
      intro w hw'
      obtain ⟨k, v, h⟩ := hp
      exact hs ⟨w, by rw [List.getLast?_eq_some_getLast hn, hw']⟩ k v h
    have hd := List.dropLast_concat_getLast hn
    rw [← hd, addAll_append] at e
    obtain ⟨h1, e1, a1, m1⟩ := adds_addAll as.dropLast hw (fun k v h => ha k v (List.dropLast_subset _ h))
    rw [e1, Option.bind_some] at e
    obtain ⟨h2, e2, a2, m2⟩ := adds_addOne (a := as.getLast hn) (a1.writable.trans hw) (fun k v h => ha k v (h ▸ List.getLast_mem hn))
    simp only [addAll, e2, Option.bind_some, Option.some.injEq] at e
    subst e
    by_cases hpl : ∃ k v, as.getLast hn = .prop k v
    · obtain ⟨k, v, hkv⟩ := hpl
      have := ha k v (hkv ▸ List.getLast_mem hn)
      obtain ⟨h3, e3, _, c3⟩ := adds_prop (a1.writable.trans hw) this.1 this.2
      rw [hkv] at e2
      have : addOne (.prop k v) h1 = some h3 := e3
      rw [this, Option.some.injEq] at e2
      rw [← e2]; exact c3
    · -- a term that is too long, or one that marks the object
      cases hg : as.getLast hn with
      | prop k v => exact absurd ⟨k, v, hg⟩ hpl
      | text w => exact absurd hg (hl w)
      | term n v =>
        obtain ⟨h3, e3, _, m3⟩ := adds_addTermTo (h := h1) (ht n v (hg ▸ List.getLast_mem hn))
        rw [hg] at e2
        simp only [addOne, e3, Option.getD_some, Option.some.injEq] at e2
        rw [← e2, m3]
        intro h0; cases h0
  · have hn : ∀ k v, Add.prop k v ∉ as := fun k v h => hp ⟨k, v, h⟩
    obtain ⟨h1, e1, a1, m1⟩ := adds_addAll as hw ha
    rw [e, Option.some.injEq] at e1
    rw [e1]
    intro h0; rw [m1 hn hm] at h0; cases h0

/-! ## A file -/

theorem adds_dirTerms {W : World} (hW : W.Ok) {id : Nat} {d : Str} (hd : W.dir id = some d) (h : Handle) :
    ∃ h', addDirTerms W d h = some h' ∧ Adds h h' (fun x => x = bs "XFOLDER:" ++ W.folder d ∨ ∃ p ∈ W.paths d, x = bs "P" ++ p) := by
  obtain ⟨h1, e1, a1, _⟩ := adds_addTermTo (n := bs "folder") (v := W.folder d) (h := h) (by
    have := hW.folder id d hd
    rw [prefix_folder, List.length_append, show (bs "XFOLDER:").length = 8 by decide +kernel]; omega)
  unfold Message.addDirTerms
  simp only [e1]
  have : ∀ (l : List Str) (h : Handle), (∀ p ∈ l, p.length ≤ 244) →
      ∃ h', l.foldl (fun (h : Option Handle) p => h.bind (addTermTo (bs "path") p)) (some h) = some h' ∧ Adds h h' (fun x => ∃ p ∈ l, x = bs "P" ++ p) := by
    intro l
    induction l with
    | nil => intro h _; exact ⟨h, rfl, (Adds.refl h).congr (by simp)⟩
    | cons p l ih =>
      intro h hl
      obtain ⟨h2, e2, a2, _⟩ := adds_addTermTo (n := bs "path") (v := p) (h := h) (by
        have := hl p (by simp)
        rw [prefix_path, List.length_append, show (bs "P").length = 1 by decide +kernel]; omega)
      obtain ⟨h3, e3, a3⟩ := ih h2 (fun p h => hl p (by simp [h]))
      refine ⟨h3, by simp only [List.foldl_cons, Option.bind_some, e2, e3], (a2.trans a3).congr ?_⟩
      intro x; rw [prefix_path]; simp
  obtain ⟨h2, e2, a2⟩ := this (W.paths d) h1 (hW.paths id d hd)
  exact ⟨h2, e2, (a1.trans a2).congr (fun x => by rw [prefix_folder])⟩

theorem adds_filename {W : World} (hW : W.Ok) {e : Str} (he : e.length ≤ 235) (hn : ∃ f, nameOf W e f) (h : Handle) :
    ∃ h', addFilename W e h = some (h', true) ∧ Adds h h' (fun x => ∃ id base d, e = dec id ++ bs ":" ++ base ∧ W.dir id = some d ∧
      (x = bs "XFDIRENTRY" ++ e ∨ x = bs "XFOLDER:" ++ W.folder d ∨ ∃ p ∈ W.paths d, x = bs "P" ++ p)) := by
  obtain ⟨h1, e1, a1, _⟩ := adds_addTermTo (n := bs "file-direntry") (v := e) (h := h) (by
    rw [prefix_file, List.length_append, show (bs "XFDIRENTRY").length = 10 by decide +kernel]; omega)
  obtain ⟨f, id, base, d, rfl, hd, _⟩ := hn
  obtain ⟨h2, e2, a2⟩ := adds_dirTerms hW hd h1
  refine ⟨h2, by simp only [addFilename, e1, parse_entry, hd, e2], (a1.trans a2).congr ?_⟩
  intro x
  rw [prefix_file]
  constructor
  · intro h; exact ⟨id, base, d, rfl, hd, h⟩
  · rintro ⟨id', base', d', he', hd', h⟩
    have h1 := parse_entry (id := id) (base := base)
    rw [he', parse_entry, Option.some.injEq, Prod.mk.injEq] at h1
    rw [h1.1, hd, Option.some.injEq] at hd'
    rw [hd']; exact h

theorem adds_link (m : Mail) (h : Handle) : Adds h (link m h) (fun x => (∃ l ∈ m.links, x = prefixOf l.1 ++ l.2 ∧ x.length ≤ 245) ∨ ∃ t, m.thread = some t ∧ x = bs "G" ++ t ∧ x.length ≤ 245) := by
  have key : ∀ (ls : List (Str × Str)) (h : Handle), Adds h (ls.foldl (fun h l => (addTermTo l.1 l.2 h).getD h) h) (fun x => ∃ l ∈ ls, x = prefixOf l.1 ++ l.2 ∧ x.length ≤ 245) := by
    intro ls
    induction ls with
    | nil => intro h; exact (Adds.refl h).congr (by simp)
    | cons l ls ih =>
      intro h
      refine ((adds_maybe l.1 l.2 h).1.trans (ih _)).congr ?_
      intro x; simp
  unfold link
  simp only
  cases m.thread with
  | none => exact (key _ h).congr (by simp)
  | some t =>
    refine ((key _ h).trans (adds_maybe (bs "thread") t _).1).congr ?_
    intro x
    rw [show prefixOf (bs "thread") = bs "G" by decide +kernel]
    simp

/-- What one file does. -/
theorem file_spec {W : World} (hW : W.Ok) {orig : Str} (ho : orig.length ≤ 244) (name : Str) {m : Mail} (hm : m.Ok W) (hg : m.Good) {s : St} (hw : s.h.writable = true) :
    ∃ h', file W orig name m s = some (⟨h', if s.found = 0 then some name else s.values, if m.indexStatus = .success then s.found + 1 else s.found, m.indexStatus⟩, true) ∧
      Adds s.h h' (m.gives W orig) ∧ (Saved m → h'.modified = false → h'.stored = h'.terms) := by
  obtain ⟨h1, e1, a1⟩ := adds_filename hW hm.entry hm.dir s.h
  have a2 := adds_link m h1
  have hth : (m.thread.getD orig).length ≤ 244 := by
    cases e : m.thread with
    | none => exact ho
    | some t => exact hm.thread t e
  obtain ⟨h3, e3, a3, m3⟩ := adds_addTermTo (n := bs "thread") (v := m.thread.getD orig) (h := link m h1) (by
    rw [show prefixOf (bs "thread") = bs "G" by decide +kernel, List.length_append, show (bs "G").length = 1 by decide +kernel]; omega)
  have a13 := (a1.trans a2).trans a3
  have hif : (if s.found = 0 then { h3 with modified := true } else h3) = h3 := by
    split
    · rw [← m3]
    · rfl
  have w3 : h3.writable = true := a13.writable.trans hw
  obtain ⟨h4, e4, a4, _⟩ := adds_addAll m.index w3 hm.props
  refine ⟨h4, ?_, (a13.trans a4).congr ?_, ?_⟩
  · unfold file
    rw [if_neg (by rw [hg.headers]; simp)]
    simp only [e1]
    rw [if_neg (by rw [hg.link]; simp)]
    simp only [e3, hif, e4]
    rcases hg.index with hi | hi
    · simp [hi]
    · simp [hi]
  · intro x
    rw [show prefixOf (bs "thread") = bs "G" by decide +kernel]
    unfold Mail.gives
    constructor
    · rintro (((h | h | ⟨t, ht, h, _⟩) | h) | h)
      · exact .inl h
      · exact .inr (.inl h)
      · refine .inr (.inr (.inl ?_)); rw [ht]; exact h
      · exact .inr (.inr (.inl h))
      · exact .inr (.inr (.inr h))
    · rintro (h | h | h | h)
      · exact .inl (.inl (.inl h))
      · exact .inl (.inl (.inr (.inl h)))
      · exact .inl (.inr h)
      · exact .inr h
  · intro hs
    exact addAll_saved w3 hm.props hm.terms m3 hs e4

/-- What the loop does. -/
theorem loop_spec {W : World} (hW : W.Ok) {files : Str → Option Mail} {orig : Str} (ho : orig.length ≤ 244) : ∀ (names : List Str) {s : St}, s.h.writable = true →
    (∀ o ∈ opened files names, o.2.Ok W ∧ o.2.Good) →
    ∃ s', loop W files orig names s = some (s', true) ∧ Adds s.h s'.h (fun x => ∃ o ∈ opened files names, o.2.gives W orig x) ∧
      s'.found = s.found + (opened files names).countP (fun o => o.2.indexStatus = .success) ∧
      (s'.ret = ((opened files names).getLast?.map (·.2.indexStatus)).getD s.ret) ∧
      (s.found ≠ 0 → s'.values = s.values) ∧
      (s.found = 0 → ∀ o, (opened files names).find? (fun o => o.2.indexStatus = .success) = some o → s'.values = some o.1) ∧
      (∀ o, (opened files names).getLast? = some o → Saved o.2 → s'.h.modified = false → s'.h.stored = s'.h.terms)
  | [], s, hw, _ => by
    refine ⟨s, rfl, (Adds.refl _).congr (by simp [opened]), by simp [opened], by simp [opened], fun _ => rfl, ?_, ?_⟩
    · intro _ o h; simp [opened] at h
    · intro o h; simp [opened] at h
  | f :: fs, s, hw, hok => by
    cases hf : files f with
    | none =>
      have ho' : opened files (f :: fs) = opened files fs := by simp [opened, hf]
      rw [ho'] at hok ⊢
      obtain ⟨s', e, h⟩ := loop_spec hW ho fs hw hok
      exact ⟨s', by simp only [loop, hf]; exact e, h⟩
    | some m =>
      have ho' : opened files (f :: fs) = (f, m) :: opened files fs := by simp [opened, hf]
      rw [ho'] at hok ⊢
      have hm : m.Ok W ∧ m.Good := hok (f, m) (by simp)
      obtain ⟨h1, e1, a1, c1⟩ := file_spec hW ho f hm.1 hm.2 hw
      obtain ⟨s2, e2, a2, f2, r2, v2, v2', c2⟩ := loop_spec (files := files) hW ho fs (s := ⟨h1, if s.found = 0 then some f else s.values, if m.indexStatus = .success then s.found + 1 else s.found, m.indexStatus⟩)
        (a1.writable.trans hw) (fun o h => hok o (by simp [h]))
      refine ⟨s2, by rw [loop]; simp only [hf]; rw [e1]; exact e2, (a1.trans a2).congr (fun x => by simp), ?_, ?_, ?_, ?_, ?_⟩
      · rw [f2, List.countP_cons]
        by_cases hi : m.indexStatus = .success
        · simp only [hi, if_true, decide_true]; omega
        · simp only [hi, if_false, decide_false, Bool.false_eq_true]; omega
      · rw [r2]
        cases hl : opened files fs with
        | nil => rfl
        | cons a l => rw [List.getLast?_cons_cons]; simp [List.getLast?_cons]
      · intro hn
        rw [v2 (by show (if m.indexStatus = .success then s.found + 1 else s.found) ≠ 0; split <;> omega)]
        simp [hn]
      · intro h0 o
        rw [List.find?_cons]
        by_cases hi : m.indexStatus = .success
        · simp only [hi, decide_true, Option.some.injEq]
          rintro rfl
          rw [v2 (by simp [hi])]
          simp [h0]
        · simp only [hi, decide_false]
          exact v2' (by simp [hi, h0]) o
      · intro o hl
        cases hlo : opened files fs with
        | nil =>
          rw [hlo, List.getLast?_singleton, Option.some.injEq] at hl
          obtain rfl := hl
          intro hs hm0
          -- nothing more is added
          have : ∀ (names : List Str) (s : St), opened files names = [] → loop W files orig names s = some (s, true) := by
            intro names
            induction names with
            | nil => intro s _; rfl
            | cons g gs ih =>
              intro s hg
              cases hfg : files g with
              | none => simp only [loop, hfg]; exact ih s (by simpa [opened, hfg] using hg)
              | some x => simp [opened, hfg] at hg
          rw [this fs _ hlo, Option.some.injEq, Prod.mk.injEq] at e2
          rw [← e2.1] at hm0 ⊢
          exact c1 hs hm0
        | cons a l =>
          rw [hlo, List.getLast?_cons_cons] at hl
          exact c2 o (by rw [hlo]; exact hl)

/-! ## Removing what was indexed -/

/-- The terms of the document after `clear_terms` and what is put back. -/
def Base (m : Msg) (x : Str) : Prop :=
  x = bs "Tmail" ∨ x = bs "Q" ++ m.id ∨ (∃ t, m.tags t ∧ t ∉ automatic ∧ x = bs "K" ++ t) ∨ ∃ k v, m.props k v ∧ x = bs "XPROPERTY" ++ k ++ bs "=" ++ v

theorem ensure_view {W : World} {h h' : Handle} (e : Message.ensure W false h = some h') : h'.lastView = h'.view := by
  unfold Message.ensure at e
  simp only [Bool.false_and, Bool.false_eq_true, if_false] at e
  split at e
  · cases e
  · obtain rfl := Option.some.inj e; rfl

theorem ensure_read {W : World} {h : Handle} (hv : h.lastView = h.view) : Message.ensure W true h = some h := by
  unfold Message.ensure
  rw [if_pos (by simp [hv])]

theorem ensureProps_terms {W : World} {h : Handle} {V : Vals} (hf : Full V h) (hv : h.lastView = h.view) (ts : List Str) (b : Bool) {h' : Handle} {mp : StringMap.Map}
    (e : Message.ensureProps W h = some (h', mp)) : Message.ensureProps W { h with terms := ts, modified := b } = some ({ h' with terms := ts, modified := b }, mp) := by
  unfold Message.ensureProps at e ⊢
  cases hp : h.props with
  | some x =>
    rw [hp] at e
    simp only [Option.some.injEq, Prod.mk.injEq] at e
    obtain ⟨rfl, rfl⟩ := e
    simp [hp]
  | none =>
    have hpt := hf.pterms hp
    rw [hp] at e
    simp only [hpt, Option.isSome_some, ensure_read hv] at e
    have e2 := ensure_read (W := W) (h := { h with terms := ts, modified := b, props := none }) hv
    simp only [hpt, Option.isSome_some, e2]
    cases hm : propertyMap V.p StringMap.create with
    | none => simp only [hm] at e; cases e
    | some x =>
      simp only [hm, Option.some.injEq, Prod.mk.injEq] at e ⊢
      obtain ⟨rfl, rfl⟩ := e
      exact ⟨rfl, rfl⟩

theorem getProperties_terms {W : World} {h : Handle} {V : Vals} (hf : Full V h) (hv : h.lastView = h.view) (ts : List Str) (b : Bool) {k : Str} {x : Bool} {h' : Handle} {l : List StringMap.Pair}
    (e : Message.getProperties W k x h = some (h', l)) : Message.getProperties W k x { h with terms := ts, modified := b } = some ({ h' with terms := ts, modified := b }, l) := by
  unfold Message.getProperties at e ⊢
  cases he : Message.ensureProps W h with
  | none => rw [he] at e; cases e
  | some r =>
    obtain ⟨h1, mp⟩ := r
    rw [ensureProps_terms hf hv ts b he]
    rw [he] at e
    simp only at e ⊢
    split at e
    · cases e
    · simp only [Option.some.injEq, Prod.mk.injEq] at e
      obtain ⟨rfl, rfl⟩ := e
      rfl

theorem fold_addTerm {α : Type} (f : α → Str) : ∀ (l : List α) (ts : List Str), (∀ x, x ∈ l.foldl (fun ts a => addTerm (f a) ts) ts ↔ x ∈ ts ∨ ∃ a ∈ l, x = f a) ∧
    (Sorted ts → Sorted (l.foldl (fun ts a => addTerm (f a) ts) ts))
  | [], ts => ⟨by simp, id⟩
  | a :: l, ts => by
    obtain ⟨h1, h2⟩ := fold_addTerm f l (addTerm (f a) ts)
    refine ⟨?_, fun h => h2 (sorted_addTerm h)⟩
    intro x
    rw [List.foldl_cons, h1, mem_addTerm]
    simp only [List.mem_cons, exists_eq_or_imp]
    grind

theorem matches_all (k : Str) : StringMapSpec.Matches [] false k := by
  simp [StringMapSpec.Matches]

theorem removeIndexed_spec {W : World} (hW : W.Ok) {T : List Str} {h : Handle} {m : Msg} (i : Message.Inv W T h m) :
    ∃ h', removeIndexed W h = some h' ∧ Sorted h'.terms ∧ (∀ x, x ∈ h'.terms ↔ Base m x) ∧ h'.writable = h.writable ∧ h'.frozen = h.frozen ∧ h'.modified = true ∧ h'.stored = h.stored := by
  obtain ⟨h1, e1, s1, i1, _, _, _, hr⟩ := i.ensure hW false
  have hfull : Full (vals h1.terms) h1 := by
    rcases hr with ⟨hb, _⟩ | hr
    · cases hb
    · exact hr
  have hv := ensure_view e1
  have hid : h1.md.messageId = some m.id := by
    rw [hfull.id]
    show (valuesWith (bs "Q") h1.terms).head? = _
    rw [i1.holds.id]; rfl
  obtain ⟨_, tl, e2, _, _, _, ht, _⟩ := i1.getTags hW
  have e2' : tl = (vals h1.terms).k := by
    unfold Message.getTags at e2
    rw [hfull.tags] at e2
    simp only [Option.isSome_some, ensure_read hv, hfull.tags, Option.some.injEq, Prod.mk.injEq] at e2
    exact e2.2.symm
  obtain ⟨h3, pl, e3, s3, i3, _, _, hp⟩ := i1.getProperties hW [] false
  unfold removeIndexed
  simp only [e1, hid]
  have e4 : Message.getTags W { h1 with terms := addTerm (bs "Q" ++ m.id) (addTerm (bs "Tmail") []), modified := true }
      = some ({ h1 with terms := addTerm (bs "Q" ++ m.id) (addTerm (bs "Tmail") []), modified := true }, tl) := by
    unfold Message.getTags
    have : Message.ensure W true { h1 with terms := addTerm (bs "Q" ++ m.id) (addTerm (bs "Tmail") []), modified := true } = some { h1 with terms := addTerm (bs "Q" ++ m.id) (addTerm (bs "Tmail") []), modified := true } := ensure_read hv
    simp only [hfull.tags, Option.isSome_some, this, e2']
  rw [e4]
  simp only
  have e5 := getProperties_terms hfull hv ((tl.filter (fun t => t ≠ bs "encrypted" ∧ t ≠ bs "signed" ∧ t ≠ bs "attachment")).foldl (fun ts t => addTerm (bs "K" ++ t) ts)
    (addTerm (bs "Q" ++ m.id) (addTerm (bs "Tmail") []))) true e3
  rw [e5]
  simp only
  obtain ⟨f1, f2⟩ := fold_addTerm (fun t => bs "K" ++ t) (tl.filter (fun t => t ≠ bs "encrypted" ∧ t ≠ bs "signed" ∧ t ≠ bs "attachment")) (addTerm (bs "Q" ++ m.id) (addTerm (bs "Tmail") []))
  obtain ⟨g1, g2⟩ := fold_addTerm (fun p : StringMap.Pair => bs "XPROPERTY" ++ p.1 ++ bs "=" ++ p.2) pl ((tl.filter (fun t => t ≠ bs "encrypted" ∧ t ≠ bs "signed" ∧ t ≠ bs "attachment")).foldl (fun ts t => addTerm (bs "K" ++ t) ts)
    (addTerm (bs "Q" ++ m.id) (addTerm (bs "Tmail") [])))
  refine ⟨_, rfl, g2 (f2 (sorted_addTerm (sorted_addTerm List.Pairwise.nil))), ?_, s3.writable.trans s1.writable, s3.frozen.trans s1.frozen, rfl, s3.stored.trans s1.stored⟩
  intro x
  rw [g1, f1, mem_addTerm, mem_addTerm]
  unfold Base
  simp only [List.not_mem_nil, or_false, List.mem_filter, ht, decide_eq_true_eq, automatic, List.mem_cons, not_or]
  constructor
  · rintro (((h | h) | ⟨t, ⟨h1, h2⟩, h3⟩) | ⟨⟨k, v⟩, h1, h2⟩)
    · exact .inr (.inl h)
    · exact .inl h
    · exact .inr (.inr (.inl ⟨t, h1, h2, h3⟩))
    · exact .inr (.inr (.inr ⟨k, v, ((hp k v).1 h1).1, h2⟩))
  · rintro (h | h | ⟨t, h1, h2, h3⟩ | ⟨k, v, h1, h2⟩)
    · exact .inl (.inl (.inr h))
    · exact .inl (.inl (.inl h))
    · exact .inl (.inr ⟨t, ⟨h1, h2⟩, h3⟩)
    · exact .inr ⟨(k, v), (hp k v).2 ⟨h1, matches_all k⟩, h2⟩

/-! ## All -/

/-- The object, as far as it matters after that. -/
structure Obj (h : Handle) (fr : Nat) (S : Str → Prop) : Prop where
  sorted : Sorted h.terms
  mem : ∀ x, x ∈ h.terms ↔ S x
  writable : h.writable = true
  frozen : h.frozen = fr

theorem Obj.removeTerms {h : Handle} {fr : Nat} {S : Str → Prop} (o : Obj h fr S) (q : Str) :
    ∃ h', removeTermsFrom q h = some h' ∧ Obj h' fr (fun x => S x ∧ ¬ q <+: x) := by
  unfold removeTermsFrom
  rw [removeTerms_spec (Nat.lt_succ_self _) o.sorted]
  refine ⟨_, rfl, ?_, ?_, (invalidate_writable _ _).trans o.writable, (invalidate_frozen _ _).trans o.frozen⟩
  · rw [invalidate_terms]; exact sorted_filter _ o.sorted
  · intro x
    rw [invalidate_terms, List.mem_filter, o.mem, Bool.not_eq_true', ← Bool.not_eq_true, List.isPrefixOf_iff_prefix]

theorem Obj.adds {h h' : Handle} {fr : Nat} {S S' : Str → Prop} (o : Obj h fr S) (a : Adds h h' S') : Obj h' fr (fun x => S x ∨ S' x) :=
  ⟨a.sorted o.sorted, fun x => by rw [a.mem, o.mem], a.writable.trans o.writable, a.frozen.trans o.frozen⟩

theorem Obj.congr {h : Handle} {fr : Nat} {S S' : Str → Prop} (o : Obj h fr S) (e : ∀ x, S x ↔ S' x) : Obj h fr S' :=
  ⟨o.sorted, fun x => by rw [o.mem, e], o.writable, o.frozen⟩

theorem Obj.removeAllProperties {h : Handle} {fr : Nat} {S : Str → Prop} (o : Obj h fr S) (k : Str) (pre : Bool) :
    ∃ h', Message.removeAllProperties (some k) pre h = some (h', .success) ∧ Obj h' fr (fun x => S x ∧ ¬ (bs "XPROPERTY" ++ k ++ if pre then [] else bs "=") <+: x) := by
  obtain ⟨h1, e1, o1⟩ := o.removeTerms (bs "XPROPERTY" ++ k ++ if pre then [] else bs "=")
  unfold Message.removeAllProperties
  rw [if_neg (by simp [o.writable]), prefix_property]
  simp only [e1]
  exact ⟨_, rfl, (o1.adds (adds_syncUnlessFrozen h1)).congr (by simp)⟩

/-- What stays. -/
def Kept (noDecrypt : Bool) (m : Msg) (x : Str) : Prop :=
  x = bs "Tmail" ∨ x = bs "Q" ++ m.id ∨ (∃ t, m.tags t ∧ t ∉ automatic ∧ x = bs "K" ++ t) ∨ ∃ k v, kept noDecrypt m k v ∧ x = bs "XPROPERTY" ++ k ++ bs "=" ++ v

theorem not_prop {q c y : Str} (hc : (bs "XPROPERTY").isPrefixOf c = false) (hc' : c.isPrefixOf (bs "XPROPERTY") = false) : ¬ bs "XPROPERTY" ++ q <+: c ++ y := by
  rintro ⟨z, h⟩
  rw [List.append_assoc] at h
  rcases comparable h with h | h
  · rw [← List.isPrefixOf_iff_prefix, hc] at h; cases h
  · rw [← List.isPrefixOf_iff_prefix, hc'] at h; cases h

theorem kept_iff {m : Msg} (hk : ∀ k v, m.props k v → 61 ∉ k) (x : Str) (b : Bool) :
    ((Base m x ∧ ¬ (bs "XPROPERTY" ++ bs "index." ++ []) <+: x) ∧ (b = true → ¬ (bs "XPROPERTY" ++ bs "session-key" ++ bs "=") <+: x)) ↔ Kept b m x := by
  have n1 : ∀ q y, ¬ bs "XPROPERTY" ++ q <+: bs "Q" ++ y := fun q y => not_prop (by decide) (by decide)
  have n2 : ∀ q y, ¬ bs "XPROPERTY" ++ q <+: bs "K" ++ y := fun q y => not_prop (by decide) (by decide)
  have n3 : ∀ q, ¬ bs "XPROPERTY" ++ q <+: bs "Tmail" := fun q => by
    have := not_prop (q := q) (c := bs "Tmail") (y := []) (by decide) (by decide)
    rwa [List.append_nil] at this
  have p1 : ∀ k v, bs "XPROPERTY" ++ bs "index." ++ [] <+: bs "XPROPERTY" ++ k ++ bs "=" ++ v ↔ bs "index." <+: k := by
    intro k v
    rw [List.append_nil, List.append_assoc, List.append_assoc, List.prefix_append_right_inj, ← List.append_assoc]
    exact prefix_of_eq (by decide)
  have p2 : ∀ k v, 61 ∉ k → (bs "XPROPERTY" ++ bs "session-key" ++ bs "=" <+: bs "XPROPERTY" ++ k ++ bs "=" ++ v ↔ k = bs "session-key") := by
    intro k v h
    rw [List.append_assoc, List.append_assoc, List.append_assoc, List.prefix_append_right_inj, ← List.append_assoc]
    exact eq_prefix (by decide) h
  unfold Base Kept kept
  constructor
  · rintro ⟨⟨h | h | h | ⟨k, v, h, rfl⟩, h1⟩, h2⟩
    · exact .inl h
    · exact .inr (.inl h)
    · exact .inr (.inr (.inl h))
    · refine .inr (.inr (.inr ⟨k, v, ⟨h, fun h3 => h1 ((p1 k v).2 h3), ?_⟩, rfl⟩))
      rintro ⟨h3, h4⟩
      exact h2 h3 ((p2 k v (hk k v h)).2 h4)
  · rintro (rfl | rfl | ⟨t, h1, h2, rfl⟩ | ⟨k, v, ⟨h1, h2, h3⟩, rfl⟩)
    · refine ⟨⟨.inl rfl, ?_⟩, fun _ => ?_⟩
      · rw [List.append_assoc]; exact n3 _
      · rw [List.append_assoc]; exact n3 _
    · refine ⟨⟨.inr (.inl rfl), ?_⟩, fun _ => ?_⟩
      · rw [List.append_assoc]; exact n1 _ _
      · rw [List.append_assoc]; exact n1 _ _
    · refine ⟨⟨.inr (.inr (.inl ⟨t, h1, h2, rfl⟩)), ?_⟩, fun _ => ?_⟩
      · rw [List.append_assoc]; exact n2 _ _
      · rw [List.append_assoc]; exact n2 _ _
    · refine ⟨⟨.inr (.inr (.inr ⟨k, v, h1, rfl⟩)), fun h => h2 ((p1 k v).1 h)⟩, fun hb h => h3 ⟨hb, (p2 k v (hk k v h1)).1 h⟩⟩

theorem nameOf_unique {W : World} {e f f' : Str} (h : nameOf W e f) (h' : nameOf W e f') : f = f' := by
  obtain ⟨id, base, d, rfl, hd, rfl⟩ := h
  obtain ⟨id', base', d', he, hd', rfl⟩ := h'
  have h1 := parse_entry (id := id) (base := base)
  rw [he, parse_entry, Option.some.injEq, Prod.mk.injEq] at h1
  obtain ⟨rfl, rfl⟩ := h1
  rw [hd, Option.some.injEq] at hd'
  rw [hd']

theorem fileNames_unique {W : World} {m : Msg} {l l' : List Str} (h : FileNames W m l) (h' : FileNames W m l') : l = l' := by
  obtain ⟨es, s1, m1, h⟩ := h
  obtain ⟨es', s2, m2, h'⟩ := h'
  obtain rfl := sorted_ext s1 s2 (fun x => by rw [m1, m2])
  rcases h with ⟨h1, rfl⟩ | ⟨h1, h2, h3⟩
  · rcases h' with ⟨_, rfl⟩ | ⟨h, _⟩
    · rfl
    · exact absurd h1 h
  · rcases h' with ⟨h, _⟩ | ⟨_, h2', h3'⟩
    · exact absurd h h1
    · apply List.ext_getElem (h2.trans h2'.symm)
      intro i hi hi'
      have he : es[i]? = some es[i] := List.getElem?_eq_getElem (by omega)
      exact nameOf_unique (h3 i _ _ he (List.getElem?_eq_getElem hi)) (h3' i _ _ he (List.getElem?_eq_getElem hi'))

/-- Before the loop. -/
theorem before_spec {W : World} (hW : W.Ok) {T : List Str} {h : Handle} {m : Msg} (i : Message.Inv W T h m) (hw : m.writable = true) (files : Str → Option Mail) (noDecrypt : Bool)
    {l : List Str} (hl : FileNames W m l) :
    ∃ h1, Obj h1 m.frozen (Kept noDecrypt m) ∧ reindex W files noDecrypt h =
      finish m.thread (loop W files m.thread l ⟨h1, none, 0, .success⟩) := by
  obtain ⟨h1, e1, i1⟩ := i.getThreadId hW
  obtain ⟨h2, l', e2, s2, i2, hl', _⟩ := i1.getFilenames hW
  obtain rfl := fileNames_unique hl hl'
  obtain ⟨h3, e3, st3, mem3, w3, f3, m3, _⟩ := removeIndexed_spec hW i2
  have o3 : Obj h3 m.frozen (Base m) := ⟨st3, mem3, by rw [w3, i2.writable, hw], by rw [f3, i2.frozen]⟩
  obtain ⟨h4, e4, o4⟩ := o3.removeAllProperties (bs "index.") true
  have w1 : h1.writable = true := by rw [i1.writable, hw]
  cases noDecrypt with
  | false =>
    refine ⟨h4, o4.congr ?_, ?_⟩
    · intro x; rw [← kept_iff i.holds.propKeys]; simp
    · unfold reindex rebuild
      simp only [e1, w1, reduceCtorEq, if_false, e2, e3, Option.getD_some, e4, ne_eq, not_true, Bool.false_eq_true]
  | true =>
    obtain ⟨h5, e5, o5⟩ := o4.removeAllProperties (bs "session-key") false
    refine ⟨h5, o5.congr ?_, ?_⟩
    · intro x; rw [← kept_iff i.holds.propKeys]; simp
    · unfold reindex rebuild
      simp only [e1, w1, reduceCtorEq, if_false, e2, e3, Option.getD_some, e4, e5, ne_eq, not_true, if_true]

theorem thread_short {W : World} {T : List Str} {m : Msg} (h : Holds W T m) : m.thread.length ≤ 244 := by
  have : m.thread ∈ valuesWith (bs "G") T := by rw [h.thread]; simp
  have := h.short _ (mem_valuesWith.1 this)
  rw [List.length_append, show (bs "G").length = 1 by decide +kernel] at this
  omega

/-- The whole. -/
theorem reindex_spec {W : World} (hW : W.Ok) {T : List Str} {h : Handle} {m : Msg} (i : Message.Inv W T h m) (hw : m.writable = true) (files : Str → Option Mail) (noDecrypt : Bool)
    {l : List Str} (hl : FileNames W m l) (hok : ∀ o ∈ opened files l, o.2.Ok W ∧ o.2.Good) :
    ∃ d, reindex W files noDecrypt h = some d ∧
      (d.deleted = true ↔ ∀ o ∈ opened files l, o.2.indexStatus ≠ .success) ∧
      (d.deleted = false → Obj d.h m.frozen (Wanted W noDecrypt m (opened files l)) ∧
        (∀ o, (opened files l).getLast? = some o → d.ret = o.2.indexStatus ∧ (Saved o.2 → d.h.stored = d.h.terms)) ∧
        ∀ o, (opened files l).find? (fun o => o.2.indexStatus = .success) = some o → d.values = some o.1) ∧
      (d.deleted = true → d.ret = .success) := by
  obtain ⟨h1, o1, e1⟩ := before_spec hW i hw files noDecrypt hl
  obtain ⟨s2, e2, a2, f2, r2, _, v2, c2⟩ := loop_spec hW (thread_short i.holds) l (s := ⟨h1, none, 0, .success⟩) o1.writable hok
  rw [e1, e2, finish]
  have hcount : s2.found = 0 ↔ ∀ o ∈ opened files l, o.2.indexStatus ≠ .success := by
    rw [f2]
    simp only [Nat.zero_add, List.countP_eq_zero, decide_eq_true_eq]
  by_cases h0 : s2.found = 0
  · rw [if_pos h0]
    obtain ⟨h3, e3, _, _⟩ := adds_addTermTo (n := bs "thread") (v := m.thread) (h := s2.h) (by
      have := thread_short i.holds
      rw [show prefixOf (bs "thread") = bs "G" by decide +kernel, List.length_append, show (bs "G").length = 1 by decide +kernel]; omega)
    rw [e3, Option.map_some]
    exact ⟨_, rfl, by simp only [true_iff]; exact hcount.1 h0, by simp, by simp⟩
  · rw [if_neg h0]
    refine ⟨_, rfl, ?_, ?_, by simp⟩
    · simp only [Bool.false_eq_true, false_iff]; exact fun h => h0 (hcount.2 h)
    · intro _
      have o2 := o1.adds a2
      refine ⟨(o2.adds (adds_sync s2.h)).congr ?_, ?_, ?_⟩
      · intro x
        unfold Kept Wanted
        simp only [or_false, or_assoc]
      · intro o ho
        refine ⟨?_, ?_⟩
        · show s2.ret = _; rw [r2, ho]; rfl
        · intro hs
          show (Message.sync s2.h).stored = (Message.sync s2.h).terms
          unfold Message.sync
          rw [if_neg (by rw [o2.writable]; simp)]
          split
          · rename_i hm; exact c2 o ho hs hm
          · rfl
      · intro o ho
        exact v2 rfl o ho

end Notmuch.Reindex
