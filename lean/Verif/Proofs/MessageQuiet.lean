import Verif.Model.Message

/-! # What does not write -/

namespace Notmuch.Message

open Notmuch.TermList

/-- Nothing was written. -/
def Quiet (h h' : Handle) : Prop := h'.stored = h.stored ∧ h'.frozen = h.frozen

theorem Quiet.refl (h : Handle) : Quiet h h := ⟨rfl, rfl⟩
theorem Quiet.trans {a b c : Handle} (h1 : Quiet a b) (h2 : Quiet b c) : Quiet a c := ⟨h2.1.trans h1.1, h2.2.trans h1.2⟩

theorem quiet_ensure {W : World} {b : Bool} {h h' : Handle} (e : ensure W b h = some h') : Quiet h h' := by
  unfold ensure at e
  split at e
  · rw [← Option.some.inj e]; exact .refl h
  · split at e
    · cases e
    · rw [← Option.some.inj e]; exact ⟨rfl, rfl⟩

theorem quiet_invalidate (n : Str) (h : Handle) : Quiet h (invalidate n h) := by
  simp only [Quiet, invalidate, apply_ite Handle.stored, apply_ite Handle.frozen, ite_self, and_self]

theorem quiet_addTermTo {n v : Str} {h h' : Handle} (e : addTermTo n v h = some h') : Quiet h h' := by
  simp only [addTermTo] at e
  split at e
  · cases e
  · rw [← Option.some.inj e]; exact Quiet.trans ⟨rfl, rfl⟩ (quiet_invalidate _ _)

theorem quiet_removeTermFrom {n v : Str} {h h' : Handle} (e : removeTermFrom n v h = some h') : Quiet h h' := by
  simp only [removeTermFrom] at e
  split at e
  · cases e
  · rw [← Option.some.inj e]; exact Quiet.trans ⟨rfl, rfl⟩ (quiet_invalidate _ _)

theorem quiet_removeTermsFrom {p : Str} {h h' : Handle} (e : removeTermsFrom p h = some h') : Quiet h h' := by
  simp only [removeTermsFrom] at e
  split at e
  · cases e
  · rw [← Option.some.inj e]; exact Quiet.trans ⟨rfl, rfl⟩ (quiet_invalidate _ _)

theorem quiet_ensureFiles {W : World} {h h' : Handle} {b : Bool} (e : ensureFiles W h = some (h', b)) : Quiet h h' := by
  unfold ensureFiles at e
  split at e
  · cases e; exact .refl h
  · split at e
    · cases e
    · rename_i h1 e1
      have q := quiet_ensure e1
      split at e
      · cases e
      · cases e; exact q.trans ⟨rfl, rfl⟩
      · split at e
        · cases e
        · cases e; exact q.trans ⟨rfl, rfl⟩
        · cases e; exact q.trans ⟨rfl, rfl⟩

theorem quiet_ensureProps {W : World} {h h' : Handle} {mp : StringMap.Map} (e : ensureProps W h = some (h', mp)) : Quiet h h' := by
  unfold ensureProps at e
  split at e
  · cases e; exact .refl h
  · split at e
    · cases e
    · rename_i h1 e1
      have q := quiet_ensure e1
      split at e
      · cases e
      · split at e
        · cases e
        · cases e; exact q.trans ⟨rfl, rfl⟩

theorem quiet_getTags {W : World} {h h' : Handle} {l : List Str} (e : getTags W h = some (h', l)) : Quiet h h' := by
  unfold getTags at e
  split at e
  · cases e
  · rename_i h1 e1
    have q := quiet_ensure e1
    split at e
    · cases e
    · cases e; exact q

theorem quiet_getFilenames {W : World} {h h' : Handle} {l : Option (List Str)} (e : getFilenames W h = some (h', l)) : Quiet h h' := by
  unfold getFilenames at e
  split at e
  · cases e
  · rename_i e1; cases e; exact quiet_ensureFiles e1
  · rename_i e1; cases e; exact quiet_ensureFiles e1

theorem quiet_flags {W : World} {f : Bool} {h h' : Handle} {b : Bool} (e : ensureMaildirFlags W f h = some (h', b)) : Quiet h h' := by
  unfold ensureMaildirFlags at e
  have q0 : Quiet h (if f then { h with mflags := none } else h) := by split <;> exact ⟨rfl, rfl⟩
  simp only at e
  split at e
  · cases e
  · rename_i e1; cases e; exact q0.trans (quiet_getFilenames e1)
  · rename_i e1
    split at e
    · cases e; exact q0.trans (quiet_getFilenames e1)
    · cases e; exact (q0.trans (quiet_getFilenames e1)).trans ⟨rfl, rfl⟩

theorem quiet_syncUnlessFrozen {h : Handle} (hf : h.frozen ≠ 0) : Quiet h (syncUnlessFrozen h) := by
  unfold syncUnlessFrozen; rw [if_neg hf]; exact .refl h

theorem quiet_unlessFrozen {h h1 : Handle} (q : Quiet h h1) (hf : h.frozen ≠ 0) : Quiet h (syncUnlessFrozen h1) :=
  q.trans (quiet_syncUnlessFrozen (by rw [q.2]; exact hf))

theorem quiet_addTag {t : Str} {h h' : Handle} {s : Status} (hf : h.frozen ≠ 0) (e : addTag t h = some (h', s)) : Quiet h h' := by
  unfold addTag at e
  split at e
  · cases e; exact .refl h
  · split at e
    · cases e; exact .refl h
    · split at e
      · cases e
      · rename_i e1; cases e; exact quiet_unlessFrozen (quiet_addTermTo e1) hf

theorem quiet_removeTag {t : Str} {h h' : Handle} {s : Status} (hf : h.frozen ≠ 0) (e : removeTag t h = some (h', s)) : Quiet h h' := by
  unfold removeTag at e
  split at e
  · cases e; exact .refl h
  · split at e
    · cases e; exact .refl h
    · split at e
      · cases e
      · rename_i e1; cases e; exact quiet_unlessFrozen (quiet_removeTermFrom e1) hf

theorem quiet_removeTags : ∀ {l : List Str} {h h' : Handle}, removeTags l h = some h' → Quiet h h'
  | [], h, h', e => by cases e; exact .refl h
  | t :: l, h, h', e => by
    unfold removeTags at e
    split at e
    · cases e
    · rename_i e1; exact (quiet_removeTermFrom e1).trans (quiet_removeTags e)

theorem quiet_setTags {fl : Str} : ∀ {es : List Maildir.FlagTag} {h h' : Handle} {s : Status}, h.frozen ≠ 0 → setTags fl es h = some (h', s) → Quiet h h'
  | [], h, h', s, _, e => by cases e; exact .refl h
  | x :: es, h, h', s, hf, e => by
    have step : ∀ {h1 s1}, (if xor (decide (x.flag ∈ fl)) x.inverse then addTag x.tag h else removeTag x.tag h) = some (h1, s1) → Quiet h h1 := by
      intro h1 s1 e1
      split at e1
      · exact quiet_addTag hf e1
      · exact quiet_removeTag hf e1
    unfold setTags at e
    split at e
    · cases e
    · rename_i e1; exact (step e1).trans (quiet_setTags (by rw [(step e1).2]; exact hf) e)
    · rename_i e1; cases e; exact step e1

theorem quiet_call {W : World} {h h' : Handle} {c : Call} {r : Result} (hf : h.frozen ≠ 0) (hc : match c with | .thaw => False | .moveFile _ _ => False | _ => True)
    (e : call W h c = some (h', r)) : h'.stored = h.stored ∧ h'.frozen ≠ 0 := by
  have fin : Quiet h h' → h'.stored = h.stored ∧ h'.frozen ≠ 0 := fun q => ⟨q.1, by rw [q.2]; exact hf⟩
  have ws : ∀ {x : Option (Handle × Status)}, withStatus x = some (h', r) → ∃ s, x = some (h', s) := by
    intro x hx
    cases x with
    | none => cases hx
    | some y => cases hx; exact ⟨_, rfl⟩
  cases c with
  | messageId =>
    simp only [call, getMessageId] at e
    split at e
    · cases e
    · rename_i e1; split at e
      · cases e
      · cases e; exact fin (quiet_ensure e1)
  | threadId =>
    simp only [call, getThreadId] at e
    split at e
    · cases e
    · rename_i e1; split at e
      · cases e
      · cases e; exact fin (quiet_ensure e1)
  | tags =>
    simp only [call, Option.map_eq_some_iff] at e
    obtain ⟨⟨h1, l⟩, e1, e2⟩ := e
    cases e2; exact fin (quiet_getTags e1)
  | filename =>
    simp only [call, getFilename] at e
    split at e
    · cases e
    · rename_i e1; cases e; exact fin (quiet_ensureFiles e1)
    · rename_i e1; split at e
      · cases e; exact fin (quiet_ensureFiles e1)
      · cases e
  | filenames =>
    simp only [call, Option.map_eq_some_iff] at e
    obtain ⟨⟨h1, l⟩, e1, e2⟩ := e
    cases e2; exact fin (quiet_getFilenames e1)
  | countFiles =>
    simp only [call, countFiles] at e
    split at e
    · cases e
    · rename_i e1; cases e; exact fin (quiet_getFilenames e1)
    · rename_i e1; cases e; exact fin (quiet_getFilenames e1)
  | isGhost =>
    simp only [call, isGhost] at e
    split at e
    · cases e
    · rename_i h1 e1
      have q : Quiet h h1 := by
        split at e1
        · exact quiet_ensure e1
        · cases e1; exact .refl h
      split at e
      · cases e
      · cases e; exact fin q
  | maildirFlag f =>
    simp only [call, hasMaildirFlag] at e
    split at e
    · cases e
    · rename_i e1; cases e; exact fin (quiet_flags e1)
    · rename_i e1; cases e; exact fin (quiet_flags e1)
  | property k =>
    simp only [call, getProperty] at e
    split at e
    · cases e
    · rename_i e1; split at e
      · cases e
      · cases e; exact fin ((quiet_ensureProps e1).trans ⟨rfl, rfl⟩)
  | countProperties k =>
    simp only [call, Option.map_eq_some_iff] at e
    obtain ⟨⟨h1, l⟩, e1, e2⟩ := e
    cases e2
    unfold getProperties at e1
    split at e1
    · cases e1
    · rename_i e3; split at e1
      · cases e1
      · cases e1; exact fin ((quiet_ensureProps e3).trans ⟨rfl, rfl⟩)
  | properties k x =>
    simp only [call, Option.map_eq_some_iff] at e
    obtain ⟨⟨h1, l⟩, e1, e2⟩ := e
    cases e2
    unfold getProperties at e1
    split at e1
    · cases e1
    · rename_i e3; split at e1
      · cases e1
      · cases e1; exact fin ((quiet_ensureProps e3).trans ⟨rfl, rfl⟩)
  | addTag t => obtain ⟨s, e1⟩ := ws e; exact fin (quiet_addTag hf e1)
  | removeTag t => obtain ⟨s, e1⟩ := ws e; exact fin (quiet_removeTag hf e1)
  | removeAllTags =>
    obtain ⟨s, e1⟩ := ws e
    unfold removeAllTags at e1
    split at e1
    · cases e1; exact fin (.refl h)
    · split at e1
      · cases e1
      · rename_i e2; split at e1
        · cases e1
        · rename_i e3; cases e1; exact fin (quiet_unlessFrozen ((quiet_getTags e2).trans (quiet_removeTags e3)) hf)
  | addProperty k v =>
    obtain ⟨s, e1⟩ := ws e
    unfold modifyProperty at e1
    split at e1
    · cases e1; exact fin (.refl h)
    · split at e1
      · cases e1; exact fin (.refl h)
      · split at e1
        · cases e1
        · rename_i e2; cases e1; exact fin (quiet_unlessFrozen (quiet_addTermTo e2) hf)
  | removeProperty k v =>
    obtain ⟨s, e1⟩ := ws e
    unfold modifyProperty at e1
    split at e1
    · cases e1; exact fin (.refl h)
    · split at e1
      · cases e1; exact fin (.refl h)
      · split at e1
        · cases e1
        · rename_i e2; cases e1; exact fin (quiet_unlessFrozen (quiet_removeTermFrom e2) hf)
  | removeAllProperties k p =>
    obtain ⟨s, e1⟩ := ws e
    unfold removeAllProperties at e1
    split at e1
    · cases e1; exact fin (.refl h)
    · simp only at e1
      split at e1
      · cases e1
      · rename_i e2; cases e1; exact fin (quiet_unlessFrozen (quiet_removeTermsFrom e2) hf)
  | freeze =>
    simp only [call, freeze] at e
    cases hw : h.writable with
    | false => simp only [hw, if_true] at e; cases e; exact ⟨rfl, hf⟩
    | true => simp only [hw, Bool.true_eq_false, if_false] at e; cases e; exact ⟨rfl, Nat.succ_ne_zero _⟩
  | thaw => exact absurd hc id
  | flagsToTags =>
    obtain ⟨s, e1⟩ := ws e
    unfold flagsToTags at e1
    split at e1
    · cases e1
    · rename_i e2; cases e1; exact fin (quiet_flags e2)
    · rename_i h1 e2
      have q1 := quiet_flags e2
      split at e1
      · cases e1; exact fin q1
      · split at e1
        · rename_i h2 e3
          have hf2 : h2.stored = h1.stored ∧ h2.frozen = h1.frozen + 1 := by
            unfold freeze at e3
            split at e3
            · cases e3
            · cases e3; exact ⟨rfl, rfl⟩
          have hn : h2.frozen ≠ 0 := by rw [hf2.2]; exact Nat.succ_ne_zero _
          split at e1
          · cases e1
          · rename_i h3 e4
            have q3 := quiet_setTags hn e4
            have h3f : h3.frozen = h.frozen + 1 := by rw [q3.2, hf2.2, q1.2]
            have h3s : h3.stored = h.stored := by rw [q3.1, hf2.1, q1.1]
            have e1 := Option.some.inj e1
            unfold thaw at e1
            split at e1
            · cases e1; exact ⟨h3s, by omega⟩
            · split at e1
              · rw [if_neg (by omega)] at e1
                cases e1
                exact ⟨h3s, by show h3.frozen - 1 ≠ 0; omega⟩
              · cases e1; exact ⟨h3s, by omega⟩
          · rename_i h3 s3 _ e4
            have q3 := quiet_setTags hn e4
            cases e1
            exact ⟨by rw [q3.1, hf2.1, q1.1], by rw [q3.2]; exact hn⟩
        · rename_i h2 s2 _ e3
          cases e1
          have : h' = h1 := by
            unfold freeze at e3
            split at e3
            · cases e3; rfl
            · rename_i hne _; cases e3; exact absurd rfl hne
          exact fin (this ▸ q1)
  | moveFile o n => exact absurd hc id
  | reopen => simp only [call] at e; cases e; exact ⟨rfl, hf⟩

end Notmuch.Message
