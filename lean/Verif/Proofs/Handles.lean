import Verif.Spec.Handles

/-! # Handles: what a step does -/

namespace Notmuch.Handles

/-- What each of the calls does, case by case. -/
inductive Does (w : World) (p : Nat) : Call → Bool → World → Out → Prop
  | wait {c f} : Does w p c f w .blocked
  | openFails {m} : Does w p (.open_ m) true w (.status .exception)
  | opens {m} : w.handles p = none → (m = .readWrite → w.lock = none) → Does w p (.open_ m) false
      { w.set p (some ⟨m == .readWrite, true, newXdb m w.disk, 0, false, w.disk.bound, 1, w.disk.conf, none⟩) with lock := if m = .readWrite then some p else w.lock } (.status .success)
  | resumes {h m} : w.handles p = some h → h.waits = some m → (m = .readWrite → w.lock = none) → Does w p .resume false
      { w.set p (some { h.load w.disk with xdb := newXdb m w.disk, writable := m == .readWrite, views := h.views + 1, isOpen := true, waits := none }) with
          lock := if m = .readWrite then some p else w.lock } (.status .success)
  | resumeFails {h m} : w.handles p = some h → h.waits = some m → Does w p .resume true (w.set p (some { h with waits := none })) (.status .exception)
  | dies {h} {f} : w.handles p = some h → Does w p .die f (w.gone p) .dies
  | closeNull {h f} : w.handles p = some h → h.waits = none → h.isOpen = true → h.xdb = .null → Does w p .close f (w.gone p) .dies
  | closes {h f} : w.handles p = some h → h.waits = none → h.isOpen = true → h.xdb ≠ .null →
      Does w p .close f ((w.xclose p h.xdb f).set p (some { h with isOpen := false, xdb := .closed })) (.status (if f then .exception else .success))
  | closedAlready {h f} : w.handles p = some h → h.waits = none → h.isOpen = false → Does w p .close f (w.set p (some { h with isOpen := false })) (.status .success)
  | destroys {f w' o} : (∃ h, w.handles p = some h ∧ h.waits = none) → o ≠ .blocked → Does w p .close f w' o → Does w p .destroy f (w'.gone p) o
  | reopenNull {h m f} : w.handles p = some h → h.waits = none → h.xdb = .null → Does w p (.reopen m) f w (.status .illegal)
  | refreshes {h c} : w.handles p = some h → h.waits = none → h.writable = false → h.xdb = .reader c →
      Does w p (.reopen .readOnly) false (w.set p (some { h.load w.disk with xdb := .reader w.disk, views := h.views + 1, isOpen := true })) (.status .success)
  | refreshFails {m f} : Does w p (.reopen m) f w (.status .exception)
  | reopenFails {h m} : w.handles p = some h → h.waits = none → h.xdb ≠ .null → Does w p (.reopen m) true ((w.xclose p h.xdb true).set p (some { h with xdb := .closed })) (.status .exception)
  | reopens {h m} : w.handles p = some h → h.waits = none → h.xdb ≠ .null →
      Does w p (.reopen m) false ((w.xclose p h.xdb false).set p (some { h with xdb := .null, writable := false, waits := some m })) .blocked
  | beginNested {h f} : w.handles p = some h → h.waits = none → (h.writable = false ∨ h.nesting > 0) → Does w p .beginAtomic f (w.set p (some { h with nesting := h.nesting + 1 })) (.status .success)
  | begins {h f v} : w.handles p = some h → h.waits = none → h.writable = true → h.nesting = 0 → h.xdb = .writer v false →
      Does w p .beginAtomic f (w.set p (some { h with xdb := .writer v true, nesting := h.nesting + 1 })) (.status .success)
  | beginFails {f} : Does w p .beginAtomic f w (.status .exception)
  | endUnbalanced {h f} : w.handles p = some h → h.nesting = 0 → Does w p .endAtomic f w (.status .unbalanced)
  | endNested {h f} : w.handles p = some h → h.waits = none → h.nesting ≠ 0 → (h.writable = false ∨ h.nesting > 1) →
      Does w p .endAtomic f (w.set p (some { h with nesting := h.nesting - 1 })) (.status .success)
  | endLate {h v} : w.handles p = some h → h.waits = none → h.writable = true → h.nesting = 1 → h.xdb = .writer v true →
      Does w p .endAtomic true (w.set p (some { h with xdb := .writer w.disk false })) (.status .exception)
  | ends {h v} : w.handles p = some h → h.waits = none → h.writable = true → h.nesting = 1 → h.xdb = .writer v true → Does w p .endAtomic false
      (w.set p (some { h with xdb := .writer v false, revision := if h.dirty then h.revision + 1 else h.revision, dirty := false, nesting := h.nesting - 1 })) (.status .success)
  | endFails {f} : Does w p .endAtomic f w (.status .exception)
  | revision {h f} : w.handles p = some h → h.waits = none → Does w p .getRevision f w (.revision h.revision)
  | refused {h c f} : w.handles p = some h → h.waits = none → c.writes = true → ensureWritable h ≠ .success → Does w p c f w (.status (ensureWritable h))
  | writeDies {h c f} : w.handles p = some h → h.waits = none → c.writes = true → ensureWritable h = .success → (f = true ∨ ∀ v t, h.xdb ≠ .writer v t) → Does w p c f (w.gone p) .dies
  | confFails {h k v f} : w.handles p = some h → ensureWritable h = .success → Does w p (.setConfig k v) f w (.status .exception)
  | puts {h id b v t} : w.handles p = some h → h.waits = none → ensureWritable h = .success → h.xdb = .writer v t →
      Does w p (.put id b) false (w.set p (some { (newRevision h).2 with xdb := .writer (v.put id ⟨b, (newRevision h).1⟩) t })) (.status .success)
  | removes {h id v t} : w.handles p = some h → h.waits = none → ensureWritable h = .success → h.xdb = .writer v t →
      Does w p (.remove id) false (w.set p (some { h with xdb := .writer (v.remove id) t })) (.status .success)
  | sets {h k v c t} : w.handles p = some h → h.waits = none → ensureWritable h = .success → h.xdb = .writer c t → Does w p (.setConfig k v) false
      (w.set p (some { h with xdb := .writer (c.setConf k v) t, conf := fun i => if i = k then v else h.conf i })) (.status .success)
  | conf {h k f} : w.handles p = some h → h.waits = none → Does w p (.getConfig k) f w (.value (h.conf k))
  | findNull {h id f} : w.handles p = some h → h.waits = none → h.xdb = .null → Does w p (.find id) f (w.gone p) .dies
  | findFails {id f} : Does w p (.find id) f w (.status .exception)
  | findsReader {h id c} : w.handles p = some h → h.waits = none → h.xdb = .reader c → Does w p (.find id) false w (.doc (c.docs id))
  | findsWriter {h id c t} : w.handles p = some h → h.waits = none → h.xdb = .writer c t → Does w p (.find id) false w (.doc (c.docs id))
  | flushes {h f v} : w.handles p = some h → h.waits = none → h.xdb = .writer v false → Does w p .flush f { w with disk := v } .blocked

theorem close_does {w : World} {p : Nat} {h : Handle} (f : Bool) (hh : w.handles p = some h) (hw : h.waits = none) : Does w p .close f (closeCall w p h f).1 (closeCall w p h f).2 := by
  unfold closeCall
  by_cases ho : h.isOpen = true
  · rw [if_pos ho]
    split
    · rename_i hx; exact .closeNull hh hw ho hx
    · rename_i hx; exact .closes hh hw ho hx
  · rw [if_neg ho]
    exact .closedAlready hh hw (by simpa using ho)

theorem close_answers (w : World) (p : Nat) (h : Handle) (f : Bool) : (closeCall w p h f).2 ≠ .blocked := by
  unfold closeCall
  split
  · split <;> exact fun e => by cases e
  · exact fun e => by cases e

theorem step_does (w : World) (p : Nat) (c : Call) (f : Bool) : Does w p c f (step w p c f).1 (step w p c f).2 := by
  unfold step
  split
  · rename_i m
    unfold openCall
    split
    · exact .wait
    · rename_i h1
      split
      · exact .wait
      · rename_i h2
        cases f with
        | true => exact .openFails
        | false =>
          refine .opens (by simpa using h1) (fun hm => ?_)
          cases hl : w.lock with
          | none => rfl
          | some q => exact absurd ⟨hm, by rw [hl]; rfl⟩ h2
  · split
    · exact .wait
    · rename_i h hh
      split
      · unfold resumeCall
        split
        · exact .wait
        · rename_i m hm
          split
          · exact .wait
          · rename_i h2
            cases f with
            | true => exact .resumeFails hh hm
            | false =>
              refine .resumes hh hm (fun hm' => ?_)
              cases hl : w.lock with
              | none => rfl
              | some q => exact absurd ⟨hm', by rw [hl]; rfl⟩ h2
      · exact .dies hh
      · exact .wait
      · rename_i hw _; exact close_does f hh hw
      · rename_i hw _; exact .destroys ⟨h, hh, hw⟩ (close_answers w p h f) (close_does f hh hw)
      · rename_i hw _
        unfold reopenCall
        split
        · rename_i hx; exact .reopenNull hh hw hx
        · rename_i hx
          split
          · rename_i hm
            obtain ⟨hm, rfl⟩ := hm
            split
            · rename_i hc
              cases f with
              | true => exact .refreshFails
              | false => exact .refreshes hh hw hm hc
            · exact .refreshFails
          · cases f with
            | true => exact .reopenFails hh hw hx
            | false => exact .reopens hh hw hx
      · rename_i hw _
        unfold beginCall
        split
        · rename_i h1; exact .beginNested hh hw h1
        · rename_i h1
          have h2 : h.writable = true := by cases hb : h.writable <;> simp_all
          have h3 : h.nesting = 0 := by have := fun h => h1 (.inr h); omega
          split
          · rename_i hx; exact .begins hh hw h2 h3 hx
          · exact .beginFails
      · rename_i hw _
        unfold endCall
        split
        · rename_i h1; exact .endUnbalanced hh h1
        · rename_i h0
          split
          · rename_i h1; exact .endNested hh hw h0 h1
          · rename_i h1
            have h2 : h.writable = true := by cases hb : h.writable <;> simp_all
            have h3 : h.nesting = 1 := by have := fun h => h1 (.inr h); omega
            split
            · rename_i hx
              cases f with
              | true => exact .endLate hh hw h2 h3 hx
              | false => exact .ends hh hw h2 h3 hx
            · exact .endFails
      · rename_i hw _; exact .revision hh hw
      · rename_i hw _
        unfold putCall
        split
        · rename_i h1; exact .refused hh hw rfl h1
        · rename_i h1
          have h1 := Classical.not_not.1 h1
          split
          · rename_i hx
            cases f with
            | true => exact .writeDies hh hw rfl h1 (.inl rfl)
            | false => exact .puts hh hw h1 hx
          · rename_i hx; exact .writeDies hh hw rfl h1 (.inr hx)
      · rename_i hw _
        unfold removeCall
        split
        · rename_i h1; exact .refused hh hw rfl h1
        · rename_i h1
          have h1 := Classical.not_not.1 h1
          split
          · rename_i hx
            cases f with
            | true => exact .writeDies hh hw rfl h1 (.inl rfl)
            | false => exact .removes hh hw h1 hx
          · rename_i hx; exact .writeDies hh hw rfl h1 (.inr hx)
      · rename_i hw _
        unfold setConfigCall
        split
        · rename_i h1; exact .refused hh hw rfl h1
        · rename_i h1
          have h1 := Classical.not_not.1 h1
          split
          · rename_i hx
            cases f with
            | true => exact .confFails hh h1
            | false => exact .sets hh hw h1 hx
          · exact .confFails hh h1
      · rename_i hw _; exact .conf hh hw
      · rename_i hw _
        unfold findCall
        split
        · rename_i hx; exact .findNull hh hw hx
        · exact .findFails
        · rename_i hx
          cases f with
          | true => exact .findFails
          | false => exact .findsReader hh hw hx
        · rename_i hx
          cases f with
          | true => exact .findFails
          | false => exact .findsWriter hh hw hx
      · rename_i hw _
        unfold flushCall
        split
        · rename_i hx; exact .flushes hh hw hx
        · exact .wait
      · exact .wait

end Notmuch.Handles
