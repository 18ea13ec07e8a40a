import Verif.Proofs.Handles2

/-! # Handles: revisions -/

namespace Notmuch.Handles

/-- What differs in `c` from `c0` has a revision after those of `c0`, if it is there. -/
def Newer (c0 c : Content) : Prop := c0.bound ≤ c.bound ∧ ∀ i d, c.docs i = some d → c0.docs i = some d ∨ c0.bound < d.lastMod

theorem newer_refl (c : Content) : Newer c c := ⟨Nat.le_refl _, fun _ _ h => .inl h⟩

theorem newer_put {c0 c : Content} {id : Nat} {d : Doc} (h : Newer c0 c) (hd : c0.bound < d.lastMod) : Newer c0 (c.put id d) := by
  refine ⟨Nat.le_trans h.1 (Nat.le_max_left _ _), fun i x hx => ?_⟩
  simp only [Content.put] at hx
  split at hx
  · injection hx with hx; subst hx; exact .inr hd
  · exact h.2 i x hx

theorem newer_remove {c0 c : Content} {id : Nat} (h : Newer c0 c) : Newer c0 (c.remove id) := by
  refine ⟨h.1, fun i x hx => ?_⟩
  simp only [Content.remove] at hx
  split at hx
  · cases hx
  · exact h.2 i x hx

/-- All that is there, or will be, is newer. -/
structure After (c0 : Content) (w : World) : Prop where
  disk : Newer c0 w.disk
  writer : ∀ p h v t, w.handles p = some h → h.xdb = .writer v t → Newer c0 v ∧ c0.bound ≤ h.revision

theorem after_set {c0 : Content} {w : World} {p : Nat} {h' : Handle} (ha : After c0 w) (hn : ∀ v t, h'.xdb = .writer v t → Newer c0 v ∧ c0.bound ≤ h'.revision) :
    After c0 (w.set p (some h')) := by
  refine ⟨ha.disk, fun q g v t hq hx => ?_⟩
  by_cases e : q = p
  · subst e
    simp only [set_handles, if_true, Option.some.injEq] at hq
    subst hq; exact hn v t hx
  · simp only [set_handles, if_neg e] at hq
    exact ha.writer q g v t hq hx

theorem after_gone {c0 : Content} {w : World} {p : Nat} (ha : After c0 w) : After c0 (w.gone p) := by
  refine ⟨ha.disk, fun q g v t hq hx => ?_⟩
  rw [gone_handles] at hq
  split at hq
  · cases hq
  · exact ha.writer q g v t hq hx

theorem after_closedDisk {c0 : Content} {w : World} {p : Nat} {h : Handle} (ha : After c0 w) (hh : w.handles p = some h) (f : Bool) : Newer c0 (closedDisk w.disk h.xdb f) := by
  unfold closedDisk
  split
  · rename_i hx
    split
    · exact ha.disk
    · exact (ha.writer p h _ _ hh hx).1
  · exact ha.disk

theorem after_xclose {c0 : Content} {w : World} {p : Nat} {h h' : Handle} (ha : After c0 w) (hh : w.handles p = some h) (f : Bool) (hn : ∀ v t, h'.xdb ≠ .writer v t) :
    After c0 ((w.xclose p h.xdb f).set p (some h')) := by
  refine ⟨by rw [set_disk, xclose_disk]; exact after_closedDisk ha hh f, fun q g v t hq hx => ?_⟩
  rw [set_handles, xclose_handles] at hq
  split at hq
  · injection hq with hq; subst hq; exact absurd hx (hn v t)
  · exact ha.writer q g v t hq hx

theorem after_does {c0 : Content} {w w' : World} {p : Nat} {c : Call} {f : Bool} {o : Out} (ha : After c0 w) (hd : Does w p c f w' o) : After c0 w' := by
  have new : ∀ m v t, newXdb m w.disk = .writer v t → v = w.disk := by
    intro m v t h
    cases m <;> cases h
    rfl
  induction hd with
  | wait => exact ha
  | openFails => exact ha
  | @opens m h1 h2 =>
    have := after_set (p := p) (h' := ⟨m == .readWrite, true, newXdb m w.disk, 0, false, w.disk.bound, 1, w.disk.conf, none⟩) ha
      (fun v t hx => by rw [new m v t hx]; exact ⟨ha.disk, ha.disk.1⟩)
    exact ⟨this.disk, this.writer⟩
  | @resumes h m hh hm h2 =>
    have := after_set (p := p) (h' := { h.load w.disk with xdb := newXdb m w.disk, writable := m == .readWrite, views := h.views + 1, isOpen := true, waits := none }) ha
      (fun v t hx => by rw [new m v t hx]; exact ⟨ha.disk, ha.disk.1⟩)
    exact ⟨this.disk, this.writer⟩
  | @resumeFails h m hh hm => exact after_set ha (fun v t hx => ha.writer p h v t hh hx)
  | dies _ => exact after_gone ha
  | closeNull _ _ _ _ => exact after_gone ha
  | @closes h f hh hw ho hx => exact after_xclose ha hh f (fun _ _ e => by cases e)
  | @closedAlready h f hh hw ho => exact after_set ha (fun v t hx => ha.writer p h v t hh hx)
  | destroys _ _ _ ih => exact after_gone ih
  | reopenNull _ _ _ => exact ha
  | @refreshes h c hh hw hwr hx => exact after_set ha (fun _ _ e => by cases e)
  | refreshFails => exact ha
  | @reopenFails h m hh hw hx => exact after_xclose ha hh true (fun _ _ e => by cases e)
  | @reopens h m hh hw hx => exact after_xclose ha hh false (fun _ _ e => by cases e)
  | @beginNested h f hh hw h1 => exact after_set ha (fun v t hx => ha.writer p h v t hh hx)
  | @begins h f v hh hw h1 h2 hx => exact after_set ha (fun v' t e => by cases e; exact ha.writer p h v _ hh hx)
  | beginFails => exact ha
  | endUnbalanced _ _ => exact ha
  | @endNested h f hh hw h1 h2 => exact after_set ha (fun v t hx => ha.writer p h v t hh hx)
  | @endLate h v hh hw h1 h2 hx => exact after_set ha (fun v' t e => by cases e; exact ⟨ha.disk, (ha.writer p h v _ hh hx).2⟩)
  | @ends h v hh hw h1 h2 hx =>
    refine after_set ha (fun v' t e => ?_)
    cases e
    obtain ⟨a, b⟩ := ha.writer p h v _ hh hx
    refine ⟨a, ?_⟩
    show c0.bound ≤ if h.dirty then h.revision + 1 else h.revision
    split <;> omega
  | endFails => exact ha
  | revision _ _ => exact ha
  | refused _ _ _ _ => exact ha
  | writeDies _ _ _ _ _ => exact after_gone ha
  | confFails _ _ => exact ha
  | @puts h id b v t hh hw h1 hx =>
    refine after_set ha (fun v' t' e => ?_)
    cases e
    obtain ⟨a, b⟩ := ha.writer p h v _ hh hx
    refine ⟨newer_put a ?_, ?_⟩
    · show c0.bound < (newRevision h).1
      unfold newRevision
      split <;> exact Nat.lt_succ_of_le b
    · show c0.bound ≤ (newRevision h).2.revision
      unfold newRevision
      split
      · exact b
      · exact Nat.le_succ_of_le b
  | @removes h id v t hh hw h1 hx =>
    refine after_set ha (fun v' t' e => ?_)
    cases e
    obtain ⟨a, b⟩ := ha.writer p h v _ hh hx
    exact ⟨newer_remove a, b⟩
  | @sets h k v c t hh hw h1 hx =>
    refine after_set ha (fun v' t' e => ?_)
    cases e
    exact ha.writer p h c _ hh hx
  | conf _ _ => exact ha
  | findNull _ _ _ => exact after_gone ha
  | findFails => exact ha
  | findsReader _ _ _ => exact ha
  | findsWriter _ _ _ => exact ha
  | @flushes h f v hh hw hx => exact ⟨(ha.writer p h v _ hh hx).1, ha.writer⟩

theorem after_run {c0 : Content} : ∀ (es : List Event) {w : World}, After c0 w → After c0 (run w es)
  | [], _, h => h
  | e :: es, w, h => after_run es (after_does h (step_does w e.who e.call e.fault))

/-! ## Programs that keep to the rules -/

/-- What holds of a handle then. -/
structure Tidy (h : Handle) : Prop where
  ro : h.writable = false → h.dirty = false
  clean : h.nesting = 0 → h.dirty = false
  waits : ∀ m, h.waits = some m → h.nesting = 0
  trans : ∀ v t, h.xdb = .writer v t → (t = true ↔ h.nesting > 0)
  bound : ∀ v t, h.xdb = .writer v t → v.bound ≤ h.revision + (if h.dirty then 1 else 0)

/-- And of all of them. -/
structure Sound (w : World) : Prop where
  good : Good w
  tidy : ∀ p h, w.handles p = some h → Tidy h
  after : After w.disk w

theorem tidy_set {w : World} {p : Nat} {h' : Handle} (ht : ∀ p h, w.handles p = some h → Tidy h) (hn : Tidy h') : ∀ q h, (w.set p (some h')).handles q = some h → Tidy h := by
  intro q h hq
  rw [set_handles] at hq
  split at hq
  · injection hq with hq; subst hq; exact hn
  · exact ht q h hq

theorem tidy_does {w w' : World} {p : Nat} {c : Call} {f : Bool} {o : Out} (hs : Sound w) (hp : (∀ m, c = .reopen m → w.depth p = 0) ∧ (c = .endAtomic → f = false))
    (hd : Does w p c f w' o) : ∀ p h, w'.handles p = some h → Tidy h := by
  have ht := hs.tidy
  have depth : ∀ {h}, w.handles p = some h → w.depth p = h.nesting := fun hh => by unfold World.depth; rw [hh]
  have gone : ∀ w0 : World, (∀ p h, w0.handles p = some h → Tidy h) → ∀ q h, (w0.gone p).handles q = some h → Tidy h := by
    intro w0 h0 q h hq
    rw [gone_handles] at hq
    split at hq
    · cases hq
    · exact h0 q h hq
  have closing : ∀ (x : Xdb) (f : Bool) (h' : Handle), Tidy h' → ∀ q h, ((w.xclose p x f).set p (some h')).handles q = some h → Tidy h := by
    intro x f h' hn q h hq
    rw [set_handles, xclose_handles] at hq
    split at hq
    · injection hq with hq; subst hq; exact hn
    · exact ht q h hq
  induction hd with
  | wait => exact ht
  | openFails => exact ht
  | @opens m h1 h2 =>
    refine tidy_set (w := w) ht ⟨fun _ => rfl, fun _ => rfl, (fun _ e => by cases e), fun v t e => ?_, fun v t e => ?_⟩
    · cases m <;> cases e; simp
    · cases m <;> cases e; exact Nat.le_add_right _ _
  | @resumes h m hh hm h2 =>
    have hT := ht p h hh
    have h0 := hT.waits m hm
    refine tidy_set (w := w) ht ⟨fun _ => hT.clean h0, hT.clean, (fun _ e => by cases e), fun v t e => ?_, fun v t e => ?_⟩
    · show t = true ↔ h.nesting > 0
      cases m <;> cases e; simp [h0]
    · cases m <;> cases e; exact Nat.le_add_right _ _
  | @resumeFails h m hh hm =>
    have hT := ht p h hh
    exact tidy_set ht ⟨hT.ro, hT.clean, (fun _ e => by cases e), hT.trans, hT.bound⟩
  | dies _ => exact gone w ht
  | closeNull _ _ _ _ => exact gone w ht
  | @closes h f hh hw ho hx =>
    have hT := ht p h hh
    exact closing _ _ _ ⟨hT.ro, hT.clean, hT.waits, (fun _ _ e => by cases e), (fun _ _ e => by cases e)⟩
  | @closedAlready h f hh hw ho =>
    have hT := ht p h hh
    exact tidy_set ht ⟨hT.ro, hT.clean, hT.waits, hT.trans, hT.bound⟩
  | destroys _ _ _ ih => exact gone _ (ih ⟨(fun _ e => by cases e), (fun e => by cases e)⟩)
  | reopenNull _ _ _ => exact ht
  | @refreshes h c hh hw hwr hx =>
    have hT := ht p h hh
    exact tidy_set ht ⟨hT.ro, hT.clean, hT.waits, (fun _ _ e => by cases e), (fun _ _ e => by cases e)⟩
  | refreshFails => exact ht
  | @reopenFails h m hh hw hx =>
    have hT := ht p h hh
    exact closing _ _ _ ⟨hT.ro, hT.clean, hT.waits, (fun _ _ e => by cases e), (fun _ _ e => by cases e)⟩
  | @reopens h m hh hw hx =>
    have hT := ht p h hh
    have h0 := hp.1 m rfl
    rw [depth hh] at h0
    exact closing _ _ _ ⟨fun _ => hT.clean h0, hT.clean, fun _ _ => h0, (fun _ _ e => by cases e), (fun _ _ e => by cases e)⟩
  | @beginNested h f hh hw h1 =>
    have hT := ht p h hh
    refine tidy_set ht ⟨hT.ro, (fun e => by cases e), fun m e => ?_, fun v t e => ?_, hT.bound⟩
    · rw [show h.waits = some m from e] at hw; cases hw
    · have h2 := (hs.good.fits p h hh).writer v t e
      have h3 := hT.trans v t e
      show t = true ↔ h.nesting + 1 > 0
      rw [h3]
      rcases h1 with h1 | h1
      · rw [h1] at h2; cases h2.1
      · omega
  | @begins h f v hh hw h1 h2 hx =>
    have hT := ht p h hh
    refine tidy_set ht ⟨hT.ro, (fun e => by cases e), fun m e => ?_, fun v t e => ?_, fun v t e => ?_⟩
    · rw [show h.waits = some m from e] at hw; cases hw
    · cases e
      exact ⟨fun _ => Nat.succ_pos _, fun _ => rfl⟩
    · cases e
      exact hT.bound _ _ hx
  | beginFails => exact ht
  | endUnbalanced _ _ => exact ht
  | @endNested h f hh hw h1 h2 =>
    have hT := ht p h hh
    refine tidy_set ht ⟨hT.ro, fun e => ?_, fun m e => ?_, fun v t e => ?_, hT.bound⟩
    · have e : h.nesting - 1 = 0 := e
      rcases h2 with h2 | h2
      · exact hT.ro h2
      · omega
    · rw [show h.waits = some m from e] at hw; cases hw
    · have h2' := (hs.good.fits p h hh).writer v t e
      have h3 := hT.trans v t e
      show t = true ↔ h.nesting - 1 > 0
      rw [h3]
      rcases h2 with h2 | h2
      · rw [h2] at h2'; cases h2'.1
      · omega
  | @endLate h v hh hw h1 h2 hx => cases hp.2 rfl
  | @ends h v hh hw h1 h2 hx =>
    have hT := ht p h hh
    refine tidy_set ht ⟨fun _ => rfl, fun _ => rfl, fun m e => ?_, fun v t e => ?_, fun v t e => ?_⟩
    · rw [show h.waits = some m from e] at hw; cases hw
    · cases e
      show false = true ↔ h.nesting - 1 > 0
      simp; omega
    · cases e
      have := hT.bound _ _ hx
      show _ ≤ (if h.dirty then h.revision + 1 else h.revision) + 0
      split at this <;> simp_all
  | endFails => exact ht
  | revision _ _ => exact ht
  | refused _ _ _ _ => exact ht
  | writeDies _ _ _ _ _ => exact gone w ht
  | confFails _ _ => exact ht
  | @puts h id b v t hh hw h1 hx =>
    have hT := ht p h hh
    obtain ⟨r1, r2, r3, r4, r5, _⟩ := newRevision_same h
    have hb := hT.bound _ _ hx
    refine tidy_set ht ⟨fun e => ?_, fun e => ?_, fun m e => ?_, fun v t e => ?_, fun v t e => ?_⟩
    · have e : h.writable = false := r2 ▸ e
      rw [((hs.good.fits p h hh).writer _ _ hx).1] at e; cases e
    · have e : h.nesting = 0 := r5 ▸ e
      show (newRevision h).2.dirty = false
      unfold newRevision
      rw [if_neg (by simpa using e)]
      exact hT.clean e
    · rw [← r4, show (newRevision h).2.waits = some m from e] at hw; cases hw
    · cases e
      show _ ↔ (newRevision h).2.nesting > 0
      rw [r5]; exact hT.trans _ _ hx
    · cases e
      show max _ (newRevision h).1 ≤ (newRevision h).2.revision + (if (newRevision h).2.dirty then 1 else 0)
      unfold newRevision
      split
      · simp only [if_true]
        split at hb <;> omega
      · rename_i hn
        have hd := hT.clean (by simpa using hn)
        rw [hd] at hb
        simp only [Bool.false_eq_true, if_false] at hb
        simp only [hd, Bool.false_eq_true, if_false]
        omega
  | @removes h id v t hh hw h1 hx =>
    have hT := ht p h hh
    refine tidy_set ht ⟨hT.ro, hT.clean, hT.waits, fun v t e => ?_, fun v t e => ?_⟩
    · cases e; exact hT.trans _ _ hx
    · cases e
      have := hT.bound _ _ hx
      exact this
  | @sets h k v c t hh hw h1 hx =>
    have hT := ht p h hh
    refine tidy_set ht ⟨hT.ro, hT.clean, hT.waits, fun v t e => ?_, fun v t e => ?_⟩
    · cases e; exact hT.trans _ _ hx
    · cases e
      have := hT.bound _ _ hx
      exact this
  | conf _ _ => exact ht
  | findNull _ _ _ => exact gone w ht
  | findFails => exact ht
  | findsReader _ _ _ => exact ht
  | findsWriter _ _ _ => exact ht
  | flushes _ _ _ => exact ht

theorem sound_does {w w' : World} {p : Nat} {c : Call} {f : Bool} {o : Out} (hs : Sound w) (hp : (∀ m, c = .reopen m → w.depth p = 0) ∧ (c = .endAtomic → f = false))
    (hd : Does w p c f w' o) : Sound w' := by
  have hg := good_does hs.good hd
  have ht := tidy_does hs hp hd
  have ha := after_does hs.after hd
  refine ⟨hg, ht, ?_⟩
  have closing : ∀ {h : Handle} {f : Bool} {h' : Handle}, w.handles p = some h → (∀ v t, h'.xdb ≠ .writer v t) → After w.disk ((w.xclose p h.xdb f).set p (some h')) →
      After ((w.xclose p h.xdb f).set p (some h')).disk ((w.xclose p h.xdb f).set p (some h')) := by
    intro h f h' hh hn ha
    by_cases hx : ∃ v, h.xdb = .writer v false ∧ f = false
    · obtain ⟨v, hx, rfl⟩ := hx
      refine ⟨newer_refl _, fun q g v' t hq hx' => ?_⟩
      rw [set_handles, xclose_handles] at hq
      split at hq
      · injection hq with hq; subst hq; exact absurd hx' (hn _ _)
      · rename_i hne
        exact absurd (good_unique hs.good hq hh ⟨_, _, hx'⟩ ⟨_, _, hx⟩) hne
    · have : ((w.xclose p h.xdb f).set p (some h')).disk = w.disk := by
        rw [set_disk, xclose_disk]
        unfold closedDisk
        split
        · rename_i v hx'
          cases f with
          | true => rfl
          | false => exact absurd ⟨v, hx', rfl⟩ hx
        · rfl
      rw [this]; exact ha
  induction hd with
  | @closes h f hh hw ho hx => exact closing hh (fun _ _ e => by cases e) ha
  | @reopenFails h m hh hw hx => exact closing hh (fun _ _ e => by cases e) ha
  | @reopens h m hh hw hx => exact closing hh (fun _ _ e => by cases e) ha
  | @destroys f' _ _ _ _ hd ih =>
    have hp' : (∀ m, Call.close = .reopen m → w.depth p = 0) ∧ (Call.close = .endAtomic → f' = false) := ⟨(fun _ e => by cases e), (fun e => by cases e)⟩
    exact after_gone (ih hp' (good_does hs.good hd) (tidy_does hs hp' hd) (after_does hs.after hd))
  | @flushes h f v hh hw hx =>
    refine ⟨newer_refl _, fun q g v' t hq hx' => ?_⟩
    have hqp := good_unique hs.good hq hh ⟨_, _, hx'⟩ ⟨_, _, hx⟩
    subst hqp
    have hq : w.handles q = some g := hq
    rw [hh] at hq; injection hq with hq; subst hq
    rw [hx] at hx'; cases hx'
    have hT := hs.tidy q h hh
    have hn : h.nesting = 0 := by
      have := hT.trans _ _ hx
      simp only [Bool.false_eq_true, false_iff] at this
      omega
    have := hT.bound _ _ hx
    rw [hT.clean hn] at this
    exact ⟨newer_refl _, by simpa using this⟩
  | _ => exact ha

theorem sound_idle (c : Content) : Sound (World.idle c) :=
  ⟨good_idle c, (fun _ _ h => by cases h), ⟨newer_refl _, fun _ _ _ _ h => by cases h⟩⟩

theorem sound_run : ∀ (es : List Event) {w : World}, Sound w → AllProper w es → Sound (run w es)
  | [], _, h, _ => h
  | e :: es, w, h, hp => sound_run es (sound_does h hp.1 (step_does w e.who e.call e.fault)) hp.2

end Notmuch.Handles
