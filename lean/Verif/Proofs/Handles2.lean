import Verif.Proofs.Handles

/-! # Handles: who has the lock -/

namespace Notmuch.Handles

@[simp] theorem set_handles (w : World) (p : Nat) (h : Option Handle) (q : Nat) : (w.set p h).handles q = if q = p then h else w.handles q := rfl
@[simp] theorem set_disk (w : World) (p : Nat) (h : Option Handle) : (w.set p h).disk = w.disk := rfl
@[simp] theorem set_lock (w : World) (p : Nat) (h : Option Handle) : (w.set p h).lock = w.lock := rfl
@[simp] theorem gone_handles (w : World) (p q : Nat) : (w.gone p).handles q = if q = p then none else w.handles q := rfl
@[simp] theorem gone_disk (w : World) (p : Nat) : (w.gone p).disk = w.disk := rfl
@[simp] theorem gone_lock (w : World) (p : Nat) : (w.gone p).lock = if w.lock = some p then none else w.lock := rfl

@[simp] theorem xclose_handles (w : World) (p : Nat) (x : Xdb) (f : Bool) : (w.xclose p x f).handles = w.handles := by
  unfold World.xclose; split <;> rfl
@[simp] theorem xclose_lock (w : World) (p : Nat) (x : Xdb) (f : Bool) : (w.xclose p x f).lock = if w.lock = some p then none else w.lock := by
  unfold World.xclose; split <;> rfl

/-- What is on the disk after `close`. -/
def closedDisk (d : Content) (x : Xdb) (f : Bool) : Content :=
  match x with
  | .writer v false => if f then d else v
  | _ => d

@[simp] theorem xclose_disk (w : World) (p : Nat) (x : Xdb) (f : Bool) : (w.xclose p x f).disk = closedDisk w.disk x f := by
  unfold World.xclose closedDisk
  cases x with
  | writer v t => cases t <;> rfl
  | _ => rfl

/-- The parts of a handle fit. -/
structure Fits (h : Handle) : Prop where
  writer : ∀ v t, h.xdb = .writer v t → h.writable = true ∧ h.isOpen = true
  reader : ∀ c, h.xdb = .reader c → h.writable = false ∧ h.isOpen = true
  waits : ∀ m, h.waits = some m → h.xdb = .null
  null : h.xdb = .null → h.writable = false

/-- It has the right to write. -/
def Handle.isWriter (h : Handle) : Prop := ∃ v t, h.xdb = .writer v t

/-- The one with the lock is the one that writes. -/
structure Good (w : World) : Prop where
  lock : ∀ p, w.lock = some p ↔ ∃ h, w.handles p = some h ∧ h.isWriter
  fits : ∀ p h, w.handles p = some h → Fits h

/-- A handle in the place of another, of the same kind. -/
theorem good_set {w : World} {p : Nat} {h h' : Handle} (hg : Good w) (hh : w.handles p = some h) (hk : h.isWriter ↔ h'.isWriter) (hf : Fits h') : Good (w.set p (some h')) := by
  refine ⟨fun q => ?_, fun q g hq => ?_⟩
  · rw [set_lock, hg.lock q]
    by_cases e : q = p
    · subst e
      simp only [set_handles, if_true, Option.some.injEq, exists_eq_left']
      rw [hh]; simp only [Option.some.injEq, exists_eq_left']; exact hk
    · simp only [set_handles, if_neg e]
  · by_cases e : q = p
    · subst e
      simp only [set_handles, if_true, Option.some.injEq] at hq
      subst hq; exact hf
    · simp only [set_handles, if_neg e] at hq
      exact hg.fits q g hq

/-- A handle that gives up the lock if it has it. -/
theorem good_drop {w w' : World} {p : Nat} {h' : Option Handle} (hg : Good w) (hk : ∀ g, h' = some g → ¬ g.isWriter ∧ Fits g)
    (hl : w'.lock = if w.lock = some p then none else w.lock) (hs : ∀ q, w'.handles q = if q = p then h' else w.handles q) : Good w' := by
  refine ⟨fun q => ?_, fun q g hq => ?_⟩
  · rw [hl, hs]
    by_cases e : q = p
    · subst e
      constructor
      · intro h
        split at h
        · cases h
        · contradiction
      · simp only [if_true]
        rintro ⟨g, hg', hx⟩
        exact absurd hx (hk g hg').1
    · simp only [if_neg e]
      rw [← hg.lock q]
      split
      · rename_i hp
        constructor
        · intro h; cases h
        · intro h; rw [hp] at h; injection h with h; exact absurd h.symm e
      · exact Iff.rfl
  · rw [hs] at hq
    by_cases e : q = p
    · rw [if_pos e] at hq; exact (hk g hq).2
    · rw [if_neg e] at hq; exact hg.fits q g hq

/-- A handle that is opened. -/
theorem good_open {w w' : World} {p : Nat} {m : Mode} {h' : Handle} (hg : Good w) (hn : ∀ h, w.handles p = some h → ¬ h.isWriter) (hm : m = .readWrite → w.lock = none)
    (hl : w'.lock = if m = .readWrite then some p else w.lock) (hs : ∀ q, w'.handles q = if q = p then some h' else w.handles q) (hx : ∃ c, h'.xdb = newXdb m c)
    (hf : Fits h') : Good w' := by
  obtain ⟨c, hx⟩ := hx
  refine ⟨fun q => ?_, fun q g hq => ?_⟩
  · rw [hl, hs]
    cases m with
    | readOnly =>
      simp only [reduceCtorEq, if_false]
      rw [hg.lock q]
      by_cases e : q = p
      · subst e
        simp only [if_true]
        constructor
        · rintro ⟨h, hh, hw⟩; exact absurd hw (hn h hh)
        · rintro ⟨h, hh, v, t, hw⟩
          injection hh with hh; subst hh
          rw [hx] at hw; cases hw
      · simp only [if_neg e]
    | readWrite =>
      simp only [if_true]
      by_cases e : q = p
      · subst e
        simp only [if_true]
        exact ⟨fun _ => ⟨h', rfl, _, _, hx⟩, fun _ => trivial⟩
      · simp only [if_neg e]
        rw [← hg.lock q, hm rfl]
        constructor
        · intro h; injection h with h; exact absurd h.symm e
        · intro h; cases h
  · rw [hs] at hq
    by_cases e : q = p
    · rw [if_pos e] at hq; injection hq with hq; subst hq; exact hf
    · rw [if_neg e] at hq; exact hg.fits q g hq

theorem good_gone {w : World} {p : Nat} (hg : Good w) : Good (w.gone p) := good_drop (h' := none) hg (fun _ h => by cases h) rfl (fun _ => rfl)

theorem isWriter_of {h : Handle} {v : Content} {t : Bool} (e : h.xdb = .writer v t) : h.isWriter := ⟨v, t, e⟩

theorem newRevision_same (h : Handle) : (newRevision h).2.xdb = h.xdb ∧ (newRevision h).2.writable = h.writable ∧ (newRevision h).2.isOpen = h.isOpen ∧ (newRevision h).2.waits = h.waits ∧
    (newRevision h).2.nesting = h.nesting ∧ (newRevision h).2.conf = h.conf := by
  unfold newRevision
  split <;> exact ⟨rfl, rfl, rfl, rfl, rfl, rfl⟩

/-- Each step keeps this. -/
theorem good_does {w w' : World} {p : Nat} {c : Call} {f : Bool} {o : Out} (hg : Good w) (hd : Does w p c f w' o) : Good w' := by
  induction hd with
  | wait => exact hg
  | openFails => exact hg
  | @opens m h1 h2 =>
    refine good_open hg (fun h hh => by rw [h1] at hh; cases hh) h2 rfl (fun _ => rfl) ⟨_, rfl⟩ ?_
    cases m <;> refine ⟨fun v t e => ?_, fun c e => ?_, fun m e => ?_, fun e => ?_⟩ <;> cases e <;> exact ⟨rfl, rfl⟩
  | @resumes h m hh hm h2 =>
    refine good_open hg (fun g hg' => ?_) h2 rfl (fun _ => rfl) ⟨_, rfl⟩ ?_
    · rw [hh] at hg'; injection hg' with hg'; subst hg'
      rintro ⟨v, t, e⟩
      rw [(hg.fits p h hh).waits m hm] at e; cases e
    · cases m <;> refine ⟨fun v t e => ?_, fun c e => ?_, fun m e => ?_, fun e => ?_⟩ <;> cases e <;> exact ⟨rfl, rfl⟩
  | @resumeFails h m hh hm =>
    have hF := hg.fits p h hh
    exact good_set hg hh Iff.rfl ⟨hF.writer, hF.reader, (fun _ e => by cases e), hF.null⟩
  | dies _ => exact good_gone hg
  | closeNull _ _ _ _ => exact good_gone hg
  | @closes h f hh hw ho hx =>
    refine good_drop (h' := some { h with isOpen := false, xdb := .closed }) hg (fun g e => ?_) (xclose_lock w p h.xdb f) (fun q => ?_)
    · cases e
      have hF := hg.fits p h hh
      exact ⟨(fun ⟨v, t, e⟩ => by cases e), ⟨(fun _ _ e => by cases e), (fun _ e => by cases e), (fun m e => by rw [show h.waits = some m from e] at hw; cases hw), (fun e => by cases e)⟩⟩
    · rw [set_handles, xclose_handles]
  | @closedAlready h f hh hw ho =>
    have hF := hg.fits p h hh
    refine good_set hg hh Iff.rfl ⟨fun v t e => ?_, fun c e => ?_, hF.waits, hF.null⟩
    · have := (hF.writer v t e).2; rw [ho] at this; cases this
    · have := (hF.reader c e).2; rw [ho] at this; cases this
  | destroys _ _ _ ih => exact good_gone ih
  | reopenNull _ _ _ => exact hg
  | @refreshes h c hh hw hwr hx =>
    refine good_set hg hh ?_ ⟨(fun _ _ e => by cases e), fun _ _ => ⟨hwr, rfl⟩, (fun m e => by rw [show h.waits = some m from e] at hw; cases hw), (fun e => by cases e)⟩
    constructor
    · rintro ⟨v, t, e⟩; rw [hx] at e; cases e
    · rintro ⟨v, t, e⟩; cases e
  | refreshFails => exact hg
  | @reopenFails h m hh hw hx =>
    refine good_drop (h' := some { h with xdb := .closed }) hg (fun g e => ?_) (xclose_lock w p h.xdb true) (fun q => ?_)
    · cases e
      exact ⟨(fun ⟨v, t, e⟩ => by cases e), ⟨(fun _ _ e => by cases e), (fun _ e => by cases e), (fun m e => by rw [show h.waits = some m from e] at hw; cases hw), (fun e => by cases e)⟩⟩
    · rw [set_handles, xclose_handles]
  | @reopens h m hh hw hx =>
    refine good_drop (h' := some { h with xdb := .null, writable := false, waits := some m }) hg (fun g e => ?_) (xclose_lock w p h.xdb false) (fun q => ?_)
    · cases e
      exact ⟨(fun ⟨v, t, e⟩ => by cases e), ⟨(fun _ _ e => by cases e), (fun _ e => by cases e), fun _ _ => rfl, fun _ => rfl⟩⟩
    · rw [set_handles, xclose_handles]
  | @beginNested h f hh hw h1 =>
    have hF := hg.fits p h hh
    exact good_set hg hh Iff.rfl ⟨hF.writer, hF.reader, hF.waits, hF.null⟩
  | @begins h f v hh hw h1 h2 hx =>
    have hF := hg.fits p h hh
    refine good_set hg hh ⟨fun _ => ⟨_, _, rfl⟩, fun _ => ⟨_, _, hx⟩⟩ ⟨fun _ _ _ => hF.writer v _ hx, (fun _ e => by cases e), ?_, (fun e => by cases e)⟩
    intro m e
    rw [show h.waits = some m from e] at hw; cases hw
  | beginFails => exact hg
  | endUnbalanced _ _ => exact hg
  | @endNested h f hh hw h1 h2 =>
    have hF := hg.fits p h hh
    exact good_set hg hh Iff.rfl ⟨hF.writer, hF.reader, hF.waits, hF.null⟩
  | @endLate h v hh hw h1 h2 hx =>
    have hF := hg.fits p h hh
    refine good_set hg hh ⟨fun _ => ⟨_, _, rfl⟩, fun _ => ⟨_, _, hx⟩⟩ ⟨fun _ _ _ => hF.writer v _ hx, (fun _ e => by cases e), ?_, (fun e => by cases e)⟩
    intro m e
    rw [show h.waits = some m from e] at hw; cases hw
  | @ends h v hh hw h1 h2 hx =>
    have hF := hg.fits p h hh
    refine good_set hg hh ⟨fun _ => ⟨_, _, rfl⟩, fun _ => ⟨_, _, hx⟩⟩ ⟨fun _ _ _ => hF.writer v _ hx, (fun _ e => by cases e), ?_, (fun e => by cases e)⟩
    intro m e
    rw [show h.waits = some m from e] at hw; cases hw
  | endFails => exact hg
  | revision _ _ => exact hg
  | refused _ _ _ _ => exact hg
  | writeDies _ _ _ _ _ => exact good_gone hg
  | confFails _ _ => exact hg
  | @puts h id b v t hh hw h1 hx =>
    have hF := hg.fits p h hh
    obtain ⟨r1, r2, r3, r4, _⟩ := newRevision_same h
    refine good_set hg hh ⟨fun _ => ⟨_, _, rfl⟩, fun _ => ⟨_, _, hx⟩⟩ ⟨fun _ _ _ => ?_, (fun _ e => by cases e), ?_, (fun e => by cases e)⟩
    · have := hF.writer v _ hx
      exact ⟨r2.trans this.1, r3.trans this.2⟩
    · intro m e
      rw [← r4, show (newRevision h).2.waits = some m from e] at hw; cases hw
  | @removes h id v t hh hw h1 hx =>
    have hF := hg.fits p h hh
    refine good_set hg hh ⟨fun _ => ⟨_, _, rfl⟩, fun _ => ⟨_, _, hx⟩⟩ ⟨fun _ _ _ => hF.writer v _ hx, (fun _ e => by cases e), ?_, (fun e => by cases e)⟩
    intro m e
    rw [show h.waits = some m from e] at hw; cases hw
  | @sets h k v c t hh hw h1 hx =>
    have hF := hg.fits p h hh
    refine good_set hg hh ⟨fun _ => ⟨_, _, rfl⟩, fun _ => ⟨_, _, hx⟩⟩ ⟨fun _ _ _ => hF.writer c _ hx, (fun _ e => by cases e), ?_, (fun e => by cases e)⟩
    intro m e
    rw [show h.waits = some m from e] at hw; cases hw
  | conf _ _ => exact hg
  | findNull _ _ _ => exact good_gone hg
  | findFails => exact hg
  | findsReader _ _ _ => exact hg
  | findsWriter _ _ _ => exact hg
  | flushes _ _ _ => exact ⟨hg.lock, hg.fits⟩

theorem good_idle (c : Content) : Good (World.idle c) := ⟨fun p => ⟨(fun h => by cases h), (fun ⟨_, h, _⟩ => by cases h)⟩, fun _ _ h => by cases h⟩

theorem good_run : ∀ (es : List Event) {w : World}, Good w → Good (run w es)
  | [], _, h => h
  | e :: es, w, h => good_run es (good_does h (step_does w e.who e.call e.fault))

/-- Only one can write. -/
theorem good_unique {w : World} (hg : Good w) {p q : Nat} {h g : Handle} (hp : w.handles p = some h) (hq : w.handles q = some g) (h1 : h.isWriter) (h2 : g.isWriter) : p = q := by
  have a := (hg.lock p).2 ⟨h, hp, h1⟩
  have b := (hg.lock q).2 ⟨g, hq, h2⟩
  rw [a] at b
  injection b

/-- Others are not touched. -/
theorem others_does {w w' : World} {p : Nat} {c : Call} {f : Bool} {o : Out} (hd : Does w p c f w' o) {q : Nat} (hq : q ≠ p) : w'.handles q = w.handles q := by
  induction hd with
  | destroys _ _ _ ih => rw [gone_handles, if_neg hq]; exact ih
  | _ => simp [hq]

end Notmuch.Handles
