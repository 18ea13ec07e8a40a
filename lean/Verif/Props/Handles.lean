import Verif.Proofs.Handles5

/-! # C70: several programs with one database -/

namespace Notmuch.Props
open Notmuch.Handles

/-! ## Who may write -/

private theorem puts_writer {w : World} {p i : Nat} {b : Str} {f : Bool} (h : (Handles.step w p (.put i b) f).2 = .status .success) : ∃ g, w.handles p = some g ∧ g.isWriter := by
  have hd := step_does w p (.put i b) f
  generalize Handles.step w p (.put i b) f = r at hd h
  obtain ⟨w', o⟩ := r
  simp only at hd h
  cases hd with
  | wait => cases h
  | refused hh hw hx hn => injection h with h; exact absurd h hn
  | writeDies => cases h
  | puts hh hw h1 hx => exact ⟨_, hh, _, _, hx⟩

/-- **C70.** Whatever the programs do, at any moment at most one of them can change a message. -/
theorem C70_one_writer (c : Content) (es : List Handles.Event) {p q i j : Nat} {a b : Str} {f g : Bool}
    (hp : (Handles.step (Handles.run (World.idle c) es) p (.put i a) f).2 = .status .success) (hq : (Handles.step (Handles.run (World.idle c) es) q (.put j b) g).2 = .status .success) : p = q := by
  obtain ⟨h, hh, hw⟩ := puts_writer hp
  obtain ⟨h', hh', hw'⟩ := puts_writer hq
  exact good_unique (good_run es (good_idle c)) hh hh' hw hw'

/-! ## A handle that can only read -/

private theorem opened_snap {w : World} {p : Nat} {f : Bool} (h : (Handles.step w p (.open_ .readOnly) f).2 = .status .success) :
    Snap w.disk w.disk.bound w.disk.conf (Handles.step w p (.open_ .readOnly) f).1 p ∧ Live w.disk (Handles.step w p (.open_ .readOnly) f).1 p := by
  rw [open_success h]
  have e : ∀ (x : Option Handle) l, ({ w.set p x with lock := l } : World).handles p = x := fun x l => by
    show (if p = p then x else _) = x
    rw [if_pos rfl]
  refine ⟨fun g hg => ?_, ⟨_, e _ _, rfl, rfl, rfl⟩⟩
  rw [e] at hg
  injection hg with hg; subst hg
  exact ⟨.inl rfl, rfl, rfl, rfl, rfl⟩

/-- **C70.** A program that opens the database to read sees it as it was then, whatever others do, until it opens it again: each message that it finds, the revision and the configuration. -/
theorem C70_snapshot (w : World) (p : Nat) (f : Bool) (h : (Handles.step w p (.open_ .readOnly) f).2 = .status .success) (es : List Handles.Event) (hk : Handles.Keeps p es) :
    let w' := Handles.run (Handles.step w p (.open_ .readOnly) f).1 es
    (∀ i g d, (Handles.step w' p (.find i) g).2 = .doc d → d = w.disk.docs i) ∧ (∀ g n, (Handles.step w' p .getRevision g).2 = .revision n → n = w.disk.bound) ∧
    (∀ k g v, (Handles.step w' p (.getConfig k) g).2 = .value v → v = w.disk.conf k) := by
  intro w'
  have hs : Snap w.disk w.disk.bound w.disk.conf w' p := snap_run es hk (opened_snap h).1
  refine ⟨fun i g d hd => ?_, fun g n hn => ?_, fun k g v hv => ?_⟩
  · have hd' := step_does w' p (.find i) g
    generalize Handles.step w' p (.find i) g = r at hd' hd
    obtain ⟨w1, o⟩ := r
    simp only at hd' hd
    cases hd' with
    | findsReader hh hw hx =>
      rcases (hs _ hh).1 with e | e
      · rw [hx] at e; cases e; cases hd; rfl
      · rw [hx] at e; cases e
    | findsWriter hh hw hx =>
      rcases (hs _ hh).1 with e | e <;> (rw [hx] at e; cases e)
    | _ => cases hd
  · have hd' := step_does w' p .getRevision g
    generalize Handles.step w' p .getRevision g = r at hd' hn
    obtain ⟨w1, o⟩ := r
    simp only at hd' hn
    cases hd' with
    | revision hh hw => cases hn; exact (hs _ hh).2.2.2.1
    | _ => cases hn
  · have hd' := step_does w' p (.getConfig k) g
    generalize Handles.step w' p (.getConfig k) g = r at hd' hv
    obtain ⟨w1, o⟩ := r
    simp only at hd' hv
    cases hd' with
    | conf hh hw => cases hv; rw [(hs _ hh).2.2.2.2]
    | _ => cases hv

/-- **C70.** It does find them, as long as it does not close the database, unless Xapian fails. -/
theorem C70_snapshot_there (w : World) (p : Nat) (f : Bool) (h : (Handles.step w p (.open_ .readOnly) f).2 = .status .success) (es : List Handles.Event) (hk : Handles.Uses p es) (i : Nat) :
    (Handles.step (Handles.run (Handles.step w p (.open_ .readOnly) f).1 es) p (.find i) false).2 = .doc (w.disk.docs i) := by
  obtain ⟨g, hg, hx, hw, _⟩ := live_run es hk (opened_snap h).2
  generalize Handles.run (Handles.step w p (.open_ .readOnly) f).1 es = w' at hg
  simp only [Handles.step, hg, hw, findCall, hx]
  rfl

/-- **C70.** Nor can it change anything: what is on the disk stays, and each call that changes the database says that it is read-only. -/
theorem C70_readonly (w : World) (p : Nat) (f : Bool) (h : (Handles.step w p (.open_ .readOnly) f).2 = .status .success) (es : List Handles.Event) (hk : Handles.Keeps p es) (c : Call) (g : Bool)
    (hc : (∀ m, c ≠ .open_ m)) :
    let w' := Handles.run (Handles.step w p (.open_ .readOnly) f).1 es
    (Handles.step w' p c g).1.disk = w'.disk ∧ ((w'.handles p).isSome → c.writes = true → (Handles.step w' p c g).2 = .status .readOnly) := by
  intro w'
  have hs : Snap w.disk w.disk.bound w.disk.conf w' p := snap_run es hk (opened_snap h).1
  have nwr : ∀ {h : Handle}, w'.handles p = some h → ensureWritable h = .readOnly := by
    intro h hh
    unfold ensureWritable
    rw [(hs h hh).2.2.1]
    simp
  have hcl : ∀ {h : Handle} (f), w'.handles p = some h → closedDisk w'.disk h.xdb f = w'.disk := by
    intro h f hh
    rcases (hs h hh).1 with e | e <;> rw [e] <;> rfl
  refine ⟨?_, fun hp hw => ?_⟩
  · have hd := step_does w' p c g
    generalize Handles.step w' p c g = r at hd
    obtain ⟨w1, o⟩ := r
    simp only at hd ⊢
    induction hd with
    | opens => exact absurd rfl (hc _)
    | closes hh => rw [set_disk, xclose_disk]; exact hcl _ hh
    | reopenFails hh => rw [set_disk, xclose_disk]; exact hcl _ hh
    | reopens hh => rw [set_disk, xclose_disk]; exact hcl _ hh
    | destroys _ _ _ ih => rw [gone_disk]; exact ih (fun _ e => by cases e)
    | flushes hh _ hx => rcases (hs _ hh).1 with e | e <;> (rw [hx] at e; cases e)
    | _ => rfl
  · obtain ⟨g', hg⟩ := Option.isSome_iff_exists.1 hp
    have hwt := (hs g' hg).2.1
    have := nwr hg
    cases c with
    | put i b => simp [Handles.step, hg, hwt, putCall, this]
    | remove i => simp [Handles.step, hg, hwt, removeCall, this]
    | setConfig k v => simp [Handles.step, hg, hwt, setConfigCall, this]
    | _ => cases hw

/-! ## After it is closed -/

/-- **C70.** Through a handle that was closed, nothing is changed and nothing is found until it is opened again; the calls say so. -/
theorem C70_closed (w : World) (p : Nat) (f : Bool) (h : (Handles.step w p .close f).2 ≠ .dies) (ho : ∃ h, w.handles p = some h ∧ h.isOpen = true ∧ h.waits = none) (es : List Handles.Event)
    (hk : Handles.Keeps p es) :
    let w' := Handles.run (Handles.step w p .close f).1 es
    (∀ c g, (∀ m, c ≠ .open_ m) → (Handles.step w' p c g).1.disk = w'.disk) ∧
    ((w'.handles p).isSome → (∀ c g, c.writes = true → (Handles.step w' p c g).2 = .status .closed ∨ (Handles.step w' p c g).2 = .status .readOnly) ∧
      ∀ i g, (Handles.step w' p (.find i) g).2 = .status .exception) := by
  intro w'
  have hsh : Shut (Handles.step w p .close f).1 p := by
    obtain ⟨h0, hh0, hop, hw0⟩ := ho
    have e : Handles.step w p .close f = closeCall w p h0 f := by simp [Handles.step, hh0, hw0]
    rw [e] at h ⊢
    unfold closeCall at h ⊢
    rw [if_pos hop] at h ⊢
    split at h
    · exact absurd rfl h
    · rename_i x hx
      intro g hg
      simp only [set_handles, if_pos] at hg
      injection hg with hg; subst hg
      exact ⟨rfl, rfl, hw0⟩
  have hs : Shut w' p := shut_run es hk hsh
  have hcl : ∀ {h : Handle} (f), w'.handles p = some h → closedDisk w'.disk h.xdb f = w'.disk := by
    intro h f hh
    rw [(hs h hh).2.1]; rfl
  refine ⟨fun c g hc => ?_, fun hp => ?_⟩
  · have hd := step_does w' p c g
    generalize Handles.step w' p c g = r at hd
    obtain ⟨w1, o⟩ := r
    simp only at hd ⊢
    induction hd with
    | opens => exact absurd rfl (hc _)
    | closes hh => rw [set_disk, xclose_disk]; exact hcl _ hh
    | reopenFails hh => rw [set_disk, xclose_disk]; exact hcl _ hh
    | reopens hh => rw [set_disk, xclose_disk]; exact hcl _ hh
    | destroys _ _ _ ih => rw [gone_disk]; exact ih (fun _ e => by cases e)
    | flushes hh _ hx => rw [(hs _ hh).2.1] at hx; cases hx
    | _ => rfl
  · obtain ⟨g', hg⟩ := Option.isSome_iff_exists.1 hp
    obtain ⟨h1, h2, h3⟩ := hs g' hg
    have hn : ensureWritable g' ≠ .success ∧ (ensureWritable g' = .closed ∨ ensureWritable g' = .readOnly) := by
      unfold ensureWritable
      rw [h1]
      split <;> simp
    refine ⟨fun c g hw => ?_, fun i g => ?_⟩
    · cases c with
      | put i b => simpa [Handles.step, hg, h3, putCall, hn.1] using hn.2
      | remove i => simpa [Handles.step, hg, h3, removeCall, hn.1] using hn.2
      | setConfig k v => simpa [Handles.step, hg, h3, setConfigCall, hn.1] using hn.2
      | _ => cases hw
    · simp [Handles.step, hg, h3, findCall, h2]

/-! ## Atomic sections -/

private theorem hidden : ∀ (es : List Handles.Event) {w : World} {p : Nat}, Sound w → AllProper w es → (∀ a e b, es = a ++ e :: b → InSection (Handles.run w a) p) → (Handles.run w es).disk = w.disk
  | [], _, _, _, _, _ => rfl
  | e :: es, w, p, hs, hp, hi => by
    have hd := step_does w e.who e.call e.fault
    have h0 : InSection w p := hi [] e es rfl
    have h1 : (Handles.step w e.who e.call e.fault).1.disk = w.disk := disk_does hs h0 hd
    rw [Handles.run, hidden es (p := p) (sound_does hs hp.1 hd) hp.2 (fun a e' b h => hi (e :: a) e' b (by rw [h]; rfl)), h1]

/-- **C70.** As long as a program is in an atomic section, and also if it then closes the database or dies, the disk stays as it was before: so no other program, whenever it opens
the database, sees a part of the changes. -/
theorem C70_atomic (c : Content) (es0 es : List Handles.Event) (p : Nat) (h0 : AllProper (World.idle c) es0) (h1 : AllProper (Handles.run (World.idle c) es0) es)
    (hi : ∀ a e b, es = a ++ e :: b → InSection (Handles.run (Handles.run (World.idle c) es0) a) p) :
    (Handles.run (Handles.run (World.idle c) es0) es).disk = (Handles.run (World.idle c) es0).disk :=
  hidden es (sound_run es0 (sound_idle c) h0) h1 hi

/-- **C70.** What a program that writes has found, outside of atomic sections, is what all find that open the database when it has closed it. -/
theorem C70_close_keeps (c : Content) (es : List Handles.Event) (h0 : AllProper (World.idle c) es) (p : Nat) (i : Nat) (d : Option Doc)
    (hp : ∃ j b, (Handles.step (Handles.run (World.idle c) es) p (.put j b) false).2 = .status .success) (hn : (Handles.run (World.idle c) es).depth p = 0)
    (hf : (Handles.step (Handles.run (World.idle c) es) p (.find i) false).2 = .doc d) :
    (Handles.step (Handles.run (World.idle c) es) p .close false).1.disk.docs i = d ∧ (Handles.step (Handles.run (World.idle c) es) p .close false).1.lock = none := by
  have hs := sound_run es (sound_idle c) h0
  generalize Handles.run (World.idle c) es = w at *
  obtain ⟨j, b, hp⟩ := hp
  obtain ⟨h, hh, v, t, hx⟩ := puts_writer hp
  have ho := ((hs.good.fits p h hh).writer v t hx).2
  have hw : h.waits = none := by
    cases hw : h.waits with
    | none => rfl
    | some m => have := (hs.good.fits p h hh).waits m hw; rw [hx] at this; cases this
  have hn' : h.nesting = 0 := by unfold World.depth at hn; rw [hh] at hn; exact hn
  have ht : t = false := by
    have := (hs.tidy p h hh).trans v t hx
    cases t with
    | false => rfl
    | true => have := this.1 rfl; omega
  subst ht
  have hfd : d = v.docs i := by
    simp only [Handles.step, hh, hw, findCall, hx] at hf
    simpa using hf.symm
  have e : Handles.step w p .close false = closeCall w p h false := by simp [Handles.step, hh, hw]
  rw [e]
  unfold closeCall
  rw [if_pos ho]
  split
  · rename_i hx'; rw [hx] at hx'; cases hx'
  · simp only [set_disk, xclose_disk, set_lock, xclose_lock]
    rw [hx, hfd]
    exact ⟨rfl, by rw [if_pos ((hs.good.lock p).2 ⟨h, hh, v, false, hx⟩)]⟩

/-! ## Revisions -/

/-- **C70.** When a program has opened the database to read, and learned the revision `r`, then later each message that is not as it was then has a revision after `r`, whoever changed
it: so `lastmod:` finds all changes. -/
theorem C70_incremental (c : Content) (es : List Handles.Event) (h0 : AllProper (World.idle c) es) (p : Nat) (f : Bool)
    (ho : (Handles.step (Handles.run (World.idle c) es) p (.open_ .readOnly) f).2 = .status .success) (r : Nat) (g : Bool)
    (hr : (Handles.step (Handles.step (Handles.run (World.idle c) es) p (.open_ .readOnly) f).1 p .getRevision g).2 = .revision r) (es' : List Handles.Event) (i : Nat) (d : Doc)
    (hd : (Handles.run (Handles.step (Handles.run (World.idle c) es) p (.open_ .readOnly) f).1 es').disk.docs i = some d) :
    (Handles.run (World.idle c) es).disk.docs i = some d ∨ r < d.lastMod := by
  have hs := sound_run es (sound_idle c) h0
  have hr' := (C70_snapshot _ p f ho [] (fun _ h => by cases h)).2.1 g r hr
  generalize Handles.run (World.idle c) es = w at *
  have ha := after_run es' (after_does hs.after (step_does w p (.open_ .readOnly) f))
  rw [hr']
  exact ha.disk.2 i d hd

/-! ## One after another -/

/-- **C70.** However the programs take turns, if none dies, fails or closes the database in an atomic section, no change is lost: when none has the database open to write, the messages
are what all changes that were reported as done make of them, one after another; and the one that writes finds just that. -/
theorem C70_serial (c : Content) (es : List Handles.Event) (hc : AllCareful (World.idle c) es) :
    ((Handles.run (World.idle c) es).lock = none → (Handles.run (World.idle c) es).disk.bodies = apply (changes (World.idle c) es) c.bodies) ∧
    ∀ p j b i f d, (Handles.step (Handles.run (World.idle c) es) p (.put j b) false).2 = .status .success → (Handles.step (Handles.run (World.idle c) es) p (.find i) f).2 = .doc d →
      d.map (·.body) = apply (changes (World.idle c) es) c.bodies i := by
  have hs := ser_run es (b := c.bodies) (sound_idle c) hc ⟨fun _ => rfl, (fun _ _ _ _ h => by cases h)⟩
  refine ⟨hs.free, fun p j b i f d hp hf => ?_⟩
  obtain ⟨h, hh, v, t, hx⟩ := puts_writer hp
  have hd := step_does (Handles.run (World.idle c) es) p (.find i) f
  generalize Handles.step (Handles.run (World.idle c) es) p (.find i) f = r at hd hf
  obtain ⟨w1, o⟩ := r
  simp only at hd hf
  cases hd with
  | findsReader hh' hw hx' =>
    rw [hh] at hh'; injection hh' with hh'; subst hh'
    rw [hx] at hx'; cases hx'
  | findsWriter hh' hw hx' =>
    rw [hh] at hh'; injection hh' with hh'; subst hh'
    rw [hx] at hx'; cases hx'
    cases hf
    exact congrFun (hs.writer p h v t hh hx) i
  | _ => cases hf

/-! ## Waiting, sections, and one's own changes -/

/-- **C70.** Opening to read never waits; opening to write waits only while another program can change messages: no program that died, or gave its handle up, keeps the others out. -/
theorem C70_waits (c : Content) (es : List Handles.Event) (p : Nat) (m : Mode) (f : Bool) (hp : (Handles.run (World.idle c) es).handles p = none)
    (hb : (Handles.step (Handles.run (World.idle c) es) p (.open_ m) f).2 = .blocked) :
    m = .readWrite ∧ ∃ q, q ≠ p ∧ ∀ j b, (Handles.step (Handles.run (World.idle c) es) q (.put j b) false).2 = .status .success := by
  have hg := good_run es (good_idle c)
  generalize Handles.run (World.idle c) es = w at hp hb hg
  simp only [Handles.step, openCall, hp] at hb
  cases hl : w.lock with
  | none => simp [hl] at hb; cases f <;> simp at hb
  | some q =>
    obtain ⟨h, hh, v, t, hx⟩ := (hg.lock q).1 hl
    have hfit := hg.fits q h hh
    have hw : h.waits = none := by
      cases e : h.waits with
      | none => rfl
      | some m => have := hfit.waits m e; rw [hx] at this; cases this
    refine ⟨?_, q, ?_, fun j b => ?_⟩
    · cases m with
      | readWrite => rfl
      | readOnly => simp at hb; cases f <;> simp at hb
    · rintro rfl; rw [hp] at hh; cases hh
    · obtain ⟨h1, h2⟩ := hfit.writer v t hx
      simp [Handles.step, hh, hw, putCall, ensureWritable, h1, h2, hx]

/-- **C70.** Sections nest: beginning one that succeeds goes one deeper, ending one goes back, and ending is unbalanced just when there is none. -/
theorem C70_sections (w : World) (p : Nat) (f : Bool) (hp : ∃ h, w.handles p = some h ∧ h.waits = none) :
    ((Handles.step w p .beginAtomic f).2 = .status .success → (Handles.step w p .beginAtomic f).1.depth p = w.depth p + 1) ∧
    ((Handles.step w p .endAtomic f).2 = .status .success → (Handles.step w p .endAtomic f).1.depth p + 1 = w.depth p) ∧
    ((Handles.step w p .endAtomic f).2 = .status .unbalanced ↔ w.depth p = 0) := by
  obtain ⟨h, hh, hw⟩ := hp
  have hd : w.depth p = h.nesting := by simp [World.depth, hh]
  have es : ∀ (g : Handle), (w.set p (some g)).depth p = g.nesting := fun g => by simp [World.depth]
  rw [hd]
  simp only [Handles.step, hh, hw]
  refine ⟨fun hb => ?_, fun he => ?_, ?_⟩
  · unfold beginCall at hb ⊢
    split at hb
    · rw [if_pos (by assumption)]; exact es _
    · rw [if_neg (by assumption)]
      split at hb
      · exact es _
      · cases hb
  · unfold endCall at he ⊢
    by_cases h0 : h.nesting = 0
    · rw [if_pos h0] at he; cases he
    · rw [if_neg h0] at he ⊢
      split at he
      · rw [if_pos (by assumption), es]; show h.nesting - 1 + 1 = _; omega
      · rw [if_neg (by assumption)]
        split at he
        · cases f with
          | true => cases he
          | false => simp only [Bool.false_eq_true, if_false, es]; omega
        · cases he
  · unfold endCall
    by_cases h0 : h.nesting = 0
    · simp [h0]
    · rw [if_neg h0]
      refine ⟨fun he => ?_, fun e => absurd e h0⟩
      split at he
      · cases he
      · split at he
        · cases f <;> cases he
        · cases he

/-- **C70.** A program finds what it has changed at once: the message with a revision later than the one it was told, or that it is gone; and the value of the configuration.  Nothing
else is different for it. -/
theorem C70_own (w : World) (p : Nat) (i : Nat) (b k v : Str) :
    ((Handles.step w p (.put i b) false).2 = .status .success → ∃ r, (∀ n, (Handles.step w p .getRevision false).2 = .revision n → n < r) ∧
      ∀ j, (Handles.step (Handles.step w p (.put i b) false).1 p (.find j) false).2 = if j = i then .doc (some ⟨b, r⟩) else (Handles.step w p (.find j) false).2) ∧
    ((Handles.step w p (.remove i) false).2 = .status .success →
      ∀ j, (Handles.step (Handles.step w p (.remove i) false).1 p (.find j) false).2 = if j = i then .doc none else (Handles.step w p (.find j) false).2) ∧
    ((Handles.step w p (.setConfig k v) false).2 = .status .success →
      ∀ l, (Handles.step (Handles.step w p (.setConfig k v) false).1 p (.getConfig l) false).2 = if l = k then .value v else (Handles.step w p (.getConfig l) false).2) := by
  cases hh : w.handles p with
  | none => simp [Handles.step, hh]
  | some h =>
    cases hw : h.waits with
    | some m => simp [Handles.step, hh, hw]
    | none =>
      refine ⟨fun hs => ⟨(newRevision h).1, fun n hn => ?_, fun j => ?_⟩, fun hs j => ?_, fun hs l => ?_⟩
      · simp [Handles.step, hh, hw] at hn
        subst hn
        unfold newRevision; split <;> exact Nat.lt_succ_self _
      · simp only [Handles.step, hh, hw, putCall] at hs ⊢
        split at hs
        · rename_i e; injection hs with hs; exact absurd hs e
        · rw [if_neg (by assumption)]
          cases hx : h.xdb with
          | writer c t =>
            simp [(newRevision_same h).2.2.2.1, hw, findCall, Content.put, hx]
            split <;> simp_all
          | _ => rw [hx] at hs; cases hs
      · simp only [Handles.step, hh, hw, removeCall] at hs ⊢
        split at hs
        · rename_i e; injection hs with hs; exact absurd hs e
        · rw [if_neg (by assumption)]
          cases hx : h.xdb with
          | writer c t =>
            simp [hw, findCall, Content.remove, hx]
            split <;> simp_all
          | _ => rw [hx] at hs; cases hs
      · simp only [Handles.step, hh, hw, setConfigCall] at hs ⊢
        split at hs
        · rename_i e; injection hs with hs; exact absurd hs e
        · rw [if_neg (by assumption)]
          cases hx : h.xdb with
          | writer c t =>
            simp [hw]
            split <;> simp_all
          | _ => rw [hx] at hs; cases hs

/-- **C70.** A handle that is reopened to read shows what is on the disk at that moment: each message, and the revision. -/
theorem C70_reopened (w : World) (p : Nat) (m : Mode) (hr : (Handles.step w p (.reopen m) false).2 = .status .success ∨ (Handles.step w p .resume false).2 = .status .success) (i : Nat) :
    let w' := if (Handles.step w p .resume false).2 = .status .success then (Handles.step w p .resume false).1 else (Handles.step w p (.reopen m) false).1
    (Handles.step w' p (.find i) false).2 = .doc (w.disk.docs i) ∧ (Handles.step w' p .getRevision false).2 = .revision w.disk.bound := by
  intro w'
  cases hh : w.handles p with
  | none => simp [Handles.step, hh] at hr
  | some h =>
    cases hw : h.waits with
    | some m' =>
      have hn : (Handles.step w p (.reopen m) false).2 = .blocked := by simp [Handles.step, hh, hw]
      rw [hn] at hr
      have hr := hr.resolve_left (fun e => by cases e)
      have e : w' = (Handles.step w p .resume false).1 := if_pos hr
      rw [e]
      simp only [Handles.step, hh, resumeCall, hw] at hr ⊢
      split at hr
      · cases hr
      · rw [if_neg (by assumption)]
        simp only [Bool.false_eq_true, if_false, World.set, if_true]
        cases m' <;> exact ⟨rfl, rfl⟩
    | none =>
      have hn : (Handles.step w p .resume false).2 = .blocked := by simp [Handles.step, hh, resumeCall, hw]
      have e : w' = (Handles.step w p (.reopen m) false).1 := if_neg (by rw [hn]; exact fun e => by cases e)
      rw [hn] at hr
      have hr := hr.resolve_right (fun e => by cases e)
      rw [e]
      simp only [Handles.step, hh, hw, reopenCall] at hr ⊢
      cases hx : h.xdb with
      | null => rw [hx] at hr; cases hr
      | reader c =>
        rw [hx] at hr
        simp only at hr ⊢
        split at hr
        · rw [if_pos (by assumption)]
          simp [findCall, Handle.load, hw]
        · cases hr
      | closed => rw [hx] at hr; simp only at hr; split at hr <;> cases hr
      | writer v t => rw [hx] at hr; simp only at hr; split at hr <;> cases hr

/-! ## Concrete cases -/

/-- What the programs see. -/
private def seen (w : World) : List Handles.Event → List Out
  | [] => []
  | e :: es => (Handles.step w e.who e.call e.fault).2 :: seen (Handles.step w e.who e.call e.fault).1 es

private def emptyContent : Content := ⟨fun _ => none, 0, fun _ => []⟩

private def does (p : Nat) (c : Call) : Handles.Event := ⟨p, c, false⟩

/-- Program 1 writes two messages in an atomic section, while 2 has the database open, 3 opens it in the middle, 4 waits to write, and then removes one. -/
private def twoWriters : List Handles.Event :=
  [does 1 (.open_ .readWrite), does 2 (.open_ .readOnly), does 4 (.open_ .readWrite), does 1 .beginAtomic, does 1 (.put 7 (bs "a")), does 3 (.open_ .readOnly), does 1 (.put 8 (bs "b")),
    does 1 .endAtomic, does 1 .close, does 4 (.open_ .readWrite), does 4 (.find 8), does 4 (.remove 7), does 4 (.put 8 (bs "c")), does 4 .destroy]

/-- **C70, a concrete case.** -/
theorem C70_example :
    seen (World.idle emptyContent) (twoWriters ++ [does 2 (.find 8), does 3 (.find 7), does 2 (.reopen .readOnly), does 2 (.find 8), does 2 (.find 7), does 2 .getRevision, does 2 (.put 1 []), does 1 (.put 1 [])]) =
      [.status .success, .status .success, .blocked, .status .success, .status .success, .status .success, .status .success, .status .success, .status .success,
        .status .success, .doc (some ⟨bs "b", 1⟩), .status .success, .status .success, .status .success,
        .doc none, .doc none, .status .success, .doc (some ⟨bs "c", 2⟩), .doc none, .revision 2, .status .readOnly, .status .closed] := by
  decide +kernel

/-- The hypotheses of `C70_serial`, `C70_incremental` and `C70_close_keeps` are met. -/
example : AllCareful (World.idle emptyContent) twoWriters ∧ AllProper (World.idle emptyContent) twoWriters ∧
    changes (World.idle emptyContent) twoWriters = [(7, some (bs "a")), (8, some (bs "b")), (7, none), (8, some (bs "c"))] := by
  refine ⟨?_, ?_, by decide +kernel⟩
  · simp only [AllCareful, twoWriters, Careful, does]
    refine ⟨⟨?_, ?_, ?_⟩, ⟨?_, ?_, ?_⟩, ⟨?_, ?_, ?_⟩, ⟨?_, ?_, ?_⟩, ⟨?_, ?_, ?_⟩, ⟨?_, ?_, ?_⟩, ⟨?_, ?_, ?_⟩, ⟨?_, ?_, ?_⟩, ⟨?_, ?_, ?_⟩, ⟨?_, ?_, ?_⟩, ⟨?_, ?_, ?_⟩, ⟨?_, ?_, ?_⟩,
      ⟨?_, ?_, ?_⟩, ⟨?_, ?_, ?_⟩, trivial⟩ <;> first | (intro h; cases h; done) | (intro _; decide +kernel)
  · simp only [AllProper, twoWriters, Proper, does]
    refine ⟨⟨?_, ?_⟩, ⟨?_, ?_⟩, ⟨?_, ?_⟩, ⟨?_, ?_⟩, ⟨?_, ?_⟩, ⟨?_, ?_⟩, ⟨?_, ?_⟩, ⟨?_, ?_⟩, ⟨?_, ?_⟩, ⟨?_, ?_⟩, ⟨?_, ?_⟩, ⟨?_, ?_⟩, ⟨?_, ?_⟩, ⟨?_, ?_⟩, trivial⟩ <;>
      first | (intro _; rfl) | (intro m h; cases h; done) | (intro h; cases h; trivial) | (intro h; cases h; done)

/-! ## What does not hold -/

/-- A program that reopens its handle in an atomic section. -/
private def reopener : List Handles.Event := [does 1 (.open_ .readWrite), does 1 .beginAtomic, does 1 (.reopen .readWrite), does 1 .resume]

/-- **C70, what does not hold.** `notmuch_database_reopen` forgets the transaction but not that there is a section: what is then changed in the section can be on the disk before its end. -/
theorem C70_atomic_counterexample :
    ¬ ∀ (c : Content) (es0 es : List Handles.Event) (p : Nat), (∀ a e b, es = a ++ e :: b → InSection (Handles.run (Handles.run (World.idle c) es0) a) p) →
      (Handles.run (Handles.run (World.idle c) es0) es).disk.docs = (Handles.run (World.idle c) es0).disk.docs := by
  intro h
  have := congrFun (h emptyContent reopener [does 1 (.put 7 []), does 1 .flush] 1 (by
    intro a e b heq
    cases a with
    | nil => exact ⟨_, _, _, rfl, rfl, Nat.one_pos⟩
    | cons x a =>
      cases a with
      | nil => injection heq with e1 _; subst e1; exact ⟨_, _, _, rfl, rfl, Nat.one_pos⟩
      | cons y a =>
        injection heq with _ h2; injection h2 with _ h3
        cases a <;> cases h3)) 7
  revert this
  decide +kernel

/-- **C70, what does not hold.** Nor does the section ever end then, and all further changes have the same revision: what another program has not yet seen can have the revision that it knows. -/
theorem C70_incremental_counterexample :
    ¬ ∀ (c : Content) (es : List Handles.Event) (p : Nat), (Handles.step (Handles.run (World.idle c) es) p (.open_ .readOnly) false).2 = .status .success → ∀ (r : Nat),
      (Handles.step (Handles.step (Handles.run (World.idle c) es) p (.open_ .readOnly) false).1 p .getRevision false).2 = .revision r → ∀ (es' : List Handles.Event) (i : Nat) (d : Doc),
      (Handles.run (Handles.step (Handles.run (World.idle c) es) p (.open_ .readOnly) false).1 es').disk.docs i = some d → (Handles.run (World.idle c) es).disk.docs i = some d ∨ r < d.lastMod := by
  intro h
  have := h emptyContent (reopener ++ [does 1 (.put 7 []), does 1 .flush]) 2 (by decide +kernel) 1 (by decide +kernel) [does 1 .endAtomic, does 1 (.put 8 []), does 1 .flush] 8 ⟨[], 1⟩ (by decide +kernel)
  revert this
  decide +kernel

/-- **C70, what does not hold.** The revision that a program learns from a handle with which it writes says nothing if it then dies: others use the number again. -/
theorem C70_writer_revision_counterexample :
    ¬ ∀ (c : Content) (es : List Handles.Event), AllProper (World.idle c) es → ∀ (p r : Nat), (Handles.step (Handles.run (World.idle c) es) p .getRevision false).2 = .revision r →
      ∀ (es' : List Handles.Event) (i : Nat) (d : Doc), (Handles.run (Handles.run (World.idle c) es) es').disk.docs i = some d →
      (∃ h v t, (Handles.run (World.idle c) es).handles p = some h ∧ h.xdb = .writer v t ∧ v.docs i = some d) ∨ r < d.lastMod := by
  intro h
  have := h emptyContent [does 1 (.open_ .readWrite), does 1 (.put 7 (bs "a"))] (by
    refine ⟨⟨?_, ?_⟩, ⟨?_, ?_⟩, trivial⟩ <;> first | (intro m h; cases h; done) | (intro h; cases h; done)) 1 1 (by decide +kernel)
    [does 1 .die, does 2 (.open_ .readWrite), does 2 (.put 8 (bs "b")), does 2 .close] 8 ⟨bs "b", 1⟩ (by decide +kernel)
  rcases this with ⟨g, v, t, hg, hx, hv⟩ | this
  · have e : (Handles.run (World.idle emptyContent) [does 1 (.open_ .readWrite), does 1 (.put 7 (bs "a"))]).handles 1 =
        some ⟨true, true, .writer (emptyContent.put 7 ⟨bs "a", 1⟩) false, 0, false, 1, 1, fun _ => [], none⟩ := rfl
    rw [e] at hg
    injection hg with hg; subst hg
    injection hx with hx _; subst hx
    cases hv
  · exact absurd this (Nat.lt_irrefl 1)

/-- **C70, what does not hold.** After it was reopened, a handle still has the configuration that it had before. -/
theorem C70_config_counterexample :
    ¬ ∀ (w : World) (p : Nat) (k v : Str), (Handles.step w p (.reopen .readOnly) false).2 = .status .success →
      (Handles.step (Handles.step w p (.reopen .readOnly) false).1 p (.getConfig k) false).2 = .value v → v = w.disk.conf k := by
  intro h
  have := h (Handles.run (World.idle emptyContent) [does 2 (.open_ .readOnly), does 1 (.open_ .readWrite), does 1 (.setConfig (bs "k") (bs "v")), does 1 .close]) 2 (bs "k") []
    (by decide +kernel) (by decide +kernel)
  revert this
  decide +kernel

/-- **C70, what does not hold.** A handle can always be destroyed: but if it could not be reopened, it uses a `NULL` pointer. -/
theorem C70_reopen_counterexample : ¬ ∀ (c : Content) (es : List Handles.Event) (p : Nat) (f : Bool), (Handles.step (Handles.run (World.idle c) es) p .destroy f).2 ≠ .dies := by
  intro h
  exact h emptyContent [does 1 (.open_ .readOnly), does 1 (.reopen .readWrite), ⟨1, .resume, true⟩] 1 false (by decide +kernel)

end Notmuch.Props
