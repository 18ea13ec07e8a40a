import Verif.Proofs.Handles3

/-! # Handles: one after another -/

namespace Notmuch.Handles

theorem bodies_put (c : Content) (id : Nat) (d : Doc) : (c.put id d).bodies = fun j => if j = id then some d.body else c.bodies j := by
  funext j
  unfold Content.bodies Content.put
  simp only
  split <;> rfl

theorem bodies_remove (c : Content) (id : Nat) : (c.remove id).bodies = fun j => if j = id then none else c.bodies j := by
  funext j
  unfold Content.bodies Content.remove
  simp only
  split <;> rfl

/-- The messages are `b`, for the one that writes or on the disk. -/
structure Ser (b : Nat → Option Str) (w : World) : Prop where
  free : w.lock = none → w.disk.bodies = b
  writer : ∀ p h v t, w.handles p = some h → h.xdb = .writer v t → v.bodies = b

/-- What one call changes. -/
def change (c : Call) (o : Out) : List (Nat × Option Str) :=
  match c, o with
  | .put i b, .status .success => [(i, some b)]
  | .remove i, .status .success => [(i, none)]
  | _, _ => []

theorem change_failed {s : Status} (c : Call) (h : s ≠ .success) : change c (.status s) = [] := by
  cases s with
  | success => exact absurd rfl h
  | _ => cases c <;> rfl

theorem change_dies (c : Call) : change c .dies = [] := by cases c <;> rfl

theorem change_blocked (c : Call) : change c .blocked = [] := by cases c <;> rfl

theorem apply_append : ∀ (l r : List (Nat × Option Str)) (f : Nat → Option Str), apply (l ++ r) f = apply r (apply l f)
  | [], _, _ => rfl
  | (i, b) :: l, r, f => by rw [List.cons_append, apply, apply, apply_append l r]

theorem ser_set {b : Nat → Option Str} {w : World} {p : Nat} {h h' : Handle} (hg : Good w) (hs : Ser b w) (hh : w.handles p = some h)
    (hn : ∀ v t, h'.xdb = .writer v t → v.bodies = b) : Ser b (w.set p (some h')) := by
  refine ⟨hs.free, fun q g v t hq hx => ?_⟩
  rw [set_handles] at hq
  split at hq
  · injection hq with hq; subst hq; exact hn v t hx
  · exact hs.writer q g v t hq hx

/-- The one that writes changes something. -/
theorem ser_write {b' : Nat → Option Str} {w : World} {p : Nat} {h h' : Handle} (hg : Good w) (hh : w.handles p = some h) (hw : h.isWriter)
    (hn : ∀ v t, h'.xdb = .writer v t → v.bodies = b') : Ser b' (w.set p (some h')) := by
  have hl := (hg.lock p).2 ⟨h, hh, hw⟩
  refine ⟨(fun e => by rw [set_lock, hl] at e; cases e), fun q g v t hq hx => ?_⟩
  rw [set_handles] at hq
  split at hq
  · injection hq with hq; subst hq; exact hn v t hx
  · rename_i hne
    exact absurd (good_unique hg hq hh ⟨_, _, hx⟩ hw) hne

theorem ser_gone {b : Nat → Option Str} {w : World} {p : Nat} (hg : Good w) (hs : Ser b w) (hn : ∀ h, w.handles p = some h → ¬ h.isWriter) : Ser b (w.gone p) := by
  have hl : w.lock ≠ some p := fun hl => by
    obtain ⟨h, hh, hw⟩ := (hg.lock p).1 hl
    exact hn h hh hw
  refine ⟨fun e => ?_, fun q g v t hq hx => ?_⟩
  · rw [gone_lock, if_neg hl] at e
    exact hs.free e
  · rw [gone_handles] at hq
    split at hq
    · cases hq
    · exact hs.writer q g v t hq hx

theorem ser_close {b : Nat → Option Str} {w : World} {p : Nat} {h h' : Handle} (ho : Sound w) (hs : Ser b w) (hh : w.handles p = some h) (h0 : h.nesting = 0)
    (hn : ∀ v t, h'.xdb ≠ .writer v t) : Ser b ((w.xclose p h.xdb false).set p (some h')) := by
  refine ⟨fun e => ?_, fun q g v t hq hx => ?_⟩
  · rw [set_lock, xclose_lock] at e
    rw [set_disk, xclose_disk]
    by_cases hw : h.isWriter
    · obtain ⟨v, t, hx⟩ := hw
      have ht : t = false := by
        have := ((ho.tidy p h hh).trans v t hx)
        rw [h0] at this
        cases t with
        | false => rfl
        | true => exact absurd (this.1 rfl) (Nat.lt_irrefl 0)
      subst ht
      rw [hx]
      exact hs.writer p h v _ hh hx
    · have hl : w.lock ≠ some p := fun hl => by
        obtain ⟨g, hg, hw'⟩ := (ho.good.lock p).1 hl
        rw [hh] at hg; injection hg with hg; subst hg; exact hw hw'
      rw [if_neg hl] at e
      have : closedDisk w.disk h.xdb false = w.disk := by
        unfold closedDisk
        split
        · rename_i v hx; exact absurd ⟨v, _, hx⟩ hw
        · rfl
      rw [this]
      exact hs.free e
  · rw [set_handles, xclose_handles] at hq
    split at hq
    · injection hq with hq; subst hq; exact absurd hx (hn _ _)
    · exact hs.writer q g v t hq hx

theorem ser_does {b : Nat → Option Str} {w w' : World} {p : Nat} {c : Call} {f : Bool} {o : Out} (ho : Sound w) (hc : Careful w ⟨p, c, f⟩) (hs : Ser b w) (hd : Does w p c f w' o) :
    Ser (apply (change c o) b) w' := by
  have hg := ho.good
  have depth : ∀ {h}, w.handles p = some h → w.depth p = h.nesting := fun hh => by unfold World.depth; rw [hh]
  have new : ∀ m v t, newXdb m w.disk = .writer v t → v = w.disk ∧ m = .readWrite := by
    intro m v t h
    cases m <;> cases h
    exact ⟨rfl, rfl⟩
  have opened : ∀ {m : Mode} {h' : Handle}, (m = .readWrite → w.lock = none) → h'.xdb = newXdb m w.disk →
      Ser b { w.set p (some h') with lock := if m = .readWrite then some p else w.lock } := by
    intro m h' hm hx
    refine ⟨fun e => ?_, fun q g v t hq hxq => ?_⟩
    · cases m with
      | readOnly => exact hs.free e
      | readWrite => cases e
    · have hq : (if q = p then some h' else w.handles q) = some g := hq
      split at hq
      · injection hq with hq; subst hq
        rw [hx] at hxq
        obtain ⟨rfl, hm'⟩ := new m v t hxq
        exact hs.free (hm hm')
      · exact hs.writer q g v t hq hxq
  have nw : ∀ {h : Handle}, w.handles p = some h → (∀ v t, h.xdb ≠ .writer v t) → ∀ g, w.handles p = some g → ¬ g.isWriter := by
    intro h hh hx g hg' hw
    rw [hh] at hg'; injection hg' with hg'; subst hg'
    obtain ⟨v, t, e⟩ := hw
    exact hx v t e
  have closeCase : ∀ {w1 : World} {o1 : Out} {f1 : Bool}, Does w p .close f1 w1 o1 → o1 ≠ .blocked → f1 = false → (∃ h, w.handles p = some h ∧ h.nesting = 0) → Ser b w1 ∧ ∀ h, w1.handles p = some h → ¬ h.isWriter := by
    intro w1 o1 f1 hd hob hf hn
    obtain ⟨h0, hh0, hn0⟩ := hn
    cases hd with
    | wait => exact absurd rfl hob
    | @closeNull h _ hh _ _ hx =>
      refine ⟨ser_gone hg hs (nw hh (fun _ _ e => by rw [hx] at e; cases e)), fun h hh => ?_⟩
      rw [gone_handles, if_pos rfl] at hh; cases hh
    | @closes h _ hh hw ho' hx =>
      rw [hh] at hh0; injection hh0 with hh0; subst hh0
      subst hf
      refine ⟨ser_close ho hs hh hn0 (fun _ _ e => by cases e), fun g hg' => ?_⟩
      rw [set_handles, if_pos rfl] at hg'
      injection hg' with hg'; subst hg'
      rintro ⟨_, _, e⟩; cases e
    | @closedAlready h _ hh hw ho' =>
      refine ⟨ser_set hg hs hh (fun v t e => hs.writer p h v t hh e), fun g hg' => ?_⟩
      rw [set_handles, if_pos rfl] at hg'
      injection hg' with hg'; subst hg'
      rintro ⟨v, t, e⟩
      have := ((hg.fits p h hh).writer v t e).2
      rw [ho'] at this; cases this
    | refused hh hw hx => cases hx
    | writeDies hh hw hx => cases hx
  have nof : (∀ i, c ≠ .find i) → (∀ m, c ≠ .open_ m) → f = false := by
    intro h1 h2
    cases f with
    | false => rfl
    | true =>
      rcases hc.1 rfl with ⟨i, e⟩ | ⟨m, e⟩
      · exact absurd e (h1 i)
      · exact absurd e (h2 m)
  have lv : c.leaves = true → ∀ {h}, w.handles p = some h → h.nesting = 0 := fun hl h hh => by rw [← depth hh]; exact hc.2.2 hl
  cases hd with
  | wait => rw [change_blocked]; exact hs
  | openFails => exact hs
  | @opens m h1 h2 => exact opened h2 rfl
  | @resumes h m hh hm h2 => exact opened h2 rfl
  | @resumeFails h m hh hm => exact ser_set hg hs hh (fun v t hx => hs.writer p h v t hh hx)
  | dies _ => exact absurd rfl hc.2.1
  | @closeNull h f hh a b' hx => exact (closeCase (.closeNull hh a b' hx) (fun e => by cases e) (nof (fun _ e => by cases e) (fun _ e => by cases e)) ⟨h, hh, lv rfl hh⟩).1
  | @closes h f hh a b' hx => exact (closeCase (.closes hh a b' hx) (fun e => by cases e) (nof (fun _ e => by cases e) (fun _ e => by cases e)) ⟨h, hh, lv rfl hh⟩).1
  | @closedAlready h f hh a b' => exact (closeCase (.closedAlready hh a b') (fun e => by cases e) (nof (fun _ e => by cases e) (fun _ e => by cases e)) ⟨h, hh, lv rfl hh⟩).1
  | @destroys f w1 o hex hob hd =>
    obtain ⟨h, hh, _⟩ := hex
    obtain ⟨k1, k2⟩ := closeCase hd hob (nof (fun _ e => by cases e) (fun _ e => by cases e)) ⟨h, hh, lv rfl hh⟩
    exact ser_gone (good_does hg hd) k1 k2
  | reopenNull _ _ _ => exact hs
  | @refreshes h c hh hw hwr hx => exact ser_set hg hs hh (fun _ _ e => by cases e)
  | refreshFails => exact hs
  | @reopenFails h m hh hw hx => cases nof (fun _ e => by cases e) (fun _ e => by cases e)
  | @reopens h m hh hw hx => exact ser_close ho hs hh (lv rfl hh) (fun _ _ e => by cases e)
  | @beginNested h f hh hw h1 => exact ser_set hg hs hh (fun v t hx => hs.writer p h v t hh hx)
  | @begins h f v hh hw h1 h2 hx => exact ser_set hg hs hh (fun v' t e => by cases e; exact hs.writer p h v _ hh hx)
  | beginFails => exact hs
  | endUnbalanced _ _ => exact hs
  | @endNested h f hh hw h1 h2 => exact ser_set hg hs hh (fun v t hx => hs.writer p h v t hh hx)
  | @endLate h v hh hw h1 h2 hx => cases nof (fun _ e => by cases e) (fun _ e => by cases e)
  | @ends h v hh hw h1 h2 hx => exact ser_set hg hs hh (fun v' t e => by cases e; exact hs.writer p h v _ hh hx)
  | endFails => exact hs
  | revision _ _ => exact hs
  | @refused h _ _ hh hw hx hn =>
    rw [change_failed c hn]; exact hs
  | @writeDies h _ _ hh hw hx hn hor =>
    have hf : f = false := nof (fun _ e => by subst e; cases hx) (fun _ e => by subst e; cases hx)
    rw [change_dies]
    rcases hor with hor | hor
    · rw [hf] at hor; cases hor
    · exact ser_gone hg hs (nw hh hor)
  | confFails _ _ => exact hs
  | @puts h id b' v t hh hw h1 hx =>
    refine ser_write hg hh ⟨_, _, hx⟩ (fun v' t' e => ?_)
    cases e
    rw [bodies_put, hs.writer p h v _ hh hx]
    rfl
  | @removes h id v t hh hw h1 hx =>
    refine ser_write hg hh ⟨_, _, hx⟩ (fun v' t' e => ?_)
    cases e
    rw [bodies_remove, hs.writer p h v _ hh hx]
    rfl
  | @sets h k v c t hh hw h1 hx =>
    refine ser_write hg hh ⟨_, _, hx⟩ (fun v' t' e => ?_)
    cases e
    exact hs.writer p h c _ hh hx
  | conf _ _ => exact hs
  | @findNull h id f hh hw hx => exact ser_gone hg hs (nw hh (fun _ _ e => by rw [hx] at e; cases e))
  | findFails => exact hs
  | findsReader _ _ _ => exact hs
  | findsWriter _ _ _ => exact hs
  | @flushes h f v hh hw hx =>
    have hl := (hg.lock p).2 ⟨h, hh, _, _, hx⟩
    exact ⟨(fun e => by rw [hl] at e; cases e), hs.writer⟩

theorem careful_proper {w : World} {e : Event} (h : Careful w e) : Proper w e := by
  refine ⟨fun m hm => h.2.2 (by rw [hm]; rfl), fun hm => ?_⟩
  cases hf : e.fault with
  | false => rfl
  | true =>
    rcases h.1 hf with ⟨i, e'⟩ | ⟨m, e'⟩ <;> (rw [hm] at e'; cases e')

theorem ser_run : ∀ (es : List Event) {w : World} {b : Nat → Option Str}, Sound w → AllCareful w es → Ser b w → Ser (apply (changes w es) b) (run w es)
  | [], _, _, _, _, h => h
  | e :: es, w, b, ho, hc, h => by
    have hd := step_does w e.who e.call e.fault
    have := ser_run es (sound_does ho (careful_proper hc.1) hd) hc.2 (ser_does (p := e.who) (c := e.call) (f := e.fault) ho hc.1 h hd)
    rw [changes, apply_append]
    exact this

/-! ## Atomic sections -/

theorem disk_does {w w' : World} {p q : Nat} {c : Call} {f : Bool} {o : Out} (ho : Sound w) (hi : InSection w p) (hd : Does w q c f w' o) : w'.disk = w.disk := by
  obtain ⟨h, v, t, hh, hx, hn⟩ := hi
  have ht : t = true := ((ho.tidy p h hh).trans v t hx).2 hn
  subst ht
  have no : ∀ {g : Handle} {u : Content}, w.handles q = some g → g.xdb ≠ .writer u false := by
    intro g u hg hu
    have := good_unique ho.good hg hh ⟨_, _, hu⟩ ⟨_, _, hx⟩
    subst this
    rw [hh] at hg; injection hg with hg; subst hg
    rw [hx] at hu; cases hu
  have cl : ∀ {g : Handle} {f : Bool}, w.handles q = some g → closedDisk w.disk g.xdb f = w.disk := by
    intro g f hg
    unfold closedDisk
    split
    · rename_i u hu; exact absurd hu (no hg)
    · rfl
  induction hd with
  | closes hg _ _ _ => rw [set_disk, xclose_disk]; exact cl hg
  | reopenFails hg _ _ => rw [set_disk, xclose_disk]; exact cl hg
  | reopens hg _ _ => rw [set_disk, xclose_disk]; exact cl hg
  | destroys _ _ _ ih => rw [gone_disk]; exact ih
  | flushes hg _ hu => exact absurd hu (no hg)
  | _ => rfl

/-! ## What a program keeps -/

/-- A handle that can only read, with what was there. -/
def Snap (c : Content) (r : Nat) (k : Str → Str) (w : World) (p : Nat) : Prop :=
  ∀ h, w.handles p = some h → (h.xdb = .reader c ∨ h.xdb = .closed) ∧ h.waits = none ∧ h.writable = false ∧ h.revision = r ∧ h.conf = k

theorem snap_does {c : Content} {r : Nat} {k : Str → Str} {w w' : World} {p q : Nat} {cl : Call} {f : Bool} {o : Out} (hs : Snap c r k w p)
    (hq : q = p → (∀ m, cl ≠ .open_ m) ∧ ∀ m, cl ≠ .reopen m) (hd : Does w q cl f w' o) : Snap c r k w' p := by
  by_cases e : q = p
  · subst e
    obtain ⟨q1, q2⟩ := hq rfl
    have none_ : ∀ {w0 : World}, Snap c r k (w0.gone q) q := fun {w0} h hh => by rw [gone_handles, if_pos rfl] at hh; cases hh
    have upd : ∀ {h h' : Handle}, w.handles q = some h → (h'.xdb = h.xdb ∨ h'.xdb = .closed) → h'.waits = h.waits → h'.writable = h.writable → h'.revision = h.revision → h'.conf = h.conf →
        Snap c r k (w.set q (some h')) q := by
      intro h h' hh hx h1 h2 h3 h4 g hg
      rw [set_handles, if_pos rfl] at hg
      injection hg with hg; subst hg
      obtain ⟨a1, a2, a3, a4, a5⟩ := hs h hh
      exact ⟨by rcases hx with hx | hx <;> rw [hx]; exact a1; exact .inr rfl, by rw [h1, a2], by rw [h2, a3], by rw [h3, a4], by rw [h4, a5]⟩
    have nwr : ∀ {h : Handle}, w.handles q = some h → ensureWritable h ≠ .success := by
      intro h hh
      unfold ensureWritable
      rw [(hs h hh).2.2.1]
      simp
    cases hd with
    | opens => exact absurd rfl (q1 _)
    | resumes hh hm => rw [(hs _ hh).2.1] at hm; cases hm
    | resumeFails hh hm => rw [(hs _ hh).2.1] at hm; cases hm
    | dies => exact none_
    | closeNull => exact none_
    | @closes h _ hh hw ho hx =>
      intro g hg
      rw [set_handles, if_pos rfl] at hg
      injection hg with hg; subst hg
      obtain ⟨a1, a2, a3, a4, a5⟩ := hs h hh
      exact ⟨.inr rfl, a2, a3, a4, a5⟩
    | closedAlready hh hw ho => exact upd hh (.inl rfl) rfl rfl rfl rfl
    | destroys => exact none_
    | refreshes => exact absurd rfl (q2 _)
    | reopenFails => exact absurd rfl (q2 _)
    | reopens => exact absurd rfl (q2 _)
    | beginNested hh hw h1 => exact upd hh (.inl rfl) rfl rfl rfl rfl
    | begins hh hw h1 h2 hx => rw [(hs _ hh).2.2.1] at h1; cases h1
    | endNested hh hw h1 h2 => exact upd hh (.inl rfl) rfl rfl rfl rfl
    | endLate hh hw h1 h2 hx => rw [(hs _ hh).2.2.1] at h1; cases h1
    | ends hh hw h1 h2 hx => rw [(hs _ hh).2.2.1] at h1; cases h1
    | writeDies => exact none_
    | puts hh hw h1 hx => exact absurd h1 (nwr hh)
    | removes hh hw h1 hx => exact absurd h1 (nwr hh)
    | sets hh hw h1 hx => exact absurd h1 (nwr hh)
    | findNull => exact none_
    | flushes => exact hs
    | _ => exact hs
  · intro h hh
    rw [others_does hd (fun h => e h.symm)] at hh
    exact hs h hh

theorem snap_run {c : Content} {r : Nat} {k : Str → Str} {p : Nat} : ∀ (es : List Event) {w : World}, Keeps p es → Snap c r k w p → Snap c r k (run w es) p
  | [], _, _, h => h
  | e :: es, w, hk, h =>
    snap_run es (fun e' he' => hk e' (List.mem_cons_of_mem _ he')) (snap_does h (hk e List.mem_cons_self) (step_does w e.who e.call e.fault))

/-- A handle that is closed. -/
def Shut (w : World) (p : Nat) : Prop := ∀ h, w.handles p = some h → h.isOpen = false ∧ h.xdb = .closed ∧ h.waits = none

theorem shut_does {w w' : World} {p q : Nat} {cl : Call} {f : Bool} {o : Out} (hs : Shut w p)
    (hq : q = p → (∀ m, cl ≠ .open_ m) ∧ ∀ m, cl ≠ .reopen m) (hd : Does w q cl f w' o) : Shut w' p := by
  by_cases e : q = p
  · subst e
    obtain ⟨q1, q2⟩ := hq rfl
    have none_ : ∀ {w0 : World}, Shut (w0.gone q) q := fun {w0} h hh => by rw [gone_handles, if_pos rfl] at hh; cases hh
    have upd : ∀ {h h' : Handle}, w.handles q = some h → h'.xdb = h.xdb → h'.waits = h.waits → h'.isOpen = h.isOpen → Shut (w.set q (some h')) q := by
      intro h h' hh h1 h2 h3 g hg
      rw [set_handles, if_pos rfl] at hg
      injection hg with hg; subst hg
      obtain ⟨a1, a2, a3⟩ := hs h hh
      exact ⟨by rw [h3, a1], by rw [h1, a2], by rw [h2, a3]⟩
    cases hd with
    | opens => exact absurd rfl (q1 _)
    | resumes hh hm => rw [(hs _ hh).2.2] at hm; cases hm
    | resumeFails hh hm => rw [(hs _ hh).2.2] at hm; cases hm
    | dies => exact none_
    | closeNull => exact none_
    | closes hh hw ho hx => rw [(hs _ hh).1] at ho; cases ho
    | @closedAlready h _ hh hw ho => exact upd hh rfl rfl ho.symm
    | destroys => exact none_
    | refreshes => exact absurd rfl (q2 _)
    | reopenFails => exact absurd rfl (q2 _)
    | reopens => exact absurd rfl (q2 _)
    | beginNested hh hw h1 => exact upd hh rfl rfl rfl
    | begins hh hw h1 h2 hx => rw [(hs _ hh).2.1] at hx; cases hx
    | endNested hh hw h1 h2 => exact upd hh rfl rfl rfl
    | endLate hh hw h1 h2 hx => rw [(hs _ hh).2.1] at hx; cases hx
    | ends hh hw h1 h2 hx => rw [(hs _ hh).2.1] at hx; cases hx
    | writeDies => exact none_
    | puts hh hw h1 hx => rw [(hs _ hh).2.1] at hx; cases hx
    | removes hh hw h1 hx => rw [(hs _ hh).2.1] at hx; cases hx
    | sets hh hw h1 hx => rw [(hs _ hh).2.1] at hx; cases hx
    | findNull => exact none_
    | flushes hh hw hx => rw [(hs _ hh).2.1] at hx; cases hx
    | _ => exact hs
  · intro h hh
    rw [others_does hd (fun h => e h.symm)] at hh
    exact hs h hh

theorem shut_run {p : Nat} : ∀ (es : List Event) {w : World}, Keeps p es → Shut w p → Shut (run w es) p
  | [], _, _, h => h
  | e :: es, w, hk, h =>
    shut_run es (fun e' he' => hk e' (List.mem_cons_of_mem _ he')) (shut_does h (hk e List.mem_cons_self) (step_does w e.who e.call e.fault))

end Notmuch.Handles
