import Verif.Proofs.PyAtomic

namespace Notmuch.Props
open Notmuch.MessageSync (Db Doc Term Status beginAtomic endAtomic flush writeDoc)
open Notmuch.PyAtomic Notmuch.PyAtomicSpec Notmuch.PyAtomicProofs

/-- C85: `with db.atomic()` in a Python program, with other sections, exceptions and aborts inside.
If nothing was aborted, then however it was left the section is ended, the changes made up to an exception that was not caught, and no others, are in the
database, all with the same new revision, which is the one revision the section counts for (none if nothing was changed); an exception is passed on.
If a section was aborted, that or one inside, the database is closed and nothing of it is on disk. -/
theorem C85_section (cf : Bool) (body : List Stmt) (s : State) (ho : s.opened = true) (ha : s.abandoned = []) (hw : s.db.writable = true)
    (hu : s.db.needsUpgrade = false) (hn : s.db.nesting = 0) (hd : s.db.dirty = false) :
    let m := meanings 1 body
    let r := exec cf (.atomic body) s
    (m.2 ≠ .aborted → r.1.opened = true ∧ r.1.db.nesting = 0 ∧ r.1.db.view = changed s.db.view (s.db.revision + 1) m.1 ∧
      r.1.db.revision = s.db.revision + (if m.1 = [] then 0 else 1) ∧ (r.2 = true ↔ m.2 = .raised)) ∧
    (m.2 = .aborted → r.1.opened = false) ∧ r.1.db.disk = s.db.disk := by
  dsimp only
  have hb : beginAtomic s.db = (.success, { s.db with nesting := s.db.nesting + 1 }) := by simp [beginAtomic, hn, hw, hu]
  have ih := execs_agrees cf body { s with db := { s.db with nesting := s.db.nesting + 1 }, abandoned := false :: s.abandoned }
    ⟨ho, hw, Nat.succ_pos _⟩
  simp only [ha, List.length_cons, List.length_nil, Nat.zero_add] at ih
  simp only [exec, hb, ha]
  have hne : (Status.success != Status.success) = false := rfl
  simp only [hne, if_false, Bool.false_eq_true]
  generalize meanings 1 body = m at ih
  generalize execs cf body { s with db := { s.db with nesting := s.db.nesting + 1 }, abandoned := [false] } = b at ih
  obtain ⟨w, o⟩ := m
  obtain ⟨b, rb⟩ := b
  obtain ⟨i1, i2, i3⟩ := ih
  have kept : Kept { s with db := { s.db with nesting := s.db.nesting + 1 }, abandoned := [false] } b w →
      b.abandoned.headD false = false ∧ (endAtomicPy cf { b with abandoned := b.abandoned.tail }).2 = false ∧
      (endAtomicPy cf { b with abandoned := b.abandoned.tail }).1.opened = true ∧
      (endAtomicPy cf { b with abandoned := b.abandoned.tail }).1.db.nesting = 0 ∧
      (endAtomicPy cf { b with abandoned := b.abandoned.tail }).1.db.view = changed s.db.view (s.db.revision + 1) w ∧
      (endAtomicPy cf { b with abandoned := b.abandoned.tail }).1.db.revision = s.db.revision + (if w = [] then 0 else 1) ∧
      (endAtomicPy cf { b with abandoned := b.abandoned.tail }).1.db.disk = s.db.disk := by
    rintro ⟨a1, a2, a3, a4, a5, a6, a7, a8, a9⟩
    simp only [hd, hn, Bool.false_or, Nat.zero_add] at a2 a4 a5 a6 a7 a8 a9
    have e : endAtomic b.db = (.success, { b.db with nesting := 0, dirty := false, revision := s.db.revision + (if w = [] then 0 else 1) }) := by
      unfold endAtomic
      rw [if_neg (by omega), if_neg (by rw [a3, a5]; simp), a9, a5, a7]
      cases w with
      | nil =>
        simp only [List.isEmpty_nil, Bool.not_true, if_true, Nat.add_zero, Bool.false_eq_true, if_false]
      | cons x w => simp
    have e2 : endAtomicPy cf { b with abandoned := b.abandoned.tail } =
        ({ db := { b.db with nesting := 0, dirty := false, revision := s.db.revision + (if w = [] then 0 else 1) }, opened := b.opened,
           abandoned := b.abandoned.tail }, false) := by
      unfold endAtomicPy
      simp only [a1, e]
      rfl
    rw [e2]
    exact ⟨by rw [a2]; rfl, rfl, a1, rfl, a8, rfl, a6⟩
  cases o with
  | done =>
    obtain ⟨k, r⟩ := i1 rfl
    obtain ⟨k1, k2, k3, k4, k5, k6, k7⟩ := kept k
    simp only at r
    simp only [k1, k2, r, Bool.false_eq_true, if_false]
    exact ⟨fun _ => ⟨k3, k4, k5, k6, by simp⟩, (fun h => by cases h), k7⟩
  | raised =>
    obtain ⟨k, r⟩ := i2 rfl
    obtain ⟨k1, k2, k3, k4, k5, k6, k7⟩ := kept k
    simp only at r
    simp only [k1, k2, r, Bool.false_eq_true, if_false]
    exact ⟨fun _ => ⟨k3, k4, k5, k6, by simp⟩, (fun h => by cases h), k7⟩
  | aborted =>
    obtain ⟨l1, l2, l3⟩ := i3 rfl
    refine ⟨fun h => absurd rfl h, fun _ => ?_, ?_⟩
    · split
      · exact l1
      · exact (end_closed cf _).1.trans l1
    · split
      · exact l2
      · exact (end_closed cf _).2.1.trans l2

/-- C85: a section whose last statement aborts it is left without an exception. -/
theorem C85_abort_quiet (cf : Bool) (body : List Stmt) (s : State) (ho : s.opened = true) (ha : s.abandoned = []) (hw : s.db.writable = true)
    (hu : s.db.needsUpgrade = false) (hn : s.db.nesting = 0) (hm : (meanings 1 body).2 = .done) :
    (exec cf (.atomic (body ++ [.abort 0])) s).2 = false ∧ (exec cf (.atomic (body ++ [.abort 0])) s).1.opened = false := by
  have hb : beginAtomic s.db = (.success, { s.db with nesting := s.db.nesting + 1 }) := by simp [beginAtomic, hn, hw, hu]
  have ih := execs_agrees cf body { s with db := { s.db with nesting := s.db.nesting + 1 }, abandoned := false :: s.abandoned }
    ⟨ho, hw, Nat.succ_pos _⟩
  have app : ∀ (ps qs : List Stmt) (t : State), (execs cf ps t).2 = false → execs cf (ps ++ qs) t = execs cf qs (execs cf ps t).1 := by
    intro ps qs
    induction ps with
    | nil => intro t _; rfl
    | cons p ps ih =>
      intro t h
      simp only [List.cons_append, execs] at h ⊢
      cases hp : (exec cf p t).2 with
      | true => simp [hp] at h
      | false =>
        simp only [hp, Bool.false_eq_true, if_false] at h ⊢
        exact ih _ h
  simp only [ha, List.length_cons, List.length_nil, Nat.zero_add] at ih
  obtain ⟨k, r⟩ := ih.1 hm
  have hab := k.2.1
  simp only at hab
  have hne : (Status.success != Status.success) = false := rfl
  simp only [exec, hb, ha, hne, if_false, Bool.false_eq_true, app body _ _ r, execs, hab, List.length_cons, List.length_nil, Nat.zero_add,
    Nat.zero_lt_one, if_true, abortPy, List.set_cons_zero, List.headD_cons, and_self]

/-- C85: while a section is open nothing that a program does reaches the disk, so that nothing of the section is left if the program dies. -/
theorem C85_dies (cf : Bool) (ps : List Stmt) (s : State) (ho : s.opened = true) (hw : s.db.writable = true) (hn : s.db.nesting > 0) :
    (execs cf ps s).1.db.disk = s.db.disk := by
  obtain ⟨h1, h2, h3⟩ := execs_agrees cf ps s ⟨ho, hw, hn⟩
  generalize meanings s.abandoned.length ps = m at h1 h2 h3
  obtain ⟨w, o⟩ := m
  cases o with
  | done => exact (h1 rfl).1.2.2.2.2.2.1
  | raised => exact (h2 rfl).1.2.2.2.2.2.1
  | aborted => exact (h3 rfl).2.1

/-- C85: a section that cannot be entered raises, and its body is not run. -/
theorem C85_refused (cf : Bool) (body : List Stmt) (s : State) (hw : s.db.writable = true) (hu : s.db.needsUpgrade = true) (hn : s.db.nesting = 0) :
    exec cf (.atomic body) s = (s, true) := by
  simp [exec, beginAtomic, hw, hu, hn]

/-- C85: revisions of one database are ordered as their numbers. -/
theorem C85_revisions (a b : DbRevision) (h : a.uuid = b.uuid) :
    (a.eq b = true ↔ a = b) ∧ (a.lt b = true ↔ a.rev < b.rev) ∧ (a.le b = true ↔ a.rev ≤ b.rev) ∧ (a.gt b = true ↔ b.rev < a.rev) ∧
    (a.ge b = true ↔ b.rev ≤ a.rev) := by
  obtain ⟨r, u⟩ := a
  obtain ⟨r', u'⟩ := b
  simp only at h
  subst h
  have e : (u != u) = false := by simp
  simp only [DbRevision.eq, DbRevision.lt, DbRevision.le, DbRevision.gt, DbRevision.ge, e, Bool.false_eq_true, if_false, DbRevision.mk.injEq, and_true,
    beq_iff_eq, decide_eq_true_eq, Bool.or_eq_true, Bool.and_eq_true, Bool.not_eq_true', decide_eq_false_iff_not, beq_eq_false_iff_ne]
  refine ⟨?_, ?_, ?_, ?_, ?_⟩ <;> first | omega | trivial

/-- C85, a defect: of revisions of two databases each is greater than the other. -/
theorem C85_two_databases_counterexample (a b : DbRevision) (h : a.uuid ≠ b.uuid) : a.gt b = true ∧ b.gt a = true ∧ a.lt b = false ∧ b.lt a = false := by
  have h' : b.uuid ≠ a.uuid := fun e => h e.symm
  simp [DbRevision.gt, DbRevision.lt, DbRevision.eq, h, h']

/-- C85, what is not to be expected: an exception does not undo the changes of its section. -/
theorem C85_exception_counterexample : ∃ (body : List Stmt) (s : State), s.opened = true ∧ s.abandoned = [] ∧ s.db.writable = true ∧
    s.db.needsUpgrade = false ∧ s.db.nesting = 0 ∧ s.db.dirty = false ∧ (exec true (.atomic body) s).2 = true ∧
    (exec true (.atomic body) s).1.db.view 7 ≠ s.db.view 7 := by
  refine ⟨[.write 7 [], .raise], ⟨⟨true, false, fun _ => none, 0, fun _ => none, 0, 0, 0, false⟩, true, []⟩, rfl, rfl, rfl, rfl, rfl, rfl, ?_, ?_⟩ <;>
    decide +kernel

/-- The hypotheses are met: nested sections, an exception that is caught, and an abort of the outer section in the inner one. -/
theorem C85_example :
    let s : State := ⟨⟨true, false, fun _ => none, 0, fun _ => none, 0, 4, 0, false⟩, true, []⟩
    let r := exec true (.atomic [.write 1 [], .tryPass [.atomic [.write 2 [], .raise, .write 3 []]], .write 1 [.tag [65]]]) s
    let a := exec true (.atomic [.write 1 [], .atomic [.abort 1, .write 2 []], .write 3 []]) s
    r.2 = false ∧ r.1.db.view 1 = some ⟨[.tag [65]], 5⟩ ∧ r.1.db.view 2 = some ⟨[], 5⟩ ∧ r.1.db.view 3 = none ∧ r.1.db.revision = 5 ∧
    a.1.opened = false ∧ a.2 = true ∧ (meanings 1 [.write 1 [], .atomic [.abort 1, .write 2 []], .write 3 []]).2 = .aborted := by
  refine ⟨?_, ?_, ?_, ?_, ?_, ?_, ?_, ?_⟩ <;> decide +kernel

end Notmuch.Props
