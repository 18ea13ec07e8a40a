import Verif.Spec.PyAtomic

namespace Notmuch.PyAtomicProofs
open Notmuch.MessageSync (Db Doc Term Status beginAtomic endAtomic flush writeDoc newRevision replaceDoc)
open Notmuch.PyAtomic Notmuch.PyAtomicSpec

theorem end_closed (cf : Bool) (s : State) : (endAtomicPy cf s).1.opened = s.opened ∧ (endAtomicPy cf s).1.db.disk = s.db.disk ∧
    (endAtomicPy cf s).1.abandoned = s.abandoned := by
  unfold endAtomicPy
  split
  · exact ⟨rfl, rfl, rfl⟩
  · refine ⟨rfl, ?_, rfl⟩
    simp only [endAtomic]
    repeat' split
    all_goals rfl

theorem begin_disk (db : Db) : (beginAtomic db).2.disk = db.disk := by
  unfold beginAtomic
  repeat' split
  all_goals rfl

mutual
/-- A closed database stays as it is on disk. -/
theorem exec_closed (cf : Bool) : ∀ (p : Stmt) (s : State), s.opened = false →
    (exec cf p s).1.opened = false ∧ (exec cf p s).1.db.disk = s.db.disk ∧ (exec cf p s).1.abandoned.length = s.abandoned.length
  | .write id terms, s, h => by simp [exec, h]
  | .raise, s, h => by simp [exec, h]
  | .abort k, s, h => by
    simp only [exec]
    split
    · simp [abortPy, h]
    · exact ⟨h, rfl, rfl⟩
  | .tryPass body, s, h => by
    simp only [exec]
    exact execs_closed cf body s h
  | .atomic body, s, h => by
    simp only [exec]
    split
    · exact ⟨h, rfl, rfl⟩
    · have ih := execs_closed cf body { s with db := (beginAtomic s.db).2, abandoned := false :: s.abandoned } h
      simp only [begin_disk, List.length_cons] at ih
      have hl : ∀ l : List Bool, l.length = s.abandoned.length + 1 → l.tail.length = s.abandoned.length := by
        intro l hl; simp [hl]
      split
      · exact ⟨ih.1, ih.2.1, hl _ ih.2.2⟩
      · have e := end_closed cf { (execs cf body { s with db := (beginAtomic s.db).2, abandoned := false :: s.abandoned }).1 with
            abandoned := (execs cf body { s with db := (beginAtomic s.db).2, abandoned := false :: s.abandoned }).1.abandoned.tail }
        exact ⟨e.1.trans ih.1, e.2.1.trans ih.2.1, (congrArg List.length e.2.2).trans (hl _ ih.2.2)⟩
theorem execs_closed (cf : Bool) : ∀ (ps : List Stmt) (s : State), s.opened = false →
    (execs cf ps s).1.opened = false ∧ (execs cf ps s).1.db.disk = s.db.disk ∧ (execs cf ps s).1.abandoned.length = s.abandoned.length
  | [], s, h => by simp [execs, h]
  | p :: ps, s, h => by
    simp only [execs]
    have h1 := exec_closed cf p s h
    split
    · exact h1
    · have h2 := execs_closed cf ps (exec cf p s).1 h1.1
      exact ⟨h2.1, h2.2.1.trans h1.2.1, h2.2.2.trans h1.2.2⟩
end

/-- Open, writable, in a section. -/
def Good (s : State) : Prop := s.opened = true ∧ s.db.writable = true ∧ s.db.nesting > 0

/-- After a program that was not aborted. -/
def Kept (s s' : State) (ws : List (Nat × List Term)) : Prop :=
  s'.opened = true ∧ s'.abandoned = s.abandoned ∧ s'.db.writable = true ∧ s'.db.needsUpgrade = s.db.needsUpgrade ∧ s'.db.nesting = s.db.nesting ∧
  s'.db.disk = s.db.disk ∧ s'.db.revision = s.db.revision ∧ s'.db.view = changed s.db.view (s.db.revision + 1) ws ∧
  s'.db.dirty = (s.db.dirty || !ws.isEmpty)

/-- After an abort. -/
def Lost (s s' : State) : Prop := s'.opened = false ∧ s'.db.disk = s.db.disk ∧ s'.abandoned.length = s.abandoned.length

theorem Kept.good {s s' : State} {ws} (h : Kept s s' ws) (g : Good s) : Good s' := by
  obtain ⟨h1, h2, h3, h4, h5, -⟩ := h
  exact ⟨h1, h3, h5 ▸ g.2.2⟩

theorem Kept.trans {a b c : State} {v w} (h1 : Kept a b v) (h2 : Kept b c w) : Kept a c (v ++ w) := by
  obtain ⟨a1, a2, a3, a4, a5, a6, a7, a8, a9⟩ := h1
  obtain ⟨b1, b2, b3, b4, b5, b6, b7, b8, b9⟩ := h2
  refine ⟨b1, b2.trans a2, b3, b4.trans a4, b5.trans a5, b6.trans a6, b7.trans a7, ?_, ?_⟩
  · rw [b8, a8, a7]
    unfold changed
    rw [List.foldl_append]
  · rw [b9, a9]
    cases v <;> cases w <;> simp

theorem Lost.trans {a b c : State} {v} (h1 : Kept a b v) (h2 : Lost b c) : Lost a c :=
  ⟨h2.1, h2.2.1.trans h1.2.2.2.2.2.1, h2.2.2.trans (congrArg List.length h1.2.1)⟩

theorem Lost.trans' {a b c : State} (h1 : Lost a b) (h2 : c.opened = false ∧ c.db.disk = b.db.disk ∧ c.abandoned.length = b.abandoned.length) : Lost a c :=
  ⟨h2.1, h2.2.1.trans h1.2.1, h2.2.2.trans h1.2.2⟩

/-- What a program does agrees with its meaning. -/
def Agrees (s : State) (r : State × Bool) (m : List (Nat × List Term) × Outcome) : Prop :=
  (m.2 = .done → Kept s r.1 m.1 ∧ r.2 = false) ∧ (m.2 = .raised → Kept s r.1 m.1 ∧ r.2 = true) ∧ (m.2 = .aborted → Lost s r.1)

theorem Kept.refl (s : State) (h1 : s.opened = true) (h2 : s.db.writable = true) : Kept s s [] :=
  ⟨h1, rfl, h2, rfl, rfl, rfl, rfl, rfl, by simp⟩

mutual
theorem exec_agrees (cf : Bool) : ∀ (p : Stmt) (s : State), Good s → Agrees s (exec cf p s) (meaning s.abandoned.length p)
  | .write id terms, s, g => by
    obtain ⟨g1, g2, g3⟩ := g
    refine ⟨fun _ => ?_, (fun h => by simp [meaning] at h), (fun h => by simp [meaning] at h)⟩
    have hn : s.db.nesting ≠ 0 := by omega
    simp only [exec, g1, g2, meaning, Bool.and_self, if_true]
    refine ⟨⟨rfl, rfl, ?_, ?_, ?_, ?_, ?_, ?_, ?_⟩, trivial⟩ <;> simp [writeDoc, newRevision, replaceDoc, hn, g2, changed]
  | .raise, s, g => ⟨(fun h => by simp [meaning] at h), fun _ => ⟨Kept.refl s g.1 g.2.1, rfl⟩, (fun h => by simp [meaning] at h)⟩
  | .abort k, s, g => by
    obtain ⟨g1, g2, g3⟩ := g
    have hn : s.db.nesting ≠ 0 := by omega
    by_cases hk : k < s.abandoned.length
    · refine ⟨(fun h => by simp [meaning, hk] at h), (fun h => by simp [meaning, hk] at h), fun _ => ?_⟩
      simp only [exec, hk, if_true]
      refine ⟨rfl, ?_, by simp [abortPy]⟩
      simp [abortPy, flush, hn]
    · refine ⟨(fun h => by simp [meaning, hk] at h), fun _ => ?_, (fun h => by simp [meaning, hk] at h)⟩
      simp only [exec, hk, meaning, if_false]
      exact ⟨Kept.refl s g1 g2, trivial⟩
  | .tryPass body, s, g => by
    have ih := execs_agrees cf body s g
    simp only [exec, meaning]
    generalize meanings s.abandoned.length body = m at ih
    obtain ⟨w, o⟩ := m
    obtain ⟨i1, i2, i3⟩ := ih
    refine ⟨?_, ?_, ?_⟩ <;> cases o <;> simp_all
  | .atomic body, s, g => by
    obtain ⟨g1, g2, g3⟩ := g
    have hb : beginAtomic s.db = (.success, { s.db with nesting := s.db.nesting + 1 }) := by simp [beginAtomic, g3]
    have ih := execs_agrees cf body { s with db := { s.db with nesting := s.db.nesting + 1 }, abandoned := false :: s.abandoned }
      ⟨g1, g2, Nat.succ_pos _⟩
    simp only [exec, meaning, hb]
    simp only [List.length_cons] at ih
    have hne : (Status.success != Status.success) = false := rfl
    simp only [hne, if_false, Bool.false_eq_true]
    generalize meanings (s.abandoned.length + 1) body = m at ih
    generalize execs cf body { s with db := { s.db with nesting := s.db.nesting + 1 }, abandoned := false :: s.abandoned } = b at ih
    obtain ⟨w, o⟩ := m
    obtain ⟨b, rb⟩ := b
    obtain ⟨i1, i2, i3⟩ := ih
    have kept : Kept { s with db := { s.db with nesting := s.db.nesting + 1 }, abandoned := false :: s.abandoned } b w →
        b.abandoned.headD false = false ∧ Kept s (endAtomicPy cf { b with abandoned := b.abandoned.tail }).1 w ∧
          (endAtomicPy cf { b with abandoned := b.abandoned.tail }).2 = false := by
      rintro ⟨a1, a2, a3, a4, a5, a6, a7, a8, a9⟩
      simp only at a2 a4 a5 a6 a7 a8 a9
      have e : endAtomic b.db = (.success, { b.db with nesting := b.db.nesting - 1 }) := by
        unfold endAtomic
        rw [if_neg (by omega), if_pos (Or.inr (by omega))]
      have e2 : endAtomicPy cf { b with abandoned := b.abandoned.tail } =
          ({ db := { b.db with nesting := b.db.nesting - 1 }, opened := b.opened, abandoned := b.abandoned.tail }, false) := by
        unfold endAtomicPy
        simp only [a1, e]
        rfl
      refine ⟨by rw [a2]; rfl, ?_, by rw [e2]⟩
      rw [e2]
      exact ⟨a1, by simp [a2], a3, a4, by simp [a5], a6, a7, a8, a9⟩
    refine ⟨?_, ?_, ?_⟩
    · intro ho
      obtain ⟨k, r⟩ := i1 ho
      obtain ⟨k1, k2, k3⟩ := kept k
      simp only at r
      simp only [k1, k3, r]
      exact ⟨k2, rfl⟩
    · intro ho
      obtain ⟨k, r⟩ := i2 ho
      obtain ⟨k1, k2, k3⟩ := kept k
      simp only at r
      simp only [k1, k3, r]
      exact ⟨k2, rfl⟩
    · intro ho
      obtain ⟨l1, l2, l3⟩ := i3 ho
      simp only [List.length_cons] at l1 l2 l3
      split
      · exact ⟨l1, l2, by simp [l3]⟩
      · have e := end_closed cf { b with abandoned := b.abandoned.tail }
        exact ⟨e.1.trans l1, e.2.1.trans l2, (congrArg List.length e.2.2).trans (by simp [l3])⟩
theorem execs_agrees (cf : Bool) : ∀ (ps : List Stmt) (s : State), Good s → Agrees s (execs cf ps s) (meanings s.abandoned.length ps)
  | [], s, g => ⟨fun _ => ⟨Kept.refl s g.1 g.2.1, rfl⟩, (fun h => by simp [meanings] at h), (fun h => by simp [meanings] at h)⟩
  | p :: ps, s, g => by
    have h1 := exec_agrees cf p s g
    simp only [execs, meanings]
    generalize meaning s.abandoned.length p = m at h1
    generalize exec cf p s = r at h1
    obtain ⟨w, o⟩ := m
    obtain ⟨s', b⟩ := r
    obtain ⟨i1, i2, i3⟩ := h1
    cases o with
    | done =>
      obtain ⟨k, e⟩ := i1 rfl
      simp only at k e
      subst e
      have h2 := execs_agrees cf ps s' (k.good g)
      rw [k.2.1] at h2
      obtain ⟨j1, j2, j3⟩ := h2
      simp only [if_true, Bool.false_eq_true, if_false]
      exact ⟨fun h => ⟨k.trans (j1 h).1, (j1 h).2⟩, fun h => ⟨k.trans (j2 h).1, (j2 h).2⟩, fun h => Lost.trans k (j3 h)⟩
    | raised =>
      obtain ⟨k, e⟩ := i2 rfl
      simp only at k e
      subst e
      exact ⟨(fun h => by cases h), fun _ => ⟨k, rfl⟩, (fun h => by cases h)⟩
    | aborted =>
      have l := i3 rfl
      refine ⟨(fun h => by simp at h), (fun h => by simp at h), fun _ => ?_⟩
      simp only at l
      cases b with
      | true => exact l
      | false => exact Lost.trans' l (execs_closed cf ps s' l.1)
end

end Notmuch.PyAtomicProofs
