import Verif.Proofs.GitTag

/-! # notmuch-git: histories -/

namespace Notmuch.GitProof
open Notmuch.Git Notmuch.GitSpec

theorem sane_pre {E : Env} (h : Sane E) (p : Str) : Sane { E with pre := p } := ⟨h.tree, h.sum, h.hash⟩

theorem honest_pre {E : Env} {p : Str} {c : Option Cache} {db : Db} : Honest { E with pre := p } c db ↔ Honest E c db := Iff.rfl

/-- The shape of a status run. -/
theorem getStatus_shape {E : Env} {r r' : Repo} {db e : Db} {st : Status} (h : getStatus E r db e = some (r', st)) :
    ∃ idx, indexTags E r.cache r.idx db = some idx ∧
      r' = { r with idx := some idx, cache := some ⟨E.pre, e.uuid, e.rev, some (E.sum idx)⟩ } := by
  unfold getStatus at h
  split at h
  · simp at h
  · rename_i idx hi
    split at h
    · simp only [Option.some.injEq, Prod.mk.injEq] at h
      exact ⟨idx, hi, h.1.symm⟩
    · simp at h

theorem honest_status {E : Env} (hE : Sane E) (hp : 126 ∉ E.pre) {r r' : Repo} {db : Db} {st : Status} (hdb : Regular E db)
    (hc : Honest E r.cache db) (h : getStatus E r db db = some (r', st)) :
    Honest E r'.cache db ∧ r'.mcache = r.mcache ∧ r'.head = r.head := by
  obtain ⟨idx, hi, rfl⟩ := getStatus_shape h
  obtain ⟨i, hi', hr⟩ := indexTags_exact hE hp hdb hc r.idx
  rw [hi] at hi'
  simp only [Option.some.injEq] at hi'
  subst hi'
  refine ⟨?_, rfl, rfl⟩
  intro x hx
  simp only [Option.some.injEq] at hx
  subst hx
  exact ⟨idx, db, rfl, hr, hdb.unique, rfl, rfl, later_refl db⟩

theorem honest_commitStatus {E : Env} (hE : Sane E) (r : Repo) (st : Status) : HonestMain E (commitStatus E r st).1.mcache ∧ (commitStatus E r st).1.cache = r.cache := by
  unfold commitStatus
  split
  · refine ⟨?_, rfl⟩
    intro h s e
    simp only [Option.some.injEq, Prod.mk.injEq] at e
    obtain ⟨rfl, rfl⟩ := e
    exact ⟨_, rfl, fun p => by rw [hE.tree]⟩
  · refine ⟨?_, rfl⟩
    intro h s e
    simp only [Option.some.injEq, Prod.mk.injEq] at e
    obtain ⟨rfl, rfl⟩ := e
    exact ⟨_, rfl, fun p => Iff.rfl⟩

/-- **After any history the cache files tell the truth.** -/
theorem history_honest {E : Env} (hE : Sane E) {r : Repo} {db : Db} (h : History E r db) : Honest E r.cache db ∧ HonestMain E r.mcache := by
  induction h with
  | start h1 h2 =>
    constructor
    · intro x hx; rw [h1] at hx; simp at hx
    · intro a b hx; rw [h2] at hx; simp at hx
  | database _ hl ih => exact ⟨honest_later ih.1 hl, ih.2⟩
  | files _ _ _ ih => exact ih
  | head _ _ ih => exact ih
  | lost _ ih => exact ⟨by intro x hx; simp at hx, ih.2⟩
  | lostMain _ ih => exact ⟨ih.1, by intro a b hx; simp at hx⟩
  | status p _ hp hr hs ih =>
    obtain ⟨a, b, _⟩ := honest_status (sane_pre hE p) hp hr (honest_pre.mpr ih.1) hs
    exact ⟨honest_pre.mp a, by rw [b]; exact ih.2⟩
  | commit p force _ hp hr hs ih =>
    unfold Git.commit at hs
    split at hs
    · simp at hs
    · rename_i r1 st h1
      obtain ⟨a, b, _⟩ := honest_status (sane_pre hE p) hp hr (honest_pre.mpr ih.1) h1
      simp only [Option.some.injEq] at hs
      split at hs
      · simp only [Prod.mk.injEq] at hs
        obtain ⟨rfl, _⟩ := hs
        exact ⟨honest_pre.mp a, by rw [b]; exact ih.2⟩
      · split at hs
        · simp only [Prod.mk.injEq] at hs
          obtain ⟨rfl, _⟩ := hs
          exact ⟨honest_pre.mp a, by rw [b]; exact ih.2⟩
        · have := honest_commitStatus (sane_pre hE p) r1 st
          rw [hs] at this
          exact ⟨by rw [this.2]; exact honest_pre.mp a, this.1⟩

/-! ## Counting -/

theorem nodup_eraseDups (l : List Str) : l.eraseDups.Nodup := by
  have key : ∀ n (l : List Str), l.length ≤ n → l.eraseDups.Nodup := by
    intro n
    induction n with
    | zero =>
      intro l hl
      have : l = [] := List.length_eq_zero_iff.mp (Nat.le_zero.mp hl)
      subst this
      simp
    | succ n ih =>
      intro l hl
      cases l with
      | nil => simp
      | cons a l =>
        rw [List.eraseDups_cons, List.nodup_cons]
        constructor
        · rw [List.mem_eraseDups]; simp
        · apply ih
          have := List.length_filter_le (fun b => !b == a) l
          simp only [List.length_cons] at hl
          omega
  exact key l.length l (Nat.le_refl _)

theorem lenDict_eq {l : List (Str × Str)} {ids : List Str} (hn : ids.Nodup) (h : ∀ i, i ∈ ids ↔ ∃ t, (i, t) ∈ l) : lenDict l = ids.length := by
  unfold lenDict
  apply List.Perm.length_eq
  rw [List.perm_ext_iff_of_nodup (nodup_eraseDups _) hn]
  intro a
  rw [mem_eraseDups_fst, h]

end Notmuch.GitProof
