import Verif.Spec.NewFront
import Verif.Proofs.TermList

namespace Notmuch.NewFront
open Notmuch.New (Path Kind Env Db Op)

/-! ## The counts of the report -/

theorem hasMessage_iff {M : Type} [DecidableEq M] (mid : Path → Str → M) (files : List (Path × Str)) (m : M) :
    hasMessage mid files m = true ↔ ∃ p n, (p, n) ∈ files ∧ mid p n = m := by
  simp [hasMessage]

/-- The messages of a list of files. -/
def MsgsOf {M : Type} (mid : Path → Str → M) (files : List (Path × Str)) (l : List M) : Prop := l.Nodup ∧ ∀ m, m ∈ l ↔ ∃ p n, (p, n) ∈ files ∧ mid p n = m

theorem msgs_exist {M : Type} [DecidableEq M] (mid : Path → Str → M) : ∀ files : List (Path × Str), ∃ l, MsgsOf mid files l
  | [] => ⟨[], List.nodup_nil, fun m => by simp⟩
  | (d, n) :: fs => by
    obtain ⟨l, h1, h2⟩ := msgs_exist mid fs
    by_cases h : mid d n ∈ l
    · refine ⟨l, h1, fun m => ?_⟩
      rw [h2]
      constructor
      · rintro ⟨p, k, hk, e⟩; exact ⟨p, k, by simp [hk], e⟩
      · rintro ⟨p, k, hk, e⟩
        rcases List.mem_cons.1 hk with hk | hk
        · injection hk with e1 e2
          subst e1; subst e2; subst e
          exact (h2 _).1 h
        · exact ⟨p, k, hk, e⟩
    · refine ⟨mid d n :: l, List.nodup_cons.2 ⟨h, h1⟩, fun m => ?_⟩
      rw [List.mem_cons, h2]
      constructor
      · rintro (rfl | ⟨p, k, hk, e⟩)
        · exact ⟨d, n, by simp, rfl⟩
        · exact ⟨p, k, by simp [hk], e⟩
      · rintro ⟨p, k, hk, e⟩
        rcases List.mem_cons.1 hk with hk | hk
        · injection hk with e1 e2
          subst e1; subst e2; subst e
          exact .inl rfl
        · exact .inr ⟨p, k, hk, e⟩

theorem same_length {A : Type} {l k : List A} (hl : l.Nodup) (hk : k.Nodup) (h : ∀ x, x ∈ l ↔ x ∈ k) : l.length = k.length :=
  ((List.perm_ext_iff_of_nodup hl hk).2 h).length_eq

/-- What one change does to the numbers of messages and of files. -/
theorem countOp_msgs {M : Type} [DecidableEq M] (mid : Path → Str → M) (st : List (Path × Str) × Counts) (o : Op) {l k : List M}
    (hl : MsgsOf mid st.1 l) (hk : MsgsOf mid (countOp mid st o).1 k) : k.length + (countOp mid st o).2.removed + st.2.added = l.length + (countOp mid st o).2.added + st.2.removed := by
  have same : st.1 = (countOp mid st o).1 → k.length = l.length := by
    intro h
    rw [← h] at hk
    exact same_length hk.1 hl.1 (fun x => by rw [hk.2, hl.2])
  cases o with
  | deleteDir d => have := same rfl; simp only [countOp]; omega
  | setMtime d t => have := same rfl; simp only [countOp]; omega
  | add d n =>
    by_cases h : hasMessage mid st.1 (mid d n) = true
    · have e : k.length = l.length := by
        refine same_length hk.1 hl.1 (fun x => ?_)
        rw [hk.2, hl.2]
        simp only [countOp]
        split
        · rfl
        · constructor
          · rintro ⟨p, m, hm, e⟩
            rcases List.mem_cons.1 hm with hm | hm
            · injection hm with e1 e2
              subst e1; subst e2; subst e
              exact (hasMessage_iff mid _ _).1 h
            · exact ⟨p, m, hm, e⟩
          · rintro ⟨p, m, hm, e⟩
            exact ⟨p, m, by simp [hm], e⟩
      simp only [countOp, h, if_true]
      omega
    · have hn : (d, n) ∉ st.1 := fun hh => h ((hasMessage_iff mid _ _).2 ⟨d, n, hh, rfl⟩)
      have hx : mid d n ∉ l := fun hh => h ((hasMessage_iff mid _ _).2 ((hl.2 _).1 hh))
      have e : k.length = (mid d n :: l).length := by
        refine same_length hk.1 (List.nodup_cons.2 ⟨hx, hl.1⟩) (fun x => ?_)
        rw [hk.2, List.mem_cons, hl.2]
        simp only [countOp, hn, if_false]
        constructor
        · rintro ⟨p, m, hm, e⟩
          rcases List.mem_cons.1 hm with hm | hm
          · injection hm with e1 e2
            subst e1; subst e2; subst e
            exact .inl rfl
          · exact .inr ⟨p, m, hm, e⟩
        · rintro (rfl | ⟨p, m, hm, e⟩)
          · exact ⟨d, n, by simp, rfl⟩
          · exact ⟨p, m, by simp [hm], e⟩
      simp only [countOp, h, List.length_cons] at e ⊢
      simp
      omega
  | removeFile d n =>
    by_cases hn : (d, n) ∈ st.1
    · have hm1 : ∀ x, (∃ p m, (p, m) ∈ st.1.filter (· ≠ (d, n)) ∧ mid p m = x) ↔ ∃ p m, (p, m) ∈ st.1 ∧ (p, m) ≠ (d, n) ∧ mid p m = x := by
        intro x
        constructor
        · rintro ⟨p, m, h, e⟩
          rw [List.mem_filter, decide_eq_true_iff] at h
          exact ⟨p, m, h.1, h.2, e⟩
        · rintro ⟨p, m, h, h', e⟩
          exact ⟨p, m, by rw [List.mem_filter, decide_eq_true_iff]; exact ⟨h, h'⟩, e⟩
      have hk2 : ∀ x, x ∈ k ↔ ∃ p m, (p, m) ∈ st.1 ∧ (p, m) ≠ (d, n) ∧ mid p m = x := by
        intro x
        rw [hk.2, ← hm1]
        simp only [countOp, hn, if_true]
      by_cases h : hasMessage mid (st.1.filter (· ≠ (d, n))) (mid d n) = true
      · have e : k.length = l.length := by
          refine same_length hk.1 hl.1 (fun x => ?_)
          rw [hk2, hl.2]
          constructor
          · rintro ⟨p, m, a, _, c⟩; exact ⟨p, m, a, c⟩
          · rintro ⟨p, m, a, c⟩
            by_cases hh : (p, m) = (d, n)
            · injection hh with e1 e2
              subst e1; subst e2; subst c
              exact (hm1 _).1 ((hasMessage_iff mid _ _).1 h)
            · exact ⟨p, m, a, hh, c⟩
        simp only [countOp, hn, h, if_true]
        omega
      · have hx : mid d n ∉ k := by
          rw [hk2, ← hm1]
          exact fun hh => h ((hasMessage_iff mid _ _).2 hh)
        have e : l.length = (mid d n :: k).length := by
          refine same_length hl.1 (List.nodup_cons.2 ⟨hx, hk.1⟩) (fun x => ?_)
          rw [List.mem_cons, hk2, hl.2]
          constructor
          · rintro ⟨p, m, a, c⟩
            by_cases hh : (p, m) = (d, n)
            · injection hh with e1 e2
              subst e1; subst e2; subst c
              exact .inl rfl
            · exact .inr ⟨p, m, a, hh, c⟩
          · rintro (rfl | ⟨p, m, a, _, c⟩)
            · exact ⟨d, n, hn, rfl⟩
            · exact ⟨p, m, a, c⟩
        simp only [countOp, hn, h, if_true, List.length_cons] at e ⊢
        simp
        omega
    · have := same (by simp only [countOp, hn, if_false])
      simp only [countOp, hn, if_false]
      omega

theorem counts_fold {M : Type} [DecidableEq M] (mid : Path → Str → M) : ∀ (ops : List Op) (st : List (Path × Str) × Counts) {l k : List M},
    MsgsOf mid st.1 l → MsgsOf mid (ops.foldl (countOp mid) st).1 k →
    k.length + (ops.foldl (countOp mid) st).2.removed + st.2.added = l.length + (ops.foldl (countOp mid) st).2.added + st.2.removed
  | [], st, l, k, hl, hk => by
    have : k.length = l.length := same_length hk.1 hl.1 (fun x => by rw [hk.2, hl.2]; rfl)
    simp only [List.foldl_nil]
    omega
  | o :: os, st, l, k, hl, hk => by
    obtain ⟨j, hj⟩ := msgs_exist mid (countOp mid st o).1
    have h1 := countOp_msgs mid st o hl hj
    have h2 := counts_fold mid os (countOp mid st o) hj hk
    simp only [List.foldl_cons] at h2 ⊢
    omega

/-- The files that are counted are those of the database. -/
theorem files_op {db : Db} {M : Type} [DecidableEq M] (mid : Path → Str → M) (st : List (Path × Str) × Counts) (o : Op) (h : FilesOf db st.1) :
    FilesOf (db.apply o) (countOp mid st o).1 := by
  cases o with
  | deleteDir d => exact ⟨h.1, fun p n => h.2 p n⟩
  | setMtime d t => exact ⟨h.1, fun p n => h.2 p n⟩
  | add d n =>
    have mem : ∀ p m, m ∈ (db.addFile d n).files p ↔ (p, m) = (d, n) ∨ m ∈ db.files p := by
      intro p m
      simp only [New.Db.addFile]
      by_cases hp : p = d
      · subst hp
        simp [TermList.mem_addTerm]
      · rw [if_neg hp]
        simp [hp]
    simp only [countOp]
    split
    · rename_i hn
      refine ⟨h.1, fun p m => ?_⟩
      show _ ↔ m ∈ (db.addFile d n).files p
      rw [mem, h.2]
      constructor
      · exact .inr
      · rintro (e | e)
        · injection e with e1 e2
          subst e1; subst e2
          exact (h.2 _ _).1 hn
        · exact e
    · rename_i hn
      refine ⟨List.nodup_cons.2 ⟨hn, h.1⟩, fun p m => ?_⟩
      show _ ↔ m ∈ (db.addFile d n).files p
      rw [mem, List.mem_cons, h.2]
  | removeFile d n =>
    have mem : ∀ p m, m ∈ (db.removeFile d n).files p ↔ (p, m) ≠ (d, n) ∧ m ∈ db.files p := by
      intro p m
      simp only [New.Db.removeFile]
      by_cases hp : p = d
      · subst hp
        simp [and_comm]
      · rw [if_neg hp]
        simp [hp]
    simp only [countOp]
    split
    · refine ⟨h.1.filter _, fun p m => ?_⟩
      show _ ↔ m ∈ (db.removeFile d n).files p
      rw [mem, List.mem_filter, h.2, decide_eq_true_iff, and_comm]
    · rename_i hn
      refine ⟨h.1, fun p m => ?_⟩
      show _ ↔ m ∈ (db.removeFile d n).files p
      rw [mem, h.2]
      constructor
      · intro hm
        refine ⟨fun e => ?_, hm⟩
        rw [← h.2, e] at hm
        exact hn hm
      · exact fun hm => hm.2

theorem files_fold {M : Type} [DecidableEq M] (mid : Path → Str → M) : ∀ (ops : List Op) (db : Db) (st : List (Path × Str) × Counts), FilesOf db st.1 →
    FilesOf (New.after db ops) (ops.foldl (countOp mid) st).1
  | [], _, _, h => h
  | o :: os, db, st, h => files_fold mid os (db.apply o) (countOp mid st o) (files_op mid st o h)

end Notmuch.NewFront
