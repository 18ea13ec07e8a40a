import Verif.Proofs.Insert

namespace Notmuch.Insert

/-- The file is in new and that is on disk. -/
structure InNew (fs0 : Fs) (t n msg : Str) (s : Fs) : Prop where
  old : ∀ j, j < fs0.next → s.ino j = fs0.ino j
  msg : s.ino fs0.next = (msg, true)
  ent : s.ent = Op.apply (Op.apply fs0.disk [(t, some fs0.next)]) [(t, none), (n, some fs0.next)]
  disk : s.disk = Op.apply fs0.disk [(t, none), (n, some fs0.next)]
  pending : s.pending = [[(t, some fs0.next)]]
  free : fs0.disk t = none
  ne : t ≠ n

/-- What is known after `maildir_write_new`. -/
def NewDone (E : Env) (fs0 : Fs) (md : Str) : W × Option (Option Str) → Prop
  | (_, none) => True
  | (w, some none) => E.cleanOk = true → ∀ p, w.fs.view p = fs0.view p
  | (w, some (some n)) => ∃ a ∈ E.attempts, n = newOf md a ∧ InNew fs0 (tmpOf md a) n (content true E.reads) w.fs

theorem InNew.inv {fs0 : Fs} {t n msg : Str} {s : Fs} (h : InNew fs0 t n msg s) {T N : Str → Prop} (ht : T t) (hn : N n) : Inv fs0 T N msg s where
  old := h.old
  disk p := by
    rw [h.disk]
    refine apply_allowed (P := Allowed fs0 T N msg s.ino) (fun p => .inl rfl) ?_ p
    intro x hx
    simp only [List.mem_cons, List.not_mem_nil, or_false] at hx
    rcases hx with rfl | rfl
    · exact .inr (.inl ht)
    · exact .inr (.inr ⟨hn, .inr ⟨rfl, h.msg⟩⟩)
  pending o ho x hx := by
    rw [h.pending] at ho
    simp only [List.mem_singleton] at ho
    subst ho
    simp only [List.mem_singleton] at hx
    subst hx
    exact .inr (.inl ht)

theorem InTmp.ent_tmp {fs0 : Fs} {t : Str} {s : Fs} (h : InTmp fs0 t s) : s.ent t = some fs0.next := by rw [h.ent, apply_single, if_pos rfl]

theorem InNew.ent_new {fs0 : Fs} {t n msg : Str} {s : Fs} (h : InNew fs0 t n msg s) : s.ent n = some fs0.next := by
  rw [h.ent, apply_two, if_neg h.ne, if_pos rfl]

/-- Removing the file from new again. -/
theorem ent_unlinked {fs0 : Fs} {t n : Str} (ht : fs0.disk t = none) (hn : fs0.disk n = none) (p : Str) :
    Op.apply (Op.apply (Op.apply fs0.disk [(t, some fs0.next)]) [(t, none), (n, some fs0.next)]) [(n, none)] p = fs0.disk p := by
  rw [apply_single, apply_two, apply_single]
  by_cases h1 : n = p
  · subst h1; simp [hn]
  · by_cases h2 : t = p
    · subst h2; simp [h1, ht]
    · simp [h1, h2]

theorem rename_ne {fs : Fs} {p q : Str} (h : p ≠ q) : fs.rename p q = fs.change [(p, none), (q, fs.ent p)] := if_neg h

theorem touches_tmp (md : Str) (a : Attempt) (x : Option Nat) : touches (md ++ bs "/new") [(tmpOf md a, x)] = false := by
  have : (md ++ bs "/tmp") ≠ md ++ bs "/new" := fun h => absurd (List.append_cancel_left h) (by decide)
  simp [touches, dirOf_tmp, this]

theorem touches_new (md : Str) (a : Attempt) (p : Str) (x y : Option Nat) : touches (md ++ bs "/new") [(p, y), (newOf md a, x)] = true := by
  simp [touches, dirOf_new]

theorem writeNew_spec (E : Env) (md : Str) (fs0 : Fs) (hq : fs0.Quiet) (hok : fs0.Ok) {T N : Str → Prop} (hT : ∀ a ∈ E.attempts, T (tmpOf md a))
    (hN : ∀ a ∈ E.attempts, N (newOf md a)) (hf : ∀ a ∈ E.attempts, fs0.ent (newOf md a) = none) :
    (∀ s ∈ (writeNew E md ⟨fs0, [fs0]⟩).1.trace, Inv fs0 T N (content true E.reads) s) ∧ NewDone E fs0 md (writeNew E md ⟨fs0, [fs0]⟩) := by
  have h := writeTmp_spec E md fs0 hq hok (N := N) (msg := content true E.reads) hT
  rw [writeNew]
  rcases hb : writeTmp E md ⟨fs0, [fs0]⟩ with ⟨w, _ | _ | ⟨t, i⟩⟩ <;> rw [hb] at h
  · exact ⟨h.1, trivial⟩
  · exact ⟨h.1, h.2⟩
  · obtain ⟨h1, a, ha, rfl, rfl, hin, hm⟩ := h
    simp only
    rw [overwrite_tmp]
    split
    · refine ⟨unlinkIf_trace h1 (hin.unlink_inv (hT a ha)), fun hcl p => ?_⟩
      rw [unlinkIf, if_pos hcl]
      exact hin.unlink hq hok p
    · have hne := tmp_ne_new md a a
      rw [rename_ne hne, hin.ent_tmp]
      have hinv : Inv fs0 T N (content true E.reads) (w.fs.change [(tmpOf md a, none), (newOf md a, some fs0.next)]) := by
        refine (hin.inv (hT a ha)).change ?_
        intro x hx
        simp only [List.mem_cons, List.not_mem_nil, or_false] at hx
        rcases hx with rfl | rfl
        · exact .inr (.inl (hT a ha))
        · exact .inr (.inr ⟨hN a ha, .inr ⟨rfl, hm⟩⟩)
      have h2 : ∀ s ∈ (w.put (w.fs.change [(tmpOf md a, none), (newOf md a, some fs0.next)])).trace, Inv fs0 T N (content true E.reads) s := put_trace h1 hinv
      have hent : (w.fs.change [(tmpOf md a, none), (newOf md a, some fs0.next)]).ent =
          Op.apply (Op.apply fs0.disk [(tmpOf md a, some fs0.next)]) [(tmpOf md a, none), (newOf md a, some fs0.next)] := by
        show Op.apply w.fs.ent _ = _
        rw [hin.ent]
      split
      · refine ⟨put_trace h2 (hinv.syncDir _), a, ha, rfl, hin.old, hm, hent, ?_, ?_, hin.free, hne⟩
        · show applyAll w.fs.disk ((w.fs.pending ++ [_]).filter _) = _
          rw [hin.pending, hin.disk]
          simp [touches_tmp, touches_new, applyAll]
        · show (w.fs.pending ++ [_]).filter _ = _
          rw [hin.pending]
          simp [touches_tmp, touches_new]
      · refine ⟨unlinkIf_trace h2 (hinv.change ?_), fun hcl p => ?_⟩
        · intro x hx
          rw [List.mem_singleton.1 hx]
          exact .inr (.inr ⟨hN a ha, .inl rfl⟩)
        · rw [unlinkIf, if_pos hcl]
          refine view_same (s := (w.fs.change [(tmpOf md a, none), (newOf md a, some fs0.next)]).unlink (newOf md a)) hq hok hin.old p ?_
          show Op.apply (w.fs.change _).ent _ p = _
          rw [hent]
          exact ent_unlinked hin.free (by rw [← hq.2]; exact hf a ha) p

/-! ## Indexing -/

/-- The states of the maildir while the file is indexed, and what is there at the end. -/
inductive After (n : Str) (renamed : Option Str) (w : W) : W → Prop
  | same : After n renamed w w
  | moved (q : Str) (h : renamed = some q) : After n renamed w (w.put (w.fs.rename n q))

theorem addDone_w (L : Lib) (o : Opts) (st : Status) (d : D) : (addDone L o st d).2.w = d.w := by
  rw [addDone]; split
  · rfl
  · split
    · rfl
    · simp only; split <;> rfl

theorem addFile_after (L : Lib) (o : Opts) (n : Str) (d : D) : After n L.renamed d.w (addFile L o n d).2.w := by
  have hs : ∀ d : D, After n L.renamed d.w (addSync L o n d).2.w := by
    intro d
    rw [addSync]
    split
    · rw [addDone_w]
      simp only
      cases hr : L.renamed with
      | none => exact .same
      | some q => exact .moved q rfl
    · rw [addDone_w]; exact .same
  rw [addFile]
  split
  · split
    · rw [addDone_w]; exact .same
    · exact hs { d with indexed := true, tagged := true }
  · exact hs { d with indexed := true }
  · exact .same
  · exact .same
  · exact .same

/-- What `notmuch insert` does after the file is in new. -/
theorem indexAndClose_after (L : Lib) (o : Opts) (n : Str) (d : D) : ∃ w, After n L.renamed d.w w ∧
    ((indexAndClose L o n d).1 = .success ∧ (indexAndClose L o n d).2.w = w ∨
     (indexAndClose L o n d).1 ≠ .success ∧ o.keep = false ∧ (indexAndClose L o n d).2.w = unlinkIf L.unlinkOk n w) := by
  refine ⟨_, addFile_after L o n d, ?_⟩
  rw [indexAndClose]
  rcases addFile L o n d with ⟨st, d'⟩
  simp only
  generalize (if L.close ≠ .success ∧ st = .success then L.close else st) = st'
  split
  · exact .inl ⟨rfl, rfl⟩
  · rename_i h
    split
    · exact .inl ⟨rfl, rfl⟩
    · rename_i hk
      refine .inr ⟨?_, by simpa using hk, ?_⟩
      · cases st' <;> simp_all [statusToExit]
      · rw [unlinkIf]; split <;> simp_all

end Notmuch.Insert
