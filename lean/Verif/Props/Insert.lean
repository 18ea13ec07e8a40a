import Verif.Proofs.InsertPath
import Verif.Proofs.InsertRun

/-!
# C41: `notmuch insert` delivers a message completely or not at all

`Fs.Crash` says what may be found after a crash: any change of a directory may be lost, and a file that was not synced may contain anything.
-/

namespace Notmuch.Props
open Notmuch.Insert

private theorem after_inv {fs0 : Fs} {t n msg : Str} {w w' : W} {L : Lib} {T N : Str → Prop} (hT : T t) (hN : N n) (hq : ∀ q, L.renamed = some q → N q)
    (hw : ∀ s ∈ w.trace, Inv fs0 T N msg s) (hn : InNew fs0 t n msg w.fs) (ha : After n L.renamed w w') :
    (∀ s ∈ w'.trace, Inv fs0 T N msg s) ∧ Inv fs0 T N msg w'.fs := by
  have h0 : Inv fs0 T N msg w.fs := hn.inv hT hN
  cases ha with
  | same => exact ⟨hw, h0⟩
  | moved q hr =>
    have : Inv fs0 T N msg (w.fs.rename n q) := by
      by_cases e : n = q
      · rw [Fs.rename, if_pos e]; exact h0
      · rw [rename_ne e, hn.ent_new]
        refine h0.change ?_
        intro x hx
        simp only [List.mem_cons, List.not_mem_nil, or_false] at hx
        rcases hx with rfl | rfl
        · exact .inr (.inr ⟨hN, .inl rfl⟩)
        · exact .inr (.inr ⟨hq q hr, .inr ⟨rfl, hn.msg⟩⟩)
    exact ⟨put_trace hw this, this⟩

/-- **C41.** Whatever `read` and `write` do, whichever system call fails, whatever the library answers, and whenever the machine crashes: what is
found afterwards is what could have been found before, except for files in `tmp`, and except that a new file in `new` (or where it was moved to by
flag synchronization) has the complete message.  No other mail is lost and no part of a message is ever found in `new`. -/
theorem C41_crash (E : Env) (L : Lib) (o : Opts) (fs : Fs) (hq : fs.Quiet) (hok : fs.Ok) (hfree : Free E L fs) (hfrom : FromWhole E.reads)
    (s : Fs) (hs : s ∈ (insertCommand E L o fs).1.w.trace) (v : Str → Option Str) (hv : s.Crash v) :
    ∃ v0, fs.Crash v0 ∧ ∀ p, v p = v0 p ∨ E.tmpName p ∨ ((E.newName p ∨ L.renamed = some p) ∧ v p = some (toDeliver (received E.reads))) := by
  rw [← content_true E.reads hfrom]
  refine Inv.crash (T := E.tmpName) (N := fun p => E.newName p ∨ L.renamed = some p) ?_ hq hok (fun p hp => hp.elim (hfree.1 p) (hfree.2 p)) hv
  have h := writeNew_spec E (maildirOf E.root E.folder) fs hq hok (T := E.tmpName) (N := fun p => E.newName p ∨ L.renamed = some p)
    (fun a ha => ⟨a, ha, rfl⟩) (fun a ha => .inl ⟨a, ha, rfl⟩) (fun a ha => hfree.1 _ ⟨a, ha, rfl⟩)
  rw [insertCommand] at hs
  split at hs
  · rw [List.mem_singleton.1 hs]; exact inv_start hq
  · rcases hb : writeNew E (maildirOf E.root E.folder) ⟨fs, [fs]⟩ with ⟨w, _ | _ | n⟩ <;> rw [hb] at h hs
    · exact h.1 s hs
    · exact h.1 s hs
    · simp only at hs
      split at hs
      · exact h.1 s hs
      · obtain ⟨h1, a, ha, rfl, hn⟩ := h
        obtain ⟨w', hw, hr⟩ := indexAndClose_after L o (newOf (maildirOf E.root E.folder) a) ⟨w, false, false⟩
        have hT : E.tmpName (tmpOf (maildirOf E.root E.folder) a) := ⟨a, ha, rfl⟩
        have hN : E.newName (newOf (maildirOf E.root E.folder) a) := ⟨a, ha, rfl⟩
        have hi := after_inv (T := E.tmpName) (N := fun p => E.newName p ∨ L.renamed = some p) hT (.inl hN) (fun q hq => .inr hq) h1 hn hw
        rcases hc : indexAndClose L o (newOf (maildirOf E.root E.folder) a) ⟨w, false, false⟩ with ⟨e, d⟩
        rw [hc] at hr hs
        rcases hr with ⟨_, hr⟩ | ⟨_, _, hr⟩
        · rw [show d.w = w' from hr] at hs
          exact hi.1 s hs
        · rw [show d.w = _ from hr] at hs
          refine unlinkIf_trace hi.1 (hi.2.change ?_) s hs
          intro x hx
          rw [List.mem_singleton.1 hx]
          exact .inr (.inr ⟨.inl hN, .inl rfl⟩)

/-- **C41.** When the command succeeds the complete message is on disk, in `new` or where flag synchronization moved it: it is found there after any
crash from then on. -/
theorem C41_durable (E : Env) (L : Lib) (o : Opts) (fs : Fs) (hq : fs.Quiet) (hok : fs.Ok) (hfree : Free E L fs) (hfrom : FromWhole E.reads)
    (hs : (insertCommand E L o fs).2 = some .success) (v : Str → Option Str) (hv : (insertCommand E L o fs).1.w.fs.Crash v) :
    ∃ p, (E.newName p ∨ L.renamed = some p) ∧ v p = some (toDeliver (received E.reads)) := by
  rw [← content_true E.reads hfrom]
  have h := writeNew_spec E (maildirOf E.root E.folder) fs hq hok (T := E.tmpName) (N := fun p => E.newName p ∨ L.renamed = some p)
    (fun a ha => ⟨a, ha, rfl⟩) (fun a ha => .inl ⟨a, ha, rfl⟩) (fun a ha => hfree.1 _ ⟨a, ha, rfl⟩)
  rw [insertCommand] at hs hv
  split at hs
  · cases hs
  · rename_i hval
    rw [if_neg hval] at hv
    rcases hb : writeNew E (maildirOf E.root E.folder) ⟨fs, [fs]⟩ with ⟨w, _ | _ | n⟩ <;> rw [hb] at h hs hv
    · cases hs
    · cases hs
    · simp only at hs hv
      split at hs
      · cases hs
      · rename_i hopt
        rw [if_neg hopt] at hv
        obtain ⟨_, a, ha, rfl, hn⟩ := h
        obtain ⟨w', hw, hr⟩ := indexAndClose_after L o (newOf (maildirOf E.root E.folder) a) ⟨w, false, false⟩
        have hN : E.newName (newOf (maildirOf E.root E.folder) a) := ⟨a, ha, rfl⟩
        rcases hc : indexAndClose L o (newOf (maildirOf E.root E.folder) a) ⟨w, false, false⟩ with ⟨e, d⟩
        rw [hc] at hr hs hv
        rcases hr with ⟨_, hr⟩ | ⟨hr, _⟩
        · rw [show d.w = w' from hr] at hv
          have key : ∀ s : Fs, s.ino = w.fs.ino → ∀ p l, applyAll s.disk l p = some fs.next → (∀ p, match applyAll s.disk l p with
              | none => v p = none
              | some i => ∃ d, v p = some d ∧ ((s.ino i).2 = true → d = (s.ino i).1)) → v p = some (content true E.reads) := by
            intro s he p l hp hv
            have := hv p
            rw [hp] at this
            obtain ⟨d, hd, hi⟩ := this
            rw [he, hn.msg] at hi
            rw [hd, hi rfl]
          have hnew : ∀ l : List Op, l.Sublist w.fs.pending → applyAll w.fs.disk l (newOf (maildirOf E.root E.folder) a) = some fs.next := by
            intro l hl
            rw [hn.pending] at hl
            rw [hn.disk]
            have hbase : Op.apply fs.disk [(tmpOf (maildirOf E.root E.folder) a, none), (newOf (maildirOf E.root E.folder) a, some fs.next)] (newOf (maildirOf E.root E.folder) a) =
                some fs.next := by rw [apply_two, if_neg hn.ne, if_pos rfl]
            cases hl with
            | cons _ h => cases h; exact hbase
            | cons_cons _ h =>
              cases h
              show Op.apply _ _ _ = _
              rw [apply_single, if_neg hn.ne]
              exact hbase
          cases hw with
          | same =>
            obtain ⟨l, hl, hv⟩ := hv
            exact ⟨_, .inl hN, key w.fs rfl _ l (hnew l hl) hv⟩
          | moved q hq =>
            simp only [W.put] at hv
            by_cases e : newOf (maildirOf E.root E.folder) a = q
            · rw [Fs.rename, if_pos e] at hv
              obtain ⟨l, hl, hv⟩ := hv
              exact ⟨_, .inl hN, key w.fs rfl _ l (hnew l hl) hv⟩
            · rw [rename_ne e, hn.ent_new] at hv
              obtain ⟨l, hl, hv⟩ := hv
              have hl' : l.Sublist (w.fs.pending ++ [[(newOf (maildirOf E.root E.folder) a, none), (q, some fs.next)]]) := hl
              obtain ⟨l1, l2, rfl, h1, h2⟩ := List.sublist_append_iff.1 hl'
              cases h2 with
              | cons _ h =>
                cases h
                rw [List.append_nil] at hv
                exact ⟨_, .inl hN, key _ rfl _ l1 (hnew l1 h1) hv⟩
              | cons_cons _ h =>
                cases h
                refine ⟨q, .inr hq, key _ rfl q _ ?_ hv⟩
                show applyAll w.fs.disk (l1 ++ [_]) q = _
                rw [applyAll, List.foldl_append]
                show Op.apply _ _ q = _
                rw [apply_two, if_neg e, if_pos rfl]
        · simp only [Option.some.injEq] at hs
          exact absurd hs hr

/-- **C41.** When the command fails, the mail store is as before: the message can be delivered again without a second copy.  This needs that `unlink`
works, that the options of indexing are right, and that flag synchronization did not move the file before something else failed. -/
theorem C41_failure (E : Env) (L : Lib) (o : Opts) (fs : Fs) (hq : fs.Quiet) (hok : fs.Ok) (hfree : Free E L fs)
    (hclean : E.cleanOk = true ∧ L.unlinkOk = true) (hopt : L.options = .success) (hren : L.renamed = none)
    (e : Exit) (he : e ≠ .success) (hs : (insertCommand E L o fs).2 = some e) (p : Str) : (insertCommand E L o fs).1.w.fs.view p = fs.view p := by
  have h := writeNew_spec E (maildirOf E.root E.folder) fs hq hok (T := E.tmpName) (N := fun p => E.newName p ∨ L.renamed = some p)
    (fun a ha => ⟨a, ha, rfl⟩) (fun a ha => .inl ⟨a, ha, rfl⟩) (fun a ha => hfree.1 _ ⟨a, ha, rfl⟩)
  rw [insertCommand] at hs ⊢
  split at hs
  · rename_i hval
    rw [if_pos hval]
  · rename_i hval
    rw [if_neg hval]
    rcases hb : writeNew E (maildirOf E.root E.folder) ⟨fs, [fs]⟩ with ⟨w, _ | _ | n⟩ <;> rw [hb] at h hs
    · cases hs
    · exact h.2 hclean.1 p
    · simp only at hs ⊢
      rw [if_neg (by simp [hopt])] at hs ⊢
      obtain ⟨_, a, ha, rfl, hn⟩ := h
      obtain ⟨w', hw, hr⟩ := indexAndClose_after L o (newOf (maildirOf E.root E.folder) a) ⟨w, false, false⟩
      rcases hc : indexAndClose L o (newOf (maildirOf E.root E.folder) a) ⟨w, false, false⟩ with ⟨e', d⟩
      rw [hc] at hr hs
      simp only [Option.some.injEq] at hs
      subst hs
      rcases hr with ⟨hr, _⟩ | ⟨_, _, hr⟩
      · exact absurd hr he
      · show d.w.fs.view p = _
        rw [show d.w = _ from hr]
        cases hw with
        | moved q hq => rw [hren] at hq; cases hq
        | same =>
          rw [unlinkIf, if_pos hclean.2]
          refine view_same (s := w.fs.unlink _) hq hok hn.old p ?_
          show Op.apply w.fs.ent _ p = _
          rw [hn.ent]
          exact ent_unlinked hn.free (by rw [← hq.2]; exact hfree.1 _ ⟨a, ha, rfl⟩) p

/-- **C41.** With `--keep` the command only fails when the message could not be written to the maildir (or the indexing options are wrong). -/
theorem C41_keep (E : Env) (L : Lib) (o : Opts) (fs : Fs) (hq : fs.Quiet) (hok : fs.Ok) (hfree : Free E L fs) (hclean : E.cleanOk = true)
    (hopt : L.options = .success) (hkeep : o.keep = true) (e : Exit) (he : e ≠ .success) (hs : (insertCommand E L o fs).2 = some e) (p : Str) :
    (insertCommand E L o fs).1.w.fs.view p = fs.view p := by
  have h := writeNew_spec E (maildirOf E.root E.folder) fs hq hok (T := E.tmpName) (N := fun p => E.newName p ∨ L.renamed = some p)
    (fun a ha => ⟨a, ha, rfl⟩) (fun a ha => .inl ⟨a, ha, rfl⟩) (fun a ha => hfree.1 _ ⟨a, ha, rfl⟩)
  rw [insertCommand] at hs ⊢
  split at hs
  · rename_i hval
    rw [if_pos hval]
  · rename_i hval
    rw [if_neg hval]
    rcases hb : writeNew E (maildirOf E.root E.folder) ⟨fs, [fs]⟩ with ⟨w, _ | _ | n⟩ <;> rw [hb] at h hs
    · cases hs
    · exact h.2 hclean p
    · simp only at hs
      rw [if_neg (by simp [hopt])] at hs
      obtain ⟨w', _, hr⟩ := indexAndClose_after L o n ⟨w, false, false⟩
      rcases hc : indexAndClose L o n ⟨w, false, false⟩ with ⟨e', d⟩
      rw [hc] at hr hs
      simp only [Option.some.injEq] at hs
      subst hs
      rcases hr with ⟨hr, _⟩ | ⟨_, hr, _⟩
      · exact absurd hr he
      · rw [hkeep] at hr; cases hr

/-- **C41.** Without `--keep` success means that the file is in the database, that a message that was new got its tags, and that the changes were
committed. -/
theorem C41_indexed (E : Env) (L : Lib) (o : Opts) (fs : Fs) (hkeep : o.keep = false) (hs : (insertCommand E L o fs).2 = some .success) :
    (insertCommand E L o fs).1.indexed = true ∧ (L.index = .success → (insertCommand E L o fs).1.tagged = true) ∧ L.close = .success := by
  rw [insertCommand] at hs ⊢
  split at hs
  · cases hs
  · rename_i hval
    rw [if_neg hval]
    rcases hb : writeNew E (maildirOf E.root E.folder) ⟨fs, [fs]⟩ with ⟨w, _ | _ | n⟩ <;> rw [hb] at hs
    · cases hs
    · cases hs
    · simp only at hs ⊢
      split at hs
      · cases hs
      · rename_i hopt
        rw [if_neg hopt]
        simp only [Option.some.injEq] at hs
        have hd : ∀ st d, (addDone L o st d).1 = .success → st = .success ∧ (addDone L o st d).2 = d := by
          intro st d h
          rw [addDone] at h ⊢
          split at h
          · rename_i e
            rw [if_pos e]
            exact ⟨e, rfl⟩
          · rename_i e
            rw [hkeep] at h
            exact absurd h e
        have hsync : ∀ d, (addSync L o n d).1 = .success → (addSync L o n d).2.indexed = d.indexed ∧ (addSync L o n d).2.tagged = d.tagged := by
          intro d h
          rw [addSync] at h ⊢
          split at h
          · rename_i e
            rw [if_pos e, (hd _ _ h).2]
            exact ⟨rfl, rfl⟩
          · rename_i e
            rw [if_neg e, (hd _ _ h).2]
            exact ⟨rfl, rfl⟩
        have hadd : (addFile L o n ⟨w, false, false⟩).1 = .success → (addFile L o n ⟨w, false, false⟩).2.indexed = true ∧
            (L.index = .success → (addFile L o n ⟨w, false, false⟩).2.tagged = true) := by
          intro h
          rw [addFile] at h ⊢
          cases hi : L.index <;> rw [hi] at h <;> simp only at h ⊢
          · split at h
            · rename_i ht
              exact absurd (hd _ _ h).1 ht
            · rename_i ht
              rw [if_neg ht]
              exact ⟨(hsync _ h).1, fun _ => (hsync _ h).2⟩
          · exact ⟨(hsync _ h).1, fun h => by cases h⟩
          · cases h
          · cases h
          · cases h
        have hx : ∀ st : Status, statusToExit st = .success → st = .success := by intro st; cases st <;> decide
        rw [indexAndClose] at hs ⊢
        rcases hb : addFile L o n ⟨w, false, false⟩ with ⟨st, d⟩
        rw [hb] at hs hadd
        simp only [hkeep] at hs ⊢
        by_cases hc : L.close = .success
        · simp only [hc, ne_eq, not_true_eq_false, false_and, if_false] at hs ⊢
          by_cases hst : st = .success
          · rw [if_pos hst]
            exact ⟨(hadd hst).1, (hadd hst).2, trivial⟩
          · rw [if_neg hst] at hs
            exact absurd (hx st hs) hst
        · exfalso
          have : (if L.close ≠ .success ∧ st = .success then L.close else st) ≠ .success := by
            split
            · exact hc
            · rename_i h
              exact fun e => h ⟨hc, e⟩
          rw [if_neg this] at hs
          exact this (hx _ hs)

/-- **C41.** A message that cannot be tagged or whose flags cannot be synchronized is taken out of the database again. -/
theorem C41_not_indexed (E : Env) (L : Lib) (o : Opts) (fs : Fs) (hclose : L.close = .success) (hrem : L.remove = .success ∨ L.remove = .duplicate)
    (e : Exit) (he : e ≠ .success) (hs : (insertCommand E L o fs).2 = some e) : (insertCommand E L o fs).1.indexed = false := by
  rw [insertCommand] at hs ⊢
  split at hs
  · rename_i hval
    rw [if_pos hval]
  · rename_i hval
    rw [if_neg hval]
    rcases hb : writeNew E (maildirOf E.root E.folder) ⟨fs, [fs]⟩ with ⟨w, _ | _ | n⟩ <;> rw [hb] at hs
    · simp only at hs ⊢
      split at hs
      · rename_i hopt
        rw [if_pos hopt]
      · rename_i hopt
        rw [if_neg hopt]
        simp only [Option.some.injEq] at hs
        have hd : ∀ st d, (addDone L o st d).1 ≠ .success → (addDone L o st d).2.indexed = false := by
          intro st d h
          rw [addDone] at h ⊢
          split at h
          · exact absurd rfl h
          · rename_i e1
            rw [if_neg e1]
            split at h
            · exact absurd rfl h
            · rename_i e2
              rw [if_neg e2, if_pos hrem]
        have hsync : ∀ d, (addSync L o n d).1 ≠ .success → (addSync L o n d).2.indexed = false := by
          intro d h
          rw [addSync] at h ⊢
          split at h
          · rename_i e; rw [if_pos e]; exact hd _ _ h
          · rename_i e; rw [if_neg e]; exact hd _ _ h
        have hadd : (addFile L o n ⟨w, false, false⟩).1 ≠ .success → (addFile L o n ⟨w, false, false⟩).2.indexed = false := by
          intro h
          rw [addFile] at h ⊢
          cases hi : L.index <;> rw [hi] at h <;> simp only at h ⊢
          · split at h
            · rename_i ht; rw [if_pos ht]; exact hd _ _ h
            · rename_i ht; rw [if_neg ht]; exact hsync _ h
          · exact hsync _ h
        rw [indexAndClose] at hs ⊢
        rcases hb : addFile L o n ⟨w, false, false⟩ with ⟨st, d⟩
        rw [hb] at hs hadd
        simp only [hclose, ne_eq, not_true_eq_false, false_and, if_false] at hs ⊢
        by_cases hst : st = .success
        · rw [if_pos hst] at hs
          exact absurd hs.symm he
        · rw [if_neg hst] at hs ⊢
          cases hk : o.keep
          · simp only [Bool.false_eq_true, if_false]
            split <;> exact hadd hst
          · rw [hk] at hs
            exact absurd hs.symm he

/-- **C41.** A folder is refused exactly when a part of its name is `..`; so the maildir of an accepted folder is below the mail root. -/
theorem C41_folder (root folder : Str) : (isValidFolderName folder = true ↔ bs ".." ∉ components folder) ∧
    (isValidFolderName folder = true → ∃ rest, resolve (maildirOf root folder) = resolve root ++ rest) := by
  refine ⟨isValid_iff folder, fun h => ?_⟩
  rw [resolve_maildir]
  exact walk_below _ _ ((isValid_iff folder).1 h)

/-- **C41.** Whatever the name of the host, the name of the new file has no `/`, so that it is in `new`, and no `:`, so that it has no flags. -/
theorem C41_name (a : Attempt) : 47 ∉ tempfilename a ∧ 58 ∉ tempfilename a :=
  ⟨fun h => (tempfilename_chars a 47 h).1 rfl, fun h => (tempfilename_chars a 58 h).2 rfl⟩

/-- **C41.** Making the folder: when it works there are the three directories and nothing that was there has changed, and what was made are directories
above them; it fails only when something that is not a directory is in the way. -/
theorem C41_create_folder (k : Str → Kind) (md : Str) :
    match createFolder k md with
    | none => ∃ p d, d ∈ [bs "/cur", bs "/new", bs "/tmp"] ∧ Above p (md ++ d) ∧ k p = .other
    | some k' => (∀ d ∈ [bs "/cur", bs "/new", bs "/tmp"], k' (md ++ d) = .dir) ∧
        ∀ p, k' p = k p ∨ (k p = .absent ∧ k' p = .dir ∧ ∃ d ∈ [bs "/cur", bs "/new", bs "/tmp"], Above p (md ++ d)) := by
  have hl : ∀ d ∈ [bs "/cur", bs "/new", bs "/tmp"], (md ++ d).length < md.length + 6 := by
    intro d hd
    simp only [List.mem_cons, List.not_mem_nil, or_false] at hd
    rcases hd with rfl | rfl | rfl <;> simp [bs]
  have h1 := mkdirRec_spec (md.length + 6) k (md ++ bs "/cur") (hl _ (by simp))
  rw [createFolder]
  cases e1 : mkdirRec (md.length + 6) k (md ++ bs "/cur") with
  | none =>
    rw [e1] at h1
    obtain ⟨p, a, b⟩ := h1
    exact ⟨p, bs "/cur", by simp, a, b⟩
  | some k1 =>
    rw [e1] at h1
    have h2 := mkdirRec_spec (md.length + 6) k1 (md ++ bs "/new") (hl _ (by simp))
    simp only
    cases e2 : mkdirRec (md.length + 6) k1 (md ++ bs "/new") with
    | none =>
      rw [e2] at h2
      obtain ⟨p, a, b⟩ := h2
      refine ⟨p, bs "/new", by simp, a, ?_⟩
      rcases h1.2 p with e | ⟨_, e, _⟩
      · rw [← e]; exact b
      · rw [e] at b; cases b
    | some k2 =>
      rw [e2] at h2
      have h3 := mkdirRec_spec (md.length + 6) k2 (md ++ bs "/tmp") (hl _ (by simp))
      simp only
      cases e3 : mkdirRec (md.length + 6) k2 (md ++ bs "/tmp") with
      | none =>
        rw [e3] at h3
        obtain ⟨p, a, b⟩ := h3
        refine ⟨p, bs "/tmp", by simp, a, ?_⟩
        rcases h2.2 p with e | ⟨_, e, _⟩
        · rw [e] at b
          rcases h1.2 p with e' | ⟨_, e', _⟩
          · rw [← e']; exact b
          · rw [e'] at b; cases b
        · rw [e] at b; cases b
      | some k3 =>
        rw [e3] at h3
        have keep2 : ∀ p, k1 p = .dir → k2 p = .dir := fun p h => (h2.2 p).elim (fun e => e.trans h) (fun ⟨_, e, _⟩ => e)
        have keep3 : ∀ p, k2 p = .dir → k3 p = .dir := fun p h => (h3.2 p).elim (fun e => e.trans h) (fun ⟨_, e, _⟩ => e)
        refine ⟨?_, fun p => ?_⟩
        · intro d hd
          simp only [List.mem_cons, List.not_mem_nil, or_false] at hd
          rcases hd with rfl | rfl | rfl
          · exact keep3 _ (keep2 _ h1.1)
          · exact keep3 _ h2.1
          · exact h3.1
        · rcases h1.2 p with a1 | ⟨a1, b1, c1⟩
          · rcases h2.2 p with a2 | ⟨a2, b2, c2⟩
            · rcases h3.2 p with a3 | ⟨a3, b3, c3⟩
              · exact .inl (a3.trans (a2.trans a1))
              · exact .inr ⟨by rw [← a1, ← a2]; exact a3, b3, _, by simp, c3⟩
            · exact .inr ⟨by rw [← a1]; exact a2, keep3 p b2, _, by simp, c2⟩
          · exact .inr ⟨a1, keep3 p (keep2 p b1), _, by simp, c1⟩

/-! ## It works when nothing goes wrong -/

private theorem writeBuf_full (i : Nat) (m : Nat) (ws : List WriteRes) (s : Str) (w : W) (hs : s ≠ []) (hm : s.length ≤ m) :
    ∃ w', writeBuf i (.wrote m :: ws) s w = (w', ws, some true) := by
  have h1 : ¬ min m s.length = 0 := by
    have : s.length ≠ 0 := fun e => hs (List.length_eq_zero_iff.1 e)
    omega
  rw [writeBuf, if_neg h1, if_pos (List.drop_eq_nil_iff.2 hm)]
  exact ⟨_, rfl⟩

private theorem copyFd_full (i : Nat) : ∀ (cs : List Str) (n : Nat) (w : W), (∀ s ∈ cs, s ≠ [] ∧ s.length ≤ 4096) → cs.length ≤ n →
    ∃ w', copyFd i false false false (cs.map (fun s => (false, ReadRes.got s)) ++ [(false, .got [])]) (List.replicate n (.wrote 4096)) w = (w', some true)
  | [], n, w, _, _ => ⟨w, rfl⟩
  | s :: cs, 0, w, _, h => by simp at h
  | s :: cs, n + 1, w, hs, h => by
    obtain ⟨w1, e1⟩ := writeBuf_full i 4096 (List.replicate n (.wrote 4096)) s w (hs s (by simp)).1 (hs s (by simp)).2
    obtain ⟨w2, e2⟩ := copyFd_full i cs n w1 (fun t ht => hs t (by simp [ht])) (by simpa using h)
    refine ⟨w2, ?_⟩
    rw [List.map_cons, List.cons_append, copyFd, if_neg (hs s (by simp)).1, if_neg (by simp), copyRest, List.replicate_succ, e1]
    exact e2

/-- **C41.** When no system call and no part of the library fails, any message that is not empty is delivered. -/
theorem C41_delivers (E : Env) (L : Lib) (o : Opts) (fs : Fs) (cs : List Str) (c : Str) (a : Attempt)
    (hfolder : bs ".." ∉ components E.folder)
    (hreads : E.reads = (c :: cs).map (fun s => (false, .got s)) ++ [(false, .got [])]) (hcs : ∀ s ∈ c :: cs, s ≠ [] ∧ s.length ≤ 4096) (hc : c ≠ bs "From ")
    (hsig : E.sigEnd = false) (hwrites : E.writes = List.replicate (cs.length + 2) (.wrote 4096)) (hok : E.fsyncOk = true ∧ E.renameOk = true ∧ E.syncDirOk = true)
    (hatt : E.attempts = [a]) (hfails : a.fails = false) (hfree : fs.ent (maildirOf E.root E.folder ++ bs "/tmp/" ++ tempfilename a) = none)
    (hlib : L.options = .success ∧ (L.index = .success ∨ L.index = .duplicate) ∧ L.tags = .success ∧ L.flags = .success ∧ L.close = .success) :
    (insertCommand E L o fs).2 = some .success := by
  have hcopy : ∀ (i : Nat) (w : W), ∃ w', copyFd i E.sigEnd true true E.reads E.writes w = (w', some true) := by
    intro i w
    rw [hsig, hreads, hwrites, List.map_cons, List.cons_append, copyFd, if_neg (hcs c (by simp)).1]
    split
    · rename_i hf
      obtain ⟨w1, e1⟩ := writeBuf_full i 4096 (List.replicate (cs.length + 1) (.wrote 4096)) envelope w (by decide) (by decide)
      have hd : c.drop 5 ≠ [] := by
        intro e
        have h1 : c.take 5 = bs "From " := by simpa using hf
        have h2 := List.take_append_drop 5 c
        rw [e, h1, List.append_nil] at h2
        exact hc h2.symm
      obtain ⟨w2, e2⟩ := writeBuf_full i 4096 (List.replicate cs.length (.wrote 4096)) (c.drop 5) w1 hd (by
        have := (hcs c (by simp)).2
        rw [List.length_drop]
        omega)
      obtain ⟨w3, e3⟩ := copyFd_full i cs cs.length w2 (fun s hs => hcs s (by simp [hs])) (Nat.le_refl _)
      refine ⟨w3, ?_⟩
      rw [List.replicate_succ, e1]
      simp only
      rw [copyRest, List.replicate_succ, e2]
      exact e3
    · obtain ⟨w1, e1⟩ := writeBuf_full i 4096 (List.replicate (cs.length + 1) (.wrote 4096)) c w (hcs c (by simp)).1 (hcs c (by simp)).2
      obtain ⟨w2, e2⟩ := copyFd_full i cs (cs.length + 1) w1 (fun s hs => hcs s (by simp [hs])) (by omega)
      refine ⟨w2, ?_⟩
      rw [copyRest, List.replicate_succ, e1]
      exact e2
  have hm : mktemp (maildirOf E.root E.folder) E.attempts ⟨fs, [fs]⟩ = ((⟨fs, [fs]⟩ : W).put (fs.create (maildirOf E.root E.folder ++ bs "/tmp/" ++ tempfilename a)),
      some (some (maildirOf E.root E.folder ++ bs "/tmp/" ++ tempfilename a, fs.next))) := by
    rw [hatt, mktemp, if_neg (fun h => h hfree), if_neg (by rw [hfails]; decide)]
  obtain ⟨w', e⟩ := hcopy fs.next ((⟨fs, [fs]⟩ : W).put (fs.create (maildirOf E.root E.folder ++ bs "/tmp/" ++ tempfilename a)))
  rw [insertCommand, (isValid_iff E.folder).2 hfolder, writeNew, writeTmp, hm]
  simp only
  rw [e]
  simp only [hok.1, hok.2.1, hok.2.2, hlib.1, Bool.not_true, Bool.false_eq_true, if_false, if_true, ne_eq, not_true_eq_false]
  rw [indexAndClose]
  rcases hb : addFile L o _ _ with ⟨st, d⟩
  have : st = .success := by
    rw [addFile] at hb
    rcases hlib.2.1 with hi | hi <;> rw [hi] at hb <;>
      simp only [hlib.2.2.1, ne_eq, not_true_eq_false, if_false, addSync, hlib.2.2.2.1, addDone, if_true] at hb <;>
      split at hb <;> exact (Prod.mk.inj hb).1.symm
  subst this
  simp [hlib.2.2.2.2]

/-- **C41.** A folder name with a part `..` is refused and nothing is touched. -/
theorem C41_folder_refused (E : Env) (L : Lib) (o : Opts) (fs : Fs) (h : bs ".." ∈ components E.folder) :
    (insertCommand E L o fs).2 = some .failure ∧ (insertCommand E L o fs).1.w.trace = [fs] := by
  have : isValidFolderName E.folder = false := by
    cases hv : isValidFolderName E.folder
    · rfl
    · exact absurd h ((isValid_iff E.folder).1 hv)
  rw [insertCommand, this]
  exact ⟨rfl, rfl⟩

private theorem copyFd_true (i : Nat) (sigEnd : Bool) : ∀ (rs : List (Bool × ReadRes)) (first empty : Bool) (ws : List WriteRes) (w : W),
    (copyFd i sigEnd first empty rs ws w).2 = some true → signalled rs = false ∧ sigEnd = false ∧ (empty = true → received rs ≠ [])
  | [], _, _, ws, w, h => by cases h
  | (true, r) :: rs, first, empty, ws, w, h => by cases r <;> cases h
  | (false, .eintr) :: rs, first, empty, ws, w, h => copyFd_true i sigEnd rs first empty ws w h
  | (false, .err) :: rs, first, empty, ws, w, h => by cases h
  | (false, .got []) :: rs, first, empty, ws, w, h => by
    rw [copyFd, if_pos rfl] at h
    cases sigEnd <;> cases empty <;> first | cases h; done | exact ⟨rfl, rfl, fun e => by cases e⟩
  | (false, .got (c :: s)) :: rs, first, empty, ws, w, h => by
    have hrest : ∀ (t : Str) (ws : List WriteRes) (w : W), (copyRest (copyFd i sigEnd false false rs) i t ws w).2 = some true → signalled rs = false ∧ sigEnd = false := by
      intro t ws w h
      rw [copyRest] at h
      rcases hb : writeBuf i ws t w with ⟨w1, ws1, _ | _ | _⟩ <;> rw [hb] at h
      · cases h
      · cases h
      · have := copyFd_true i sigEnd rs false false ws1 w1 h
        exact ⟨this.1, this.2.1⟩
    rw [copyFd, if_neg (by simp)] at h
    have : signalled rs = false ∧ sigEnd = false := by
      split at h
      · rcases hb : writeBuf i ws envelope w with ⟨w1, ws1, _ | _ | _⟩ <;> rw [hb] at h
        · cases h
        · cases h
        · exact hrest _ _ _ h
      · exact hrest _ _ _ h
    exact ⟨this.1, this.2, fun _ => by simp [received]⟩

/-- **C41.** A delivery that is interrupted by a signal while the message is read, or of an empty message, does not succeed. -/
theorem C41_interrupted (E : Env) (L : Lib) (o : Opts) (fs : Fs) (h : signalled E.reads = true ∨ E.sigEnd = true ∨ received E.reads = []) :
    (insertCommand E L o fs).2 ≠ some .success := by
  have hc : ∀ i w, (copyFd i E.sigEnd true true E.reads E.writes w).2 ≠ some true := by
    intro i w e
    have := copyFd_true i E.sigEnd E.reads true true E.writes w e
    rcases h with h | h | h
    · rw [this.1] at h; cases h
    · rw [this.2.1] at h; cases h
    · exact this.2.2 rfl h
  have ht : ∀ md w x, (writeTmp E md w).2 ≠ some (some x) := by
    intro md w x
    rw [writeTmp]
    rcases mktemp md E.attempts w with ⟨w1, _ | _ | ⟨p, i⟩⟩
    · nofun
    · nofun
    · have := hc i w1
      simp only
      rcases hb : copyFd i E.sigEnd true true E.reads E.writes w1 with ⟨w2, _ | _ | _⟩ <;> rw [hb] at this
      · nofun
      · nofun
      · exact absurd rfl this
  have hn : ∀ md w x, (writeNew E md w).2 ≠ some (some x) := by
    intro md w x
    rw [writeNew]
    have := ht md w
    rcases hb : writeTmp E md w with ⟨w2, _ | _ | y⟩ <;> rw [hb] at this
    · nofun
    · nofun
    · exact absurd rfl (this y)
  rw [insertCommand]
  split
  · nofun
  · have := hn (maildirOf E.root E.folder) ⟨fs, [fs]⟩
    rcases hb : writeNew E (maildirOf E.root E.folder) ⟨fs, [fs]⟩ with ⟨w2, _ | _ | y⟩ <;> rw [hb] at this
    · nofun
    · nofun
    · exact absurd rfl (this y)

/-- **C41.** With `--keep` a message that was indexed stays in the database, whatever fails later. -/
theorem C41_keep_indexed (E : Env) (L : Lib) (o : Opts) (fs : Fs) (hkeep : o.keep = true) (hi : L.index = .success ∨ L.index = .duplicate)
    (hs : (insertCommand E L o fs).2 = some .success) : (insertCommand E L o fs).1.indexed = true := by
  rw [insertCommand] at hs ⊢
  split at hs
  · cases hs
  · rename_i hval
    rw [if_neg hval]
    rcases hb : writeNew E (maildirOf E.root E.folder) ⟨fs, [fs]⟩ with ⟨w, _ | _ | n⟩ <;> rw [hb] at hs
    · cases hs
    · cases hs
    · simp only at hs ⊢
      split at hs
      · cases hs
      · rename_i hopt
        rw [if_neg hopt]
        have hd : ∀ st d, (addDone L o st d).2 = d := by
          intro st d
          rw [addDone, hkeep]
          split <;> rfl
        have ha : (addFile L o n ⟨w, false, false⟩).2.indexed = true := by
          rw [addFile]
          rcases hi with hi | hi <;> rw [hi] <;> simp only [addSync, hd]
          · split
            · rw [hd]
            · split <;> rw [hd]
          · split <;> rw [hd]
        rw [indexAndClose]
        rcases hb : addFile L o n ⟨w, false, false⟩ with ⟨st, d⟩
        rw [hb] at ha
        simp only [hkeep]
        split <;> split <;> exact ha

/-! ## What goes wrong -/

/-- An empty maildir. -/
def exFs : Fs := ⟨fun _ => ([], true), 0, fun _ => none, fun _ => none, []⟩

def exAttempt : Attempt := ⟨1, 2, 3, some (bs "a/b:c"), false⟩

def exEnv (reads : List (Bool × ReadRes)) : Env :=
  { root := bs "/m", folder := bs "x/", attempts := [exAttempt], reads := reads, sigEnd := false, writes := [.wrote 2, .eintr, .wrote 3, .wrote 100, .wrote 100, .wrote 100],
    fsyncOk := true, renameOk := true, syncDirOk := true, cleanOk := true }

def exLib : Lib := ⟨.success, .success, .success, .success, none, .success, .success, true⟩

def exNew : Str := bs "/m/x/new/1.M2P3.a_b_c"

/-- The hypotheses hold for a delivery in three reads, with short and interrupted writes, and the message is there afterwards. -/
example : exFs.Quiet ∧ exFs.Ok ∧ Free (exEnv [(false, .got (bs "From a")), (false, .eintr), (false, .got (bs "b\n")), (false, .got [])]) exLib exFs ∧
    FromWhole (exEnv [(false, .got (bs "From a")), (false, .eintr), (false, .got (bs "b\n")), (false, .got [])]).reads := by
  constructor
  · exact ⟨rfl, rfl⟩
  constructor
  · intro p i h; cases h
  constructor
  · exact ⟨fun _ _ => rfl, fun _ _ => rfl⟩
  · intro _; decide

example : let r := insertCommand (exEnv [(false, .got (bs "From a")), (false, .eintr), (false, .got (bs "b\n")), (false, .got [])]) exLib ⟨true, false⟩ exFs
    r.2 = some .success ∧ r.1.w.fs.view exNew = some (bs "X-Envelope-From: ab\n") ∧ r.1.indexed = true ∧ r.1.tagged = true := by
  decide +kernel

/-- A signal while reading: nothing is left. -/
example : let r := insertCommand (exEnv [(false, .got (bs "abc")), (true, .eintr)]) exLib ⟨true, false⟩ exFs
    r.2 = some .failure ∧ r.1.w.fs.view exNew = none := by
  decide +kernel

/-- **C41 fails.** When `read` gives fewer than five bytes at first, the `From ` line of an mbox stays in the message. -/
theorem C41_from_split : let reads := [(false, ReadRes.got (bs "Fro")), (false, .got (bs "m a\n")), (false, .got [])]
    let r := insertCommand (exEnv reads) exLib ⟨true, false⟩ exFs
    r.2 = some .success ∧ r.1.w.fs.view exNew = some (bs "From a\n") ∧ toDeliver (received reads) = bs "X-Envelope-From: a\n" := by
  decide +kernel

/-- **C41 fails.** When `read` gives exactly `From ` at first, nothing is left to be written, and `write` of nothing counts as an error: the message is
refused. -/
theorem C41_from_alone : let reads := [(false, ReadRes.got (bs "From ")), (false, .got (bs "a\n")), (false, .got [])]
    let r := insertCommand (exEnv reads) exLib ⟨true, false⟩ exFs
    r.2 = some .failure ∧ r.1.w.fs.view exNew = none := by
  decide +kernel

/-- **C41 fails.** When the indexing options are wrong the command fails, even with `--keep`, but the file stays in `new`. -/
theorem C41_options : let r := insertCommand (exEnv [(false, ReadRes.got (bs "abc\n")), (false, .got [])]) { exLib with options := .other } ⟨true, true⟩ exFs
    r.2 = some .failure ∧ r.1.w.fs.view exNew = some (bs "abc\n") := by
  decide +kernel

/-- **C41 fails.** When the file was moved by flag synchronization and the changes then cannot be committed, the command fails but the message stays in
the maildir. -/
theorem C41_moved : let r := insertCommand (exEnv [(false, ReadRes.got (bs "abc\n")), (false, .got [])]) { exLib with renamed := some (bs "/m/x/cur/q:2,"), close := .temporary } ⟨true, false⟩ exFs
    r.2 = some .tempfail ∧ r.1.w.fs.view (bs "/m/x/cur/q:2,") = some (bs "abc\n") := by
  decide +kernel

/-- A maildir with a message of the name that will be used. -/
def exFsUsed : Fs := { exFs with ino := fun _ => (bs "old", true), next := 1, ent := fun p => if p = exNew then some 0 else none, disk := fun p => if p = exNew then some 0 else none }

/-- **C41 fails.** A message in `new` that already has the name (the clock was set back, and the process has the same number) is overwritten: the name is
only known to be free in `tmp`. -/
theorem C41_overwrites : let r := insertCommand (exEnv [(false, ReadRes.got (bs "abc\n")), (false, .got [])]) exLib ⟨true, false⟩ exFsUsed
    exFsUsed.view exNew = some (bs "old") ∧ r.2 = some .success ∧ r.1.w.fs.view exNew = some (bs "abc\n") := by
  decide +kernel

end Notmuch.Props
