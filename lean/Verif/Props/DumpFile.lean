import Verif.Proofs.DumpFile
import Verif.Props.DumpRestore

/-!
# C66: the file of a dump, and the backup before an upgrade

`Fs.Crash` says what may be found after a crash: any change of a directory may be lost, and a file that was not synced may contain anything.
-/

namespace Notmuch.Props
open Notmuch.Insert (Fs W)
open Notmuch.DumpFile
open Notmuch.DumpRestore
open Notmuch.DumpSpec

/-- **C66.** Whatever `write` does and whichever system call fails: at every moment the file has its old contents (or is not there, as before), or it has the whole
dump; all other files, but the temporary one, are as they were. -/
theorem C66_seen (E : Env) (out : Str) (fs : Fs) (hq : fs.Quiet) (hok : fs.Ok) (hf : E.Fresh out fs) (s : Fs) (hs : s ∈ (dumpTo E out ⟨fs, [fs]⟩).1.trace) :
    (s.view out = fs.view out ∨ (s.view out = some E.whole ∧ E.dumpOk = true)) ∧ ∀ p, p ≠ out → ¬ E.isTemp out p → s.view p = fs.view p := by
  have hT : ∀ {x}, E.suffix = some x → ∀ {p}, ¬ E.isTemp out p → p ≠ tempName out x := fun hx p hp h => hp (by rw [Env.isTemp, hx, h]; rfl)
  have h := (dumpTo_says E out hq hf).1 s hs
  cases h with
  | start => exact ⟨.inl rfl, fun _ _ _ => rfl⟩
  | @tmp x _ hx h => exact ⟨.inl (InTmp.view_other h hq hok (Ne.symm (tempName_ne out x))), fun p _ hp => InTmp.view_other h hq hok (hT hx hp)⟩
  | gone hx h => exact ⟨.inl (h.unlink hq hok out), fun p _ _ => h.unlink hq hok p⟩
  | tried hx =>
    have : fs.ent (tempName out E.tried) = none := hf _ (by rw [Env.isTemp, hx]; rfl)
    exact ⟨.inl (unlink_free this out), fun p _ _ => unlink_free this p⟩
  | @there x s hx h hw _ hd =>
    refine ⟨.inr ⟨?_, hd⟩, fun p hne hp => ?_⟩
    · rw [renamed_view h hq hok (tempName_ne out x), if_neg (Ne.symm (tempName_ne out x)), if_pos rfl, hw]
    · rw [renamed_view h hq hok (tempName_ne out x), if_neg (hT hx hp), if_neg hne]

/-- **C66.** Whenever the machine crashes, the file has what could have been found there before, or the whole dump; all other files, but the temporary one, are as they
were.  (Nothing must be written to the file after it was synced.) -/
theorem C66_crash (E : Env) (out : Str) (fs : Fs) (hq : fs.Quiet) (hok : fs.Ok) (hf : E.Fresh out fs) (htr : E.trailer = [])
    (s : Fs) (hs : s ∈ (dumpTo E out ⟨fs, [fs]⟩).1.trace) (v : Str → Option Str) (hv : s.Crash v) :
    ∃ v0, fs.Crash v0 ∧ ∀ p, v p = v0 p ∨ E.isTemp out p ∨ (p = out ∧ v p = some (E.pack E.text)) := by
  have h := (((dumpTo_says E out hq hf).1 s hs).inv2 hq htr).crash hok hv
  simpa [Env.whole, htr] using h

/-- **C66.** When the dump succeeds, everything was printed, the file has the whole of it, the temporary file is gone and no other file has changed. -/
theorem C66_success (E : Env) (out : Str) (fs : Fs) (hq : fs.Quiet) (hok : fs.Ok) (hf : E.Fresh out fs) (hr : (dumpTo E out ⟨fs, [fs]⟩).2 = .done true) :
    E.dumpOk = true ∧ ∀ p, (dumpTo E out ⟨fs, [fs]⟩).1.fs.view p = if p = out then some E.whole else fs.view p := by
  have h := (dumpTo_says E out hq hf).2
  rw [hr] at h
  revert h
  generalize (dumpTo E out ⟨fs, [fs]⟩).1.fs = s
  intro h
  cases h with
  | killed h => simp at h
  | @there x s hx h hw hd =>
    refine ⟨hd, fun p => ?_⟩
    have hfree : fs.view (tempName out x) = none := by
      rw [Fs.view, hf _ (by rw [Env.isTemp, hx]; rfl)]; rfl
    rw [renamed_view h hq hok (tempName_ne out x), hw]
    by_cases hp : p = tempName out x
    · subst hp
      rw [if_pos rfl, if_neg (tempName_ne out x), hfree]
    · rw [if_neg hp]

/-- **C66.** When it fails, no file has changed, and the temporary file is gone if it can be removed. -/
theorem C66_failure (E : Env) (out : Str) (fs : Fs) (hq : fs.Quiet) (hok : fs.Ok) (hf : E.Fresh out fs) (hr : (dumpTo E out ⟨fs, [fs]⟩).2 = .done false) :
    ∀ p, (E.isTemp out p → E.cleanOk = true) → (dumpTo E out ⟨fs, [fs]⟩).1.fs.view p = fs.view p := by
  have h := (dumpTo_says E out hq hf).2
  rw [hr] at h
  revert h
  generalize (dumpTo E out ⟨fs, [fs]⟩).1.fs = s
  intro h p hp
  cases h with
  | killed h => simp at h
  | @dirty _ x hc hx h =>
    refine InTmp.view_other h hq hok (fun e => ?_)
    have := hp (by rw [Env.isTemp, hx, e]; rfl)
    rw [hc] at this
    cases this
  | clean hx h => exact h.unlink hq hok p
  | triedDirty hx => rfl
  | tried hx => exact unlink_free (hf _ (by rw [Env.isTemp, hx]; rfl)) p

/-- A dump that meets no error succeeds. -/
theorem C66_works (E : Env) (out x : Str) (w : W) (h1 : E.suffix = some x) (h2 : E.gzOpen = true) (h3 : E.dumpOk = true) (h4 : E.fsyncOk = true) (h5 : E.closeOk = true)
    (h6 : E.renameOk = true) (he : E.early = [some E.buffered]) (hl : E.late = [some (E.pack E.text).length]) (hc : E.atClose = [some E.trailer.length]) :
    (dumpTo E out w).2 = .done true := by
  have g : ∀ (i n : Nat) (s : Str) (w : W), s.length ≤ n → (gzWrite i [some n] s w).2 = some true := by
    intro i n s w hn
    unfold gzWrite
    split
    · rfl
    · simp only [List.drop_eq_nil_of_le hn, gzWrite_nil]
  have g' : ∀ {i ws s} {w : W}, (gzWrite i ws s w).2 = some true → gzWrite i ws s w = ((gzWrite i ws s w).1, some true) := fun h => Prod.ext rfl h
  unfold dumpTo
  rw [h1]
  simp only [h2, h3, Bool.not_true, Bool.false_eq_true, if_false]
  rw [g' (by rw [he]; exact g _ _ _ _ (by simp; omega))]
  simp only [flushAndSync]
  rw [g' (by rw [hl]; exact g _ _ _ _ (by simp))]
  simp only [h4, closeAndRename, Bool.not_true, Bool.false_eq_true, if_false]
  rw [g' (by rw [hc]; exact g _ _ _ _ (by simp))]
  simp [h5, h6]

/-! ## The backup -/

/-- **C66.** The database is upgraded only after it was dumped completely into the file with the time in its name; no other file was changed. -/
theorem C66_backup (U : UpEnv) (fs : Fs) (hq : fs.Quiet) (hok : fs.Ok) (hf : U.dump.Fresh (backupName U.dir U.tm) fs) (hu : (maybeUpgrade U ⟨fs, [fs]⟩).2.2 = true) :
    U.dump.dumpOk = true ∧ ∀ p, (maybeUpgrade U ⟨fs, [fs]⟩).1.fs.view p = if p = backupName U.dir U.tm then some U.dump.whole else fs.view p := by
  have hs := C66_success U.dump (backupName U.dir U.tm) fs hq hok hf
  unfold maybeUpgrade at hu ⊢
  cases hn : U.needs with
  | false => simp [hn] at hu
  | true =>
    rw [hn] at hu
    simp only [Bool.not_true, Bool.false_eq_true, if_false] at hu ⊢
    cases hm : U.mkdir with
    | failed => simp [hm] at hu
    | made | «exists» =>
      rw [hm] at hu
      simp only at hu ⊢
      rcases hd : dumpTo U.dump (backupName U.dir U.tm) ⟨fs, [fs]⟩ with ⟨w, ⟨_ | _⟩ | _ | _⟩ <;> rw [hd] at hu hs
      · simp at hu
      · exact hs rfl
      · simp at hu
      · simp at hu

/-- If no upgrade is needed nothing is done; and the command goes on only if no upgrade was needed or it was done. -/
theorem C66_no_upgrade (U : UpEnv) (w : W) :
    (U.needs = false → maybeUpgrade U w = (w, .done true, false)) ∧
    ((maybeUpgrade U w).2.1 = .done true → U.needs = false ∨ ((maybeUpgrade U w).2.2 = true ∧ U.upgradeOk = true)) := by
  refine ⟨fun h => by simp [maybeUpgrade, h], ?_⟩
  unfold maybeUpgrade
  cases hn : U.needs with
  | false => simp
  | true =>
    simp only [Bool.not_true, Bool.false_eq_true, if_false]
    cases hm : U.mkdir with
    | failed => simp
    | made | «exists» =>
      rcases hd : dumpTo U.dump (backupName U.dir U.tm) w with ⟨w, ⟨_ | _⟩ | _ | _⟩ <;> simp [hd]

/-- **C66.** From the backup the tags of all messages can be restored. -/
theorem C66_backup_restores (U : UpEnv) (fs : Fs) (hq : fs.Quiet) (hok : fs.Ok) (hf : U.dump.Fresh (backupName U.dir U.tm) fs) (hu : (maybeUpgrade U ⟨fs, [fs]⟩).2.2 = true)
    (src dst : DumpRestore.Db) (htext : U.dump.dumpOk = true → U.dump.text = dump ⟨true, true, true⟩ src)
    (unpack : Str → Str) (hun : ∀ s, unpack (U.dump.pack s ++ U.dump.trailer) = s)
    (hsrc : ValidDb src) (hdst : (dst.msgs.map (·.id)).Nodup) (hex : ∀ m ∈ src.msgs, ∃ d, Has dst m.id d) (hfmt : Recognised .batchTag src) :
    ∃ file dst', (maybeUpgrade U ⟨fs, [fs]⟩).1.fs.view (backupName U.dir U.tm) = some file ∧ restore (plain false .batchTag) (unpack file) dst = .ok dst' ∧
      ∀ m ∈ src.msgs, ∀ d', Has dst' m.id d' → ∀ t, t ∈ d'.tags ↔ t ∈ m.tags := by
  obtain ⟨hd, hv⟩ := C66_backup U fs hq hok hf hu
  obtain ⟨dst', h1, _, h2, _⟩ := C08_tags_roundtrip .batchTag ⟨true, true, true⟩ src dst rfl hsrc hdst hex hfmt
  refine ⟨_, dst', by rw [hv, if_pos rfl], ?_, h2⟩
  rw [Env.whole, hun, htext hd, h1]

private theorem decAux_length : ∀ (f n k : Nat), n < 10 ^ (k + 1) → (decAux f n).length ≤ k + 1
  | 0, _, _, _ => by simp [decAux]
  | f + 1, n, k, h => by
    rw [decAux]
    split
    · simp
    · cases k with
      | zero => simp at h; omega
      | succ k =>
        have := decAux_length f (n / 10) k (by rw [Nat.pow_succ] at h; omega)
        simp
        omega

private theorem pad_length {k n : Nat} (h : n < 10 ^ (k + 1)) : (pad (k + 1) n).length = k + 1 := by
  have := decAux_length (n + 1) n k h
  simp only [pad, List.length_append, List.length_replicate]
  simp only [dec] at *
  omega

private theorem decVal_zeros (s : Str) : ∀ k, decVal (List.replicate k 48 ++ s) = decVal s
  | 0 => rfl
  | k + 1 => by
    rw [List.replicate_succ, List.cons_append]
    simpa [decVal] using decVal_zeros s k

private theorem pad_inj {k m n : Nat} (h : pad k m = pad k n) : m = n := by
  have := congrArg decVal h
  rwa [pad, pad, decVal_zeros, decVal_zeros, decVal_dec, decVal_dec] at this

/-- **C66.** Backups made at different times have different names, so no backup is overwritten by a later one. -/
theorem C66_backup_names (dir : Str) {a b : Tm} (ha : a.Ok) (hb : b.Ok) (h : backupName dir a = backupName dir b) : a = b := by
  have l4 : ∀ {n}, n < 10000 → (pad 4 n).length = 4 := fun h => pad_length (k := 3) h
  have l2 : ∀ {n}, n < 100 → (pad 2 n).length = 2 := fun h => pad_length (k := 1) h
  simp only [backupName, List.append_assoc] at h
  have h := List.append_cancel_left (List.append_cancel_left h)
  obtain ⟨e1, h⟩ := List.append_inj h (by rw [l4 ha.year, l4 hb.year])
  obtain ⟨e2, h⟩ := List.append_inj h (by rw [l2 ha.mon, l2 hb.mon])
  obtain ⟨e3, h⟩ := List.append_inj h (by rw [l2 ha.mday, l2 hb.mday])
  have h := List.append_cancel_left h
  obtain ⟨e4, h⟩ := List.append_inj h (by rw [l2 ha.hour, l2 hb.hour])
  obtain ⟨e5, h⟩ := List.append_inj h (by rw [l2 ha.min, l2 hb.min])
  obtain ⟨e6, h⟩ := List.append_inj h (by rw [l2 ha.sec, l2 hb.sec])
  cases a; cases b
  simp only [Tm.mk.injEq]
  exact ⟨pad_inj e1, pad_inj e2, pad_inj e3, pad_inj e4, pad_inj e5, pad_inj e6⟩

example : backupName (bs "/m/.notmuch/backups") ⟨2024, 3, 1, 9, 5, 0⟩ = bs "/m/.notmuch/backups/dump-20240301T090500.gz" := by decide +kernel

/-! ## Examples -/

/-- A dump in three writes. -/
def exDump : DumpFile.Env :=
  ⟨some (bs "aB3dE6"), [], true, dump ⟨true, true, true⟩ exSrc, true, id, 7, [some 7], [some 30, some 1000], [], [], true, true, true, true⟩

/-- A file system with an older dump. -/
def exDumpFs : Fs := ⟨fun _ => (bs "old", true), 1, fun p => if p = bs "/d" then some 0 else none, fun p => if p = bs "/d" then some 0 else none, []⟩

private theorem exDumpFs_quiet : exDumpFs.Quiet := ⟨rfl, rfl⟩
private theorem exDumpFs_ok : exDumpFs.Ok := by
  intro p i h
  simp only [exDumpFs] at h ⊢
  split at h <;> simp_all <;> omega
private theorem exDump_fresh (E : DumpFile.Env) (hE : E.suffix = some (bs "aB3dE6")) : E.Fresh (bs "/d") exDumpFs := by
  intro p hp
  rw [Env.isTemp, hE] at hp
  subst hp
  show exDumpFs.ent (tempName (bs "/d") (bs "aB3dE6")) = none
  decide +kernel

example : exDumpFs.view (bs "/d") = some (bs "old") ∧ (dumpTo exDump (bs "/d") ⟨exDumpFs, [exDumpFs]⟩).2 = .done true ∧
    (dumpTo exDump (bs "/d") ⟨exDumpFs, [exDumpFs]⟩).1.fs.view (bs "/d") = some (dump ⟨true, true, true⟩ exSrc) ∧
    (dumpTo exDump (bs "/d") ⟨exDumpFs, [exDumpFs]⟩).1.trace.length = 7 := by
  refine ⟨?_, ?_, ?_, ?_⟩ <;> decide +kernel

example : (∀ s ∈ (dumpTo exDump (bs "/d") ⟨exDumpFs, [exDumpFs]⟩).1.trace, s.view (bs "/d") = some (bs "old") ∨ s.view (bs "/d") = some exDump.whole) := by
  intro s hs
  rcases (C66_seen exDump (bs "/d") exDumpFs exDumpFs_quiet exDumpFs_ok (exDump_fresh _ rfl) s hs).1 with h | h
  · exact .inl (h.trans (by decide +kernel))
  · exact .inr h.1

/-- The upgrade of a database. -/
def exUp : UpEnv := ⟨true, .exists, bs "/b", ⟨2024, 3, 1, 9, 5, 0⟩, exDump, true⟩

example : (maybeUpgrade exUp ⟨exDumpFs, [exDumpFs]⟩).2 = (.done true, true) ∧
    (maybeUpgrade { exUp with dump := { exDump with late := [none] } } ⟨exDumpFs, [exDumpFs]⟩).2 = (.done false, false) ∧
    (maybeUpgrade { exUp with mkdir := .failed } ⟨exDumpFs, [exDumpFs]⟩).2 = (.done false, false) := by
  refine ⟨?_, ?_, ?_⟩ <;> decide +kernel

example : ∃ file dst', (maybeUpgrade exUp ⟨exDumpFs, [exDumpFs]⟩).1.fs.view (bs "/b/dump-20240301T090500.gz") = some file ∧ restore (plain false .batchTag) file exDst = .ok dst' ∧
    ∀ m ∈ exSrc.msgs, ∀ d', Has dst' m.id d' → ∀ t, t ∈ d'.tags ↔ t ∈ m.tags := by
  have hn : backupName exUp.dir exUp.tm = bs "/b/dump-20240301T090500.gz" := by decide +kernel
  rw [← hn]
  refine C66_backup_restores exUp exDumpFs exDumpFs_quiet exDumpFs_ok ?_ (by decide +kernel) exSrc exDst (fun _ => rfl) id (fun s => by simp [exUp, exDump]) exSrc_valid
    (by decide +kernel) ?_ (.inl rfl)
  · intro p hp
    rw [Env.isTemp] at hp
    subst hp
    decide +kernel
  · intro m hm
    simp only [exSrc, List.mem_cons, List.not_mem_nil, or_false] at hm
    rcases hm with rfl | rfl
    · exact ⟨_, List.mem_cons_of_mem _ (List.mem_cons_of_mem _ (List.mem_cons_self)), rfl⟩
    · exact ⟨_, List.mem_cons_self, rfl⟩

/-- **False in general**: when the disk is full while the dump is printed the process exits at once, and the temporary file stays. -/
theorem C66_litter_counterexample : ∃ (E : DumpFile.Env) (out : Str) (fs : Fs), fs.Quiet ∧ fs.Ok ∧ E.Fresh out fs ∧ E.cleanOk = true ∧
    (dumpTo E out ⟨fs, [fs]⟩).2 = .exit1 ∧ ∃ p, fs.view p = none ∧ (dumpTo E out ⟨fs, [fs]⟩).1.fs.view p ≠ none :=
  ⟨{ exDump with early := [none] }, bs "/d", exDumpFs, exDumpFs_quiet, exDumpFs_ok, exDump_fresh _ rfl, rfl, by decide +kernel, bs "/d.aB3dE6", by decide +kernel, by decide +kernel⟩

/-- **False in general**: a dump that succeeded may be lost in a crash: the directory is not synced.  So after a crash during an upgrade there may be no backup. -/
theorem C66_not_durable_counterexample : ∃ (U : UpEnv) (fs : Fs), fs.Quiet ∧ fs.Ok ∧ U.dump.Fresh (backupName U.dir U.tm) fs ∧ U.dump.trailer = [] ∧
    (maybeUpgrade U ⟨fs, [fs]⟩).2 = (.done true, true) ∧ ∃ v, (maybeUpgrade U ⟨fs, [fs]⟩).1.fs.Crash v ∧ v (backupName U.dir U.tm) = none := by
  refine ⟨exUp, exDumpFs, exDumpFs_quiet, exDumpFs_ok, ?_, rfl, by decide +kernel, exDumpFs.view, ⟨[], List.nil_sublist _, fun p => ?_⟩, by decide +kernel⟩
  · intro p hp
    rw [Env.isTemp] at hp
    subst hp
    decide +kernel
  · have e : (maybeUpgrade exUp ⟨exDumpFs, [exDumpFs]⟩).1.fs.disk = exDumpFs.disk := rfl
    show match Insert.applyAll _ [] p with | none => _ | some i => _
    simp only [Insert.applyAll, List.foldl_nil]
    rw [e]
    by_cases h : p = bs "/d"
    · subst h
      exact ⟨_, rfl, fun _ => by rfl⟩
    · have : exDumpFs.disk p = none := if_neg h
      rw [this]
      show (exDumpFs.ent p).map _ = none
      rw [show exDumpFs.ent p = none from if_neg h]
      rfl

end Notmuch.Props
