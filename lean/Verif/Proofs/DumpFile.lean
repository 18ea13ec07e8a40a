import Verif.Proofs.Insert
import Verif.Spec.DumpFile

namespace Notmuch.DumpFile
open Notmuch.Insert

theorem gzWrite_spec (i : Nat) : ∀ (ws : List (Option Nat)) (s : Str) (w : W),
    Wrote i w (gzWrite i ws s w).1 ∧ ((gzWrite i ws s w).2 = some true → (((gzWrite i ws s w).1.fs.ino i).1 = (w.fs.ino i).1 ++ s))
  | [], s, w => by
    rw [gzWrite]
    split
    · rename_i h; exact ⟨Wrote.refl i w, by simp [h]⟩
    · exact ⟨Wrote.refl i w, by simp⟩
  | none :: ws, s, w => by
    rw [gzWrite]
    split
    · rename_i h; exact ⟨Wrote.refl i w, by simp [h]⟩
    · exact ⟨Wrote.refl i w, by simp⟩
  | some n :: ws, s, w => by
    rw [gzWrite]
    split
    · rename_i h; exact ⟨Wrote.refl i w, by simp [h]⟩
    · have ih := gzWrite_spec i ws (s.drop n) (w.put (w.fs.append i (s.take n)))
      refine ⟨(Wrote.put (Wr.append i _ _)).trans ih.1, fun h => ?_⟩
      rw [ih.2 h, show (w.put (w.fs.append i (s.take n))).fs = w.fs.append i (s.take n) from rfl, append_ino, List.append_assoc, List.take_append_drop]

theorem gzWrite_nil (i : Nat) (ws : List (Option Nat)) (w : W) : gzWrite i ws [] w = (w, some true) := by
  unfold gzWrite; simp

/-- The states of the file system during a dump. -/
inductive Phase (E : Env) (out : Str) (fs : Fs) : Fs → Prop
  | start : Phase E out fs fs
  | tmp {x : Str} {s : Fs} : E.suffix = some x → InTmp fs (tempName out x) s → Phase E out fs s
  | gone {x : Str} {s : Fs} : E.suffix = some x → InTmp fs (tempName out x) s → Phase E out fs (s.unlink (tempName out x))
  | tried : E.suffix = none → Phase E out fs (fs.unlink (tempName out E.tried))
  | there {x : Str} {s : Fs} : E.suffix = some x → InTmp fs (tempName out x) s → (s.ino fs.next).1 = E.whole → (E.trailer = [] → (s.ino fs.next).2 = true) →
      E.dumpOk = true → Phase E out fs (s.rename (tempName out x) out)

/-- How it ends. -/
inductive End (E : Env) (out : Str) (fs : Fs) : Fs → Exit → Prop
  | killed {s : Fs} {e : Exit} {x : Str} : e = .stuck ∨ e = .exit1 → E.suffix = some x → InTmp fs (tempName out x) s → End E out fs s e
  | dirty {s : Fs} {x : Str} : E.cleanOk = false → E.suffix = some x → InTmp fs (tempName out x) s → End E out fs s (.done false)
  | clean {s : Fs} {x : Str} : E.suffix = some x → InTmp fs (tempName out x) s → End E out fs (s.unlink (tempName out x)) (.done false)
  | triedDirty : E.suffix = none → End E out fs fs (.done false)
  | tried : E.suffix = none → End E out fs (fs.unlink (tempName out E.tried)) (.done false)
  | there {x : Str} {s : Fs} : E.suffix = some x → InTmp fs (tempName out x) s → (s.ino fs.next).1 = E.whole →
      E.dumpOk = true → End E out fs (s.rename (tempName out x) out) (.done true)

def Says (E : Env) (out : Str) (fs : Fs) (r : W × Exit) : Prop := (∀ s ∈ r.1.trace, Phase E out fs s) ∧ End E out fs r.1.fs r.2

theorem trace_wrote {E : Env} {out x : Str} {fs : Fs} {w w' : W} (hx : E.suffix = some x) (h : InTmp fs (tempName out x) w.fs) (ht : ∀ s ∈ w.trace, Phase E out fs s)
    (hw : Wrote fs.next w w') : (∀ s ∈ w'.trace, Phase E out fs s) ∧ InTmp fs (tempName out x) w'.fs :=
  ⟨fun s hs => (hw.2 s hs).elim (ht s) (fun k => .tmp hx (h.wr k)), h.wr hw.1⟩

theorem unlinkIf_says {E : Env} {out x : Str} {fs : Fs} {w : W} (hx : E.suffix = some x) (h : InTmp fs (tempName out x) w.fs) (ht : ∀ s ∈ w.trace, Phase E out fs s) :
    Says E out fs (unlinkIf E.cleanOk (tempName out x) w, .done false) := by
  refine ⟨unlinkIf_trace ht (.gone hx h), ?_⟩
  show End E out fs (unlinkIf E.cleanOk (tempName out x) w).fs _
  rw [unlinkIf]
  cases hc : E.cleanOk with
  | false => exact .dirty hc hx h
  | true => exact .clean hx h

theorem cleanUp_says {E : Env} {out x rest : Str} {fs : Fs} {w : W} (hx : E.suffix = some x) (h : InTmp fs (tempName out x) w.fs) (ht : ∀ s ∈ w.trace, Phase E out fs s) :
    Says E out fs (cleanUp E fs.next (tempName out x) rest w) := by
  have hg := (gzWrite_spec fs.next E.atClose rest w).1
  unfold cleanUp
  rcases hr : gzWrite fs.next E.atClose rest w with ⟨w', _ | b⟩ <;> rw [hr] at hg <;> obtain ⟨a, b⟩ := trace_wrote hx h ht hg
  · exact ⟨a, .killed (.inl rfl) hx b⟩
  · exact unlinkIf_says hx b a

theorem closeAndRename_says {E : Env} {out x : Str} {fs : Fs} {w : W} (hx : E.suffix = some x) (h : InTmp fs (tempName out x) w.fs) (ht : ∀ s ∈ w.trace, Phase E out fs s)
    (hc : w.fs.ino fs.next = (E.pack E.text, true)) (hd : E.dumpOk = true) :
    Says E out fs (closeAndRename E fs.next out (tempName out x) w) := by
  have hg := gzWrite_spec fs.next E.atClose E.trailer w
  have hn : E.trailer = [] → gzWrite fs.next E.atClose E.trailer w = (w, some true) := fun h => by rw [h, gzWrite_nil]
  unfold closeAndRename
  rcases hr : gzWrite fs.next E.atClose E.trailer w with ⟨w', _ | _ | _⟩ <;> rw [hr] at hg hn <;> obtain ⟨a, b⟩ := trace_wrote hx h ht hg.1
  · exact ⟨a, .killed (.inl rfl) hx b⟩
  · exact unlinkIf_says hx b a
  · simp only
    split
    · exact unlinkIf_says hx b a
    · split
      · exact unlinkIf_says hx b a
      · have e1 : (w'.fs.ino fs.next).1 = E.whole := by rw [hg.2 rfl, hc]; rfl
        have e2 : E.trailer = [] → (w'.fs.ino fs.next).2 = true := fun k => by
          have := hn k
          rw [Prod.mk.injEq] at this
          rw [this.1, hc]
        refine ⟨put_trace a (.there hx b e1 e2 hd), ?_⟩
        exact .there hx b e1 hd

theorem flushAndSync_says {E : Env} {out x : Str} {fs : Fs} {w : W} (hx : E.suffix = some x) (h : InTmp fs (tempName out x) w.fs) (ht : ∀ s ∈ w.trace, Phase E out fs s)
    (hc : (w.fs.ino fs.next).1 = (E.pack E.text).take E.buffered) (hd : E.dumpOk = true) :
    Says E out fs (flushAndSync E fs.next out (tempName out x) w) := by
  have hg := gzWrite_spec fs.next E.late ((E.pack E.text).drop E.buffered) w
  unfold flushAndSync
  rcases hr : gzWrite fs.next E.late ((E.pack E.text).drop E.buffered) w with ⟨w', _ | _ | _⟩ <;> rw [hr] at hg <;> obtain ⟨a, b⟩ := trace_wrote hx h ht hg.1
  · exact ⟨a, .killed (.inl rfl) hx b⟩
  · exact unlinkIf_says hx b a
  · simp only
    split
    · exact cleanUp_says hx b a
    · have hw : Wrote fs.next w' (w'.put (w'.fs.sync fs.next)) := Wrote.put (Wr.sync _ _)
      obtain ⟨a2, b2⟩ := trace_wrote hx b a hw
      refine closeAndRename_says hx b2 a2 ?_ hd
      show ((w'.fs.sync fs.next).ino fs.next) = _
      have := hg.2 rfl
      simp only [Fs.sync, if_true]
      rw [this, hc, List.take_append_drop]

theorem create_inTmp {fs : Fs} (hq : fs.Quiet) {t : Str} (hf : fs.ent t = none) : InTmp fs t (fs.create t) where
  old j hj := if_neg (by omega)
  disk := rfl
  ent := by show Op.apply fs.ent _ = _; rw [hq.2]
  pending := by show fs.pending ++ _ = _; rw [hq.1]; rfl
  free := by rw [← hq.2]; exact hf

theorem dumpTo_says (E : Env) (out : Str) {fs : Fs} (hq : fs.Quiet) (hf : E.Fresh out fs) : Says E out fs (dumpTo E out ⟨fs, [fs]⟩) := by
  have h0 : ∀ s ∈ [fs], Phase E out fs s := fun s hs => by rw [List.mem_singleton.1 hs]; exact .start
  unfold dumpTo
  cases hx : E.suffix with
  | none =>
    refine ⟨unlinkIf_trace (w := ⟨fs, [fs]⟩) h0 (.tried hx), ?_⟩
    simp only [unlinkIf]
    cases hc : E.cleanOk with
    | false => exact .triedDirty hx
    | true => exact .tried hx
  | some x =>
    have hfree : fs.ent (tempName out x) = none := hf _ (by rw [Env.isTemp, hx]; rfl)
    have ht := create_inTmp hq hfree
    have h1 : ∀ s ∈ (W.put ⟨fs, [fs]⟩ (fs.create (tempName out x))).trace, Phase E out fs s := put_trace (w := ⟨fs, [fs]⟩) h0 (.tmp hx ht)
    simp only
    split
    · exact unlinkIf_says hx (w := W.put ⟨fs, [fs]⟩ (fs.create (tempName out x))) ht h1
    · have hg := gzWrite_spec fs.next E.early ((E.pack E.text).take E.buffered) (W.put ⟨fs, [fs]⟩ (fs.create (tempName out x)))
      rcases hr : gzWrite fs.next E.early ((E.pack E.text).take E.buffered) (W.put ⟨fs, [fs]⟩ (fs.create (tempName out x))) with ⟨w', _ | _ | _⟩ <;> rw [hr] at hg <;>
        obtain ⟨a, b⟩ := trace_wrote hx (w := W.put ⟨fs, [fs]⟩ (fs.create (tempName out x))) ht h1 hg.1
      · exact ⟨a, .killed (.inl rfl) hx b⟩
      · exact ⟨a, .killed (.inr rfl) hx b⟩
      · simp only
        split
        · exact cleanUp_says hx b a
        · rename_i hd
          refine flushAndSync_says hx b a ?_ (by simpa using hd)
          rw [hg.2 rfl]
          simp [W.put, Fs.create, Fs.change]

/-! ## What is seen -/

theorem tempName_ne (out x : Str) : tempName out x ≠ out := by
  intro h
  have := congrArg List.length h
  simp [tempName, bs] at this

theorem InTmp.view_other {fs s : Fs} {t : Str} (h : InTmp fs t s) (hq : fs.Quiet) (hok : fs.Ok) {p : Str} (hp : p ≠ t) : s.view p = fs.view p := by
  refine view_same hq hok h.old p ?_
  rw [h.ent, apply_single, if_neg (Ne.symm hp)]

theorem unlink_free {fs : Fs} {t : Str} (hf : fs.ent t = none) (p : Str) : (fs.unlink t).view p = fs.view p := by
  show Option.map _ (Op.apply fs.ent [(t, none)] p) = _
  rw [apply_single]
  split
  · rename_i h; subst h; simp [Fs.view, hf]
  · rfl

theorem renamed_ent {fs s : Fs} {t out : Str} (h : InTmp fs t s) (hne : t ≠ out) (p : Str) :
    (s.rename t out).ent p = if p = t then none else if p = out then some fs.next else fs.disk p := by
  have e : s.ent t = some fs.next := by rw [h.ent, apply_single, if_pos rfl]
  rw [Fs.rename, if_neg hne]
  show Op.apply s.ent _ p = _
  rw [apply_two, e, h.ent, apply_single]
  grind

theorem renamed_ino {s : Fs} {t out : Str} : (s.rename t out).ino = s.ino := by
  rw [Fs.rename]; split <;> rfl

theorem renamed_view {fs s : Fs} {t out : Str} (h : InTmp fs t s) (hq : fs.Quiet) (hok : fs.Ok) (hne : t ≠ out) (p : Str) :
    (s.rename t out).view p = if p = t then none else if p = out then some (s.ino fs.next).1 else fs.view p := by
  rw [Fs.view, renamed_ent h hne, renamed_ino]
  split
  · rfl
  · split
    · rfl
    · rw [Fs.view, hq.2]
      cases hd : fs.disk p with
      | none => rfl
      | some i => simp [h.old i (hok p i hd)]

/-! ## Crashes -/

def Allowed2 (fs0 : Fs) (T : Str → Prop) (out msg : Str) (ino : Nat → Str × Bool) (p : Str) (e : Option Nat) : Prop :=
  e = fs0.disk p ∨ T p ∨ (p = out ∧ e = some fs0.next ∧ ino fs0.next = (msg, true))

structure Inv2 (fs0 : Fs) (T : Str → Prop) (out msg : Str) (s : Fs) : Prop where
  old : ∀ j, j < fs0.next → s.ino j = fs0.ino j
  disk : s.disk = fs0.disk
  pending : ∀ o ∈ s.pending, ∀ x ∈ o, Allowed2 fs0 T out msg s.ino x.1 x.2

theorem Inv2.crash {fs0 : Fs} {T : Str → Prop} {out msg : Str} {s : Fs} (h : Inv2 fs0 T out msg s) (hok : fs0.Ok)
    {v : Str → Option Str} (hv : s.Crash v) :
    ∃ v0, fs0.Crash v0 ∧ ∀ p, v p = v0 p ∨ T p ∨ (p = out ∧ v p = some msg) := by
  obtain ⟨l, hl, hv⟩ := hv
  have hall := applyAll_allowed (P := Allowed2 fs0 T out msg s.ino) l s.disk (fun p => .inl (by rw [h.disk])) (fun o ho => h.pending o (hl.subset ho))
  refine ⟨fun p => if applyAll s.disk l p = fs0.disk p then v p else (fs0.disk p).map (fun i => (fs0.ino i).1), ⟨[], List.nil_sublist _, fun p => ?_⟩, fun p => ?_⟩
  · show match fs0.disk p with | none => _ | some i => _
    have hvp := hv p
    by_cases he : applyAll s.disk l p = fs0.disk p
    · simp only [he, if_true]
      rw [he] at hvp
      cases hd : fs0.disk p with
      | none =>
        rw [hd] at hvp
        exact hvp
      | some i =>
        rw [hd] at hvp
        simp only at hvp ⊢
        rw [h.old i (hok p i hd)] at hvp
        exact hvp
    · simp only [he, if_false]
      cases hd : fs0.disk p with
      | none => rfl
      | some i => exact ⟨_, rfl, fun _ => rfl⟩
  · have hvp := hv p
    rcases hall p with e | e | ⟨hn, e, hi⟩
    · left; simp only [e, if_true]
    · exact .inr (.inl e)
    · right; right
      rw [e] at hvp
      obtain ⟨d, hd, hs⟩ := hvp
      rw [hi] at hs
      exact ⟨hn, by rw [hd, hs rfl]⟩

theorem Phase.inv2 {E : Env} {out : Str} {fs s : Fs} (hq : fs.Quiet) (htr : E.trailer = []) (h : Phase E out fs s) : Inv2 fs (E.isTemp out) out E.whole s := by
  have hT : ∀ {x}, E.suffix = some x → E.isTemp out (tempName out x) := fun hx => by rw [Env.isTemp, hx]; rfl
  cases h with
  | start => exact ⟨fun _ _ => rfl, rfl, fun o ho => by rw [hq.1] at ho; cases ho⟩
  | tmp hx h =>
    refine ⟨h.old, h.disk, fun o ho y hy => ?_⟩
    rw [h.pending] at ho
    rw [List.mem_singleton.1 ho] at hy
    rw [List.mem_singleton.1 hy]
    exact .inr (.inl (hT hx))
  | gone hx h =>
    refine ⟨h.old, h.disk, fun o ho y hy => ?_⟩
    have ho : o ∈ _ ++ [_] := ho
    rw [h.pending] at ho
    simp only [List.cons_append, List.nil_append, List.mem_cons, List.not_mem_nil, or_false] at ho
    rcases ho with rfl | rfl <;> rw [List.mem_singleton.1 hy] <;> exact .inr (.inl (hT hx))
  | tried hx =>
    refine ⟨fun _ _ => rfl, rfl, fun o ho y hy => ?_⟩
    have ho : o ∈ _ ++ [_] := ho
    rw [hq.1] at ho
    simp only [List.nil_append, List.mem_cons, List.not_mem_nil, or_false] at ho
    rw [ho, List.mem_singleton] at hy
    rw [hy]
    exact .inr (.inl (by rw [Env.isTemp, hx]; rfl))
  | @there x s hx h hw hs _ =>
    have hne := tempName_ne out x
    have hi : s.ino fs.next = (E.whole, true) := Prod.ext hw (hs htr)
    have e : s.ent (tempName out x) = some fs.next := by rw [h.ent, apply_single, if_pos rfl]
    rw [Fs.rename, if_neg hne]
    refine ⟨h.old, h.disk, fun o ho y hy => ?_⟩
    have ho : o ∈ _ ++ [_] := ho
    rw [h.pending, e] at ho
    simp only [List.cons_append, List.nil_append, List.mem_cons, List.not_mem_nil, or_false] at ho
    rcases ho with rfl | rfl
    · rw [List.mem_singleton.1 hy]; exact .inr (.inl (hT hx))
    · simp only [List.mem_cons, List.not_mem_nil, or_false] at hy
      rcases hy with rfl | rfl
      · exact .inr (.inl (hT hx))
      · exact .inr (.inr ⟨rfl, rfl, hi⟩)

end Notmuch.DumpFile
