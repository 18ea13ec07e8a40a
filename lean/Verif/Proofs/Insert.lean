import Verif.Proofs.Maildir
import Verif.Spec.Insert

namespace Notmuch.Insert

/-! ## Writing changes only the file -/

/-- Only the contents of one file differ. -/
def Wr (i : Nat) (f s : Fs) : Prop := s.ent = f.ent ∧ s.disk = f.disk ∧ s.pending = f.pending ∧ s.next = f.next ∧ ∀ j, j ≠ i → s.ino j = f.ino j

theorem Wr.refl (i : Nat) (f : Fs) : Wr i f f := ⟨rfl, rfl, rfl, rfl, fun _ _ => rfl⟩

theorem Wr.trans {i : Nat} {f g h : Fs} (a : Wr i f g) (b : Wr i g h) : Wr i f h :=
  ⟨b.1.trans a.1, b.2.1.trans a.2.1, b.2.2.1.trans a.2.2.1, b.2.2.2.1.trans a.2.2.2.1, fun j hj => (b.2.2.2.2 j hj).trans (a.2.2.2.2 j hj)⟩

theorem Wr.append (i : Nat) (f : Fs) (s : Str) : Wr i f (f.append i s) := ⟨rfl, rfl, rfl, rfl, fun _ h => if_neg h⟩

theorem Wr.sync (i : Nat) (f : Fs) : Wr i f (f.sync i) := ⟨rfl, rfl, rfl, rfl, fun _ h => if_neg h⟩

theorem append_ino (i : Nat) (f : Fs) (s : Str) : ((f.append i s).ino i).1 = (f.ino i).1 ++ s := by simp [Fs.append]

/-- The run from `w` to `w'` only wrote to a file. -/
def Wrote (i : Nat) (w w' : W) : Prop := Wr i w.fs w'.fs ∧ ∀ s ∈ w'.trace, s ∈ w.trace ∨ Wr i w.fs s

theorem Wrote.refl (i : Nat) (w : W) : Wrote i w w := ⟨Wr.refl i _, fun _ h => .inl h⟩

theorem Wrote.trans {i : Nat} {a b c : W} (h : Wrote i a b) (k : Wrote i b c) : Wrote i a c :=
  ⟨h.1.trans k.1, fun s hs => (k.2 s hs).elim (fun x => h.2 s x) (fun x => .inr (h.1.trans x))⟩

theorem Wrote.put {i : Nat} {w : W} {f : Fs} (h : Wr i w.fs f) : Wrote i w (w.put f) :=
  ⟨h, fun s hs => (List.mem_append.1 hs).elim .inl (fun x => .inr (List.mem_singleton.1 x ▸ h))⟩

theorem writeBuf_spec (i : Nat) : ∀ (ws : List WriteRes) (s : Str) (w : W),
    Wrote i w (writeBuf i ws s w).1 ∧ ((writeBuf i ws s w).2.2 = some true → (((writeBuf i ws s w).1.fs.ino i).1 = (w.fs.ino i).1 ++ s))
  | [], s, w => ⟨Wrote.refl i w, by simp [writeBuf]⟩
  | .err :: ws, s, w => ⟨Wrote.refl i w, by simp [writeBuf]⟩
  | .eintr :: ws, s, w => by
    rw [writeBuf]
    split
    · rename_i h
      exact ⟨Wrote.refl i w, by simp [h]⟩
    · exact writeBuf_spec i ws s w
  | .wrote n :: ws, s, w => by
    rw [writeBuf]
    split
    · exact ⟨Wrote.refl i w, by simp⟩
    · split
      · rename_i h
        refine ⟨Wrote.put (Wr.append i _ _), fun _ => ?_⟩
        have : s.take n = s := by
          have := List.take_append_drop n s
          rw [h, List.append_nil] at this
          exact this
        rw [this]
        exact append_ino i _ _
      · have ih := writeBuf_spec i ws (s.drop n) (w.put (w.fs.append i (s.take n)))
        refine ⟨(Wrote.put (Wr.append i _ _)).trans ih.1, fun h => ?_⟩
        rw [ih.2 h, show (w.put (w.fs.append i (s.take n))).fs = w.fs.append i (s.take n) from rfl, append_ino, List.append_assoc, List.take_append_drop]

/-- What `copy_fd` writes. -/
def content : Bool → List (Bool × ReadRes) → Str
  | _, [] => []
  | first, (_, .eintr) :: rs => content first rs
  | _, (_, .err) :: _ => []
  | first, (_, .got s) :: rs =>
    if s = [] then []
    else if first && s.take 5 = bs "From " then envelope ++ s.drop 5 ++ content false rs
    else s ++ content false rs

theorem copyRest_spec {loop : List WriteRes → W → W × Option Bool} {i : Nat} {c : Str}
    (hl : ∀ ws w, Wrote i w (loop ws w).1 ∧ ((loop ws w).2 = some true → ((loop ws w).1.fs.ino i).1 = (w.fs.ino i).1 ++ c)) (s : Str) (ws : List WriteRes) (w : W) :
    Wrote i w (copyRest loop i s ws w).1 ∧ ((copyRest loop i s ws w).2 = some true → ((copyRest loop i s ws w).1.fs.ino i).1 = (w.fs.ino i).1 ++ (s ++ c)) := by
  have h := writeBuf_spec i ws s w
  rw [copyRest]
  rcases hb : writeBuf i ws s w with ⟨w1, ws1, _ | _ | _⟩ <;> rw [hb] at h
  · exact ⟨h.1, by simp⟩
  · exact ⟨h.1, by simp⟩
  · have h2 := hl ws1 w1
    refine ⟨h.1.trans h2.1, fun e => ?_⟩
    have h3 := h.2 rfl
    rw [h2.2 e, h3, List.append_assoc]

theorem copyFd_spec (i : Nat) (sigEnd : Bool) : ∀ (rs : List (Bool × ReadRes)) (first empty : Bool) (ws : List WriteRes) (w : W),
    Wrote i w (copyFd i sigEnd first empty rs ws w).1 ∧
    ((copyFd i sigEnd first empty rs ws w).2 = some true → (((copyFd i sigEnd first empty rs ws w).1.fs.ino i).1 = (w.fs.ino i).1 ++ content first rs))
  | [], _, _, ws, w => ⟨Wrote.refl i w, by simp [copyFd]⟩
  | (true, r) :: rs, first, empty, ws, w => by cases r <;> exact ⟨Wrote.refl i w, by simp [copyFd]⟩
  | (false, .eintr) :: rs, first, empty, ws, w => by
    rw [copyFd, content]
    exact copyFd_spec i sigEnd rs first empty ws w
  | (false, .err) :: rs, first, empty, ws, w => ⟨Wrote.refl i w, by simp [copyFd]⟩
  | (false, .got s) :: rs, first, empty, ws, w => by
    rw [copyFd, content]
    split
    · exact ⟨Wrote.refl i w, by simp⟩
    · split
      · have h := writeBuf_spec i ws envelope w
        rcases hb : writeBuf i ws envelope w with ⟨w1, ws1, _ | _ | _⟩ <;> rw [hb] at h
        · exact ⟨h.1, by simp⟩
        · exact ⟨h.1, by simp⟩
        · have h2 := copyRest_spec (fun ws w => copyFd_spec i sigEnd rs false false ws w) (s.drop 5) ws1 w1
          refine ⟨h.1.trans h2.1, fun e => ?_⟩
          have h3 := h.2 rfl
          rw [h2.2 e, h3]
          simp
      · exact copyRest_spec (fun ws w => copyFd_spec i sigEnd rs false false ws w) s ws w

theorem content_false : ∀ rs : List (Bool × ReadRes), content false rs = received rs
  | [] => rfl
  | (_, .eintr) :: rs => by rw [content, received, content_false rs]
  | (_, .err) :: _ => rfl
  | (_, .got []) :: _ => rfl
  | (_, .got (c :: s)) :: rs => by
    simp [content, received, content_false rs]

theorem content_true : ∀ rs : List (Bool × ReadRes), FromWhole rs → content true rs = toDeliver (received rs)
  | [], _ => rfl
  | (_, .eintr) :: rs, h => content_true rs h
  | (_, .err) :: _, _ => rfl
  | (_, .got []) :: _, _ => rfl
  | (b, .got (c :: s)) :: rs, h => by
    have hr : received ((b, .got (c :: s)) :: rs) = (c :: s) ++ received rs := rfl
    have hw : ((c :: s) ++ received rs).take 5 = bs "From " → 5 ≤ (c :: s).length := h
    rw [content, if_neg (by simp), content_false, hr, toDeliver]
    by_cases h5 : 5 ≤ (c :: s).length
    · have e : ((c :: s) ++ received rs).take 5 = (c :: s).take 5 := List.take_append_of_le_length h5
      have e2 : ((c :: s) ++ received rs).drop 5 = (c :: s).drop 5 ++ received rs := List.drop_append_of_le_length h5
      rw [e, e2]
      by_cases hf : (c :: s).take 5 = bs "From "
      · simp [hf, envelope]
      · rw [if_neg hf, if_neg (by rw [Bool.true_and, decide_eq_true_eq]; exact hf)]
    · rw [if_neg (fun x => h5 (hw x)), if_neg]
      simp only [Bool.true_and, decide_eq_true_eq]
      intro x
      have := congrArg List.length x
      rw [List.length_take, Nat.min_eq_right (by omega)] at this
      simp [bs] at this
      simp at h5
      omega

/-! ## Names -/

theorem printInt_chars (i : Int) : ∀ c ∈ Sprinter.printInt i, c ≠ 47 ∧ c ≠ 58 := by
  have h : ∀ c : UInt8, isDigit c = true → c ≠ 47 ∧ c ≠ 58 := by apply forall_byte; decide +kernel
  intro c hc
  rw [Sprinter.printInt] at hc
  split at hc
  · rcases List.mem_cons.1 hc with rfl | hc
    · decide
    · exact h c (dec_digits _ c hc)
  · exact h c (dec_digits _ c hc)

theorem safeHostname_chars (h : Option Str) : ∀ c ∈ safeHostname h, c ≠ 47 ∧ c ≠ 58 := by
  intro c hc
  simp only [safeHostname] at hc
  obtain ⟨d, _, rfl⟩ := List.mem_map.1 hc
  have : ∀ d : UInt8, (if d = 47 || d = 58 then (95 : UInt8) else d) ≠ 47 ∧ (if d = 47 || d = 58 then (95 : UInt8) else d) ≠ 58 := by apply forall_byte; decide +kernel
  exact this d

theorem tempfilename_chars (a : Attempt) : ∀ c ∈ tempfilename a, c ≠ 47 ∧ c ≠ 58 := by
  intro c hc
  simp only [tempfilename, List.mem_append] at hc
  rcases hc with ((((((h | h) | h) | h) | h) | h) | h)
  · exact printInt_chars _ c h
  · revert c; decide
  · exact printInt_chars _ c h
  · revert c; decide
  · exact printInt_chars _ c h
  · revert c; decide
  · exact safeHostname_chars _ c h

def tmpOf (md : Str) (a : Attempt) : Str := md ++ bs "/tmp/" ++ tempfilename a
def newOf (md : Str) (a : Attempt) : Str := md ++ bs "/new/" ++ tempfilename a

theorem dirOf_tmp (md : Str) (a : Attempt) : dirOf (tmpOf md a) = md ++ bs "/tmp" := by
  have : tmpOf md a = (md ++ bs "/tmp") ++ 47 :: tempfilename a := by simp [tmpOf, bs]
  rw [dirOf, this, Maildir.rsplitSlash_append _ _ (fun h => (tempfilename_chars a 47 h).1 rfl)]

theorem dirOf_new (md : Str) (a : Attempt) : dirOf (newOf md a) = md ++ bs "/new" := by
  have : newOf md a = (md ++ bs "/new") ++ 47 :: tempfilename a := by simp [newOf, bs]
  rw [dirOf, this, Maildir.rsplitSlash_append _ _ (fun h => (tempfilename_chars a 47 h).1 rfl)]

theorem tmp_ne_new (md : Str) (a b : Attempt) : tmpOf md a ≠ newOf md b := by
  intro h
  have := congrArg dirOf h
  rw [dirOf_tmp, dirOf_new] at this
  have := List.append_cancel_left this
  exact absurd this (by decide)

theorem overwrite_tmp (md : Str) (a : Attempt) : overwrite (tmpOf md a) (md.length + 1) (bs "new") = newOf md a := by
  have h1 : (tmpOf md a).take (md.length + 1) = md ++ [47] := by
    have : tmpOf md a = (md ++ [47]) ++ (bs "tmp/" ++ tempfilename a) := by simp [tmpOf, bs]
    rw [this]
    exact List.take_left' (by simp)
  have h2 : (tmpOf md a).drop (md.length + 1 + (bs "new").length) = 47 :: tempfilename a := by
    have : tmpOf md a = (md ++ bs "/tmp") ++ (47 :: tempfilename a) := by simp [tmpOf, bs]
    rw [this]
    exact List.drop_left' (by simp [bs])
  rw [overwrite, h1, h2, newOf]
  simp [bs]

/-! ## States of the file system -/

/-- `p` may refer to `e` in a state reached from `fs0`. -/
def Allowed (fs0 : Fs) (T N : Str → Prop) (msg : Str) (ino : Nat → Str × Bool) (p : Str) (e : Option Nat) : Prop :=
  e = fs0.disk p ∨ T p ∨ (N p ∧ (e = none ∨ (e = some fs0.next ∧ ino fs0.next = (msg, true))))

structure Inv (fs0 : Fs) (T N : Str → Prop) (msg : Str) (s : Fs) : Prop where
  old : ∀ j, j < fs0.next → s.ino j = fs0.ino j
  disk : ∀ p, Allowed fs0 T N msg s.ino p (s.disk p)
  pending : ∀ o ∈ s.pending, ∀ x ∈ o, Allowed fs0 T N msg s.ino x.1 x.2

theorem apply_allowed {P : Str → Option Nat → Prop} {e : Str → Option Nat} {o : Op} (he : ∀ p, P p (e p)) (ho : ∀ x ∈ o, P x.1 x.2) (p : Str) : P p (o.apply e p) := by
  rw [Op.apply]
  split
  · rename_i x hx
    have := List.find?_some hx
    simp only [decide_eq_true_eq] at this
    rw [← this]
    exact ho x (List.mem_of_find?_eq_some hx)
  · exact he p

theorem applyAll_allowed {P : Str → Option Nat → Prop} : ∀ (l : List Op) (e : Str → Option Nat), (∀ p, P p (e p)) → (∀ o ∈ l, ∀ x ∈ o, P x.1 x.2) → ∀ p, P p (applyAll e l p)
  | [], _, he, _ => he
  | o :: l, e, he, hl => by
    intro p
    exact applyAll_allowed l (o.apply e) (apply_allowed he (hl o (by simp))) (fun o' h => hl o' (by simp [h])) p

/-- What a crash leaves in such a state. -/
theorem Inv.crash {fs0 : Fs} {T N : Str → Prop} {msg : Str} {s : Fs} (h : Inv fs0 T N msg s) (hq : fs0.Quiet) (hok : fs0.Ok)
    (hN : ∀ p, N p → fs0.ent p = none) {v : Str → Option Str} (hv : s.Crash v) :
    ∃ v0, fs0.Crash v0 ∧ ∀ p, v p = v0 p ∨ T p ∨ (N p ∧ v p = some msg) := by
  obtain ⟨l, hl, hv⟩ := hv
  have hall := applyAll_allowed (P := Allowed fs0 T N msg s.ino) l s.disk h.disk (fun o ho => h.pending o (hl.subset ho))
  have hent : fs0.ent = fs0.disk := hq.2
  refine ⟨fun p => if applyAll s.disk l p = fs0.disk p then v p else (fs0.disk p).map (fun i => (fs0.ino i).1), ⟨[], List.nil_sublist _, fun p => ?_⟩, fun p => ?_⟩
  · show match fs0.disk p with | none => _ | some i => _
    have hvp := hv p
    by_cases he : applyAll s.disk l p = fs0.disk p
    · simp only [he, if_true]
      rw [he] at hvp
      cases hd : fs0.disk p with
      | none =>
        rw [hd] at hvp
        exact hvp
      | some i =>
        rw [hd] at hvp
        simp only at hvp ⊢
        rw [h.old i (hok p i hd)] at hvp
        exact hvp
    · simp only [he, if_false]
      cases hd : fs0.disk p with
      | none => rfl
      | some i => exact ⟨_, rfl, fun _ => rfl⟩
  · have hvp := hv p
    rcases hall p with e | e | ⟨hn, e⟩
    · left; simp only [e, if_true]
    · exact .inr (.inl e)
    · rcases e with e | ⟨e, hi⟩
      · left
        have hd : fs0.disk p = none := by rw [← hent]; exact hN p hn
        simp only [e, hd, if_true]
      · right; right
        rw [e] at hvp
        obtain ⟨d, hd, hs⟩ := hvp
        rw [hi] at hs
        exact ⟨hn, by rw [hd, hs rfl]⟩

/-! ## The phases of a delivery -/

/-- A file was made in tmp. -/
structure InTmp (fs0 : Fs) (t : Str) (s : Fs) : Prop where
  old : ∀ j, j < fs0.next → s.ino j = fs0.ino j
  disk : s.disk = fs0.disk
  ent : s.ent = Op.apply fs0.disk [(t, some fs0.next)]
  pending : s.pending = [[(t, some fs0.next)]]
  free : fs0.disk t = none

theorem InTmp.wr {fs0 : Fs} {t : Str} {s s' : Fs} (h : InTmp fs0 t s) (hw : Wr fs0.next s s') : InTmp fs0 t s' where
  old j hj := (hw.2.2.2.2 j (by omega)).trans (h.old j hj)
  disk := hw.2.1.trans h.disk
  ent := hw.1.trans h.ent
  pending := hw.2.2.1.trans h.pending
  free := h.free

theorem InTmp.inv {fs0 : Fs} {t : Str} {s : Fs} (h : InTmp fs0 t s) {T N : Str → Prop} {msg : Str} (ht : T t) : Inv fs0 T N msg s where
  old := h.old
  disk p := .inl (by rw [h.disk])
  pending o ho x hx := by
    rw [h.pending] at ho
    simp only [List.mem_singleton] at ho
    subst ho
    simp only [List.mem_singleton] at hx
    subst hx
    exact .inr (.inl ht)

/-- Changing entries that may be changed. -/
theorem Inv.change {fs0 : Fs} {T N : Str → Prop} {msg : Str} {s : Fs} (h : Inv fs0 T N msg s) {o : Op} (ho : ∀ x ∈ o, Allowed fs0 T N msg s.ino x.1 x.2) :
    Inv fs0 T N msg (s.change o) where
  old := h.old
  disk := h.disk
  pending o' ho' x hx := by
    rcases List.mem_append.1 ho' with ho' | ho'
    · exact h.pending o' ho' x hx
    · rw [List.mem_singleton.1 ho'] at hx
      exact ho x hx

theorem Inv.syncDir {fs0 : Fs} {T N : Str → Prop} {msg : Str} {s : Fs} (h : Inv fs0 T N msg s) (d : Str) : Inv fs0 T N msg (s.syncDir d) where
  old := h.old
  disk := applyAll_allowed (P := Allowed fs0 T N msg s.ino) _ _ h.disk (fun o ho => h.pending o (List.mem_filter.1 ho).1)
  pending o ho := h.pending o (List.mem_filter.1 ho).1

theorem apply_single (e : Str → Option Nat) (q : Str) (x : Option Nat) (p : Str) : Op.apply e [(q, x)] p = if q = p then x else e p := by
  by_cases h : q = p <;> simp [Op.apply, h]

theorem apply_two (e : Str → Option Nat) (q r : Str) (x y : Option Nat) (p : Str) : Op.apply e [(q, x), (r, y)] p = if q = p then x else if r = p then y else e p := by
  by_cases h : q = p
  · simp [Op.apply, h]
  · by_cases h' : r = p
    · simp [Op.apply, h, h']
    · simp [Op.apply, h, h']

theorem view_same {fs0 s : Fs} (hq : fs0.Quiet) (hok : fs0.Ok) (old : ∀ j, j < fs0.next → s.ino j = fs0.ino j) (p : Str) (he : s.ent p = fs0.disk p) :
    s.view p = fs0.view p := by
  rw [Fs.view, Fs.view, he, hq.2]
  cases hd : fs0.disk p with
  | none => rfl
  | some i => simp [old i (hok p i hd)]

/-- After the file in tmp is unlinked everything looks as before. -/
theorem InTmp.unlink {fs0 : Fs} {t : Str} {s : Fs} (h : InTmp fs0 t s) (hq : fs0.Quiet) (hok : fs0.Ok) (p : Str) : (s.unlink t).view p = fs0.view p := by
  refine view_same (s := s.unlink t) hq hok h.old p ?_
  show Op.apply s.ent _ p = _
  rw [h.ent, apply_single, apply_single]
  by_cases ht : t = p
  · subst ht; simp [h.free]
  · simp [ht]

theorem InTmp.unlink_inv {fs0 : Fs} {t : Str} {s : Fs} (h : InTmp fs0 t s) {T N : Str → Prop} {msg : Str} (ht : T t) : Inv fs0 T N msg (s.unlink t) :=
  (h.inv ht).change (fun x hx => by rw [List.mem_singleton.1 hx]; exact .inr (.inl ht))

theorem mktemp_spec (md : Str) : ∀ (as : List Attempt) (w : W),
    (mktemp md as w = (w, none)) ∨ (mktemp md as w = (w, some none)) ∨
    ∃ a ∈ as, w.fs.ent (tmpOf md a) = none ∧ mktemp md as w = (w.put (w.fs.create (tmpOf md a)), some (some (tmpOf md a, w.fs.next)))
  | [], w => .inl rfl
  | a :: as, w => by
    rw [mktemp]
    split
    · rcases mktemp_spec md as w with h | h | ⟨b, hb, h⟩
      · exact .inl h
      · exact .inr (.inl h)
      · exact .inr (.inr ⟨b, by simp [hb], h⟩)
    · rename_i h
      split
      · exact .inr (.inl rfl)
      · exact .inr (.inr ⟨a, by simp, by simpa [tmpOf] using h, rfl⟩)

/-- What is known after `maildir_write_tmp`. -/
def TmpDone (E : Env) (fs0 : Fs) (md : Str) : W × Option (Option (Str × Nat)) → Prop
  | (_, none) => True
  | (w, some none) => E.cleanOk = true → ∀ p, w.fs.view p = fs0.view p
  | (w, some (some (t, i))) => ∃ a ∈ E.attempts, t = tmpOf md a ∧ i = fs0.next ∧ InTmp fs0 t w.fs ∧ w.fs.ino fs0.next = (content true E.reads, true)

theorem inv_start {fs0 : Fs} (hq : fs0.Quiet) {T N : Str → Prop} {msg : Str} : Inv fs0 T N msg fs0 where
  old _ _ := rfl
  disk _ := .inl rfl
  pending o ho := by rw [hq.1] at ho; cases ho

theorem unlinkIf_trace {ok : Bool} {p : Str} {w : W} {P : Fs → Prop} (h : ∀ s ∈ w.trace, P s) (hu : P (w.fs.unlink p)) : ∀ s ∈ (unlinkIf ok p w).trace, P s := by
  rw [unlinkIf]
  split
  · intro s hs
    rcases List.mem_append.1 hs with hs | hs
    · exact h s hs
    · rw [List.mem_singleton.1 hs]; exact hu
  · exact h

theorem put_trace {w : W} {fs : Fs} {P : Fs → Prop} (h : ∀ s ∈ w.trace, P s) (hu : P fs) : ∀ s ∈ (w.put fs).trace, P s := by
  intro s hs
  rcases List.mem_append.1 hs with hs | hs
  · exact h s hs
  · rw [List.mem_singleton.1 hs]; exact hu

theorem writeTmp_spec (E : Env) (md : Str) (fs0 : Fs) (hq : fs0.Quiet) (hok : fs0.Ok) {T N : Str → Prop} {msg : Str} (hT : ∀ a ∈ E.attempts, T (tmpOf md a)) :
    (∀ s ∈ (writeTmp E md ⟨fs0, [fs0]⟩).1.trace, Inv fs0 T N msg s) ∧ TmpDone E fs0 md (writeTmp E md ⟨fs0, [fs0]⟩) := by
  have h0 : ∀ s ∈ (⟨fs0, [fs0]⟩ : W).trace, Inv fs0 T N msg s := fun s hs => by rw [List.mem_singleton.1 hs]; exact inv_start hq
  rw [writeTmp]
  rcases mktemp_spec md E.attempts ⟨fs0, [fs0]⟩ with h | h | ⟨a, ha, hf, h⟩ <;> rw [h]
  · exact ⟨h0, trivial⟩
  · exact ⟨h0, fun _ _ => rfl⟩
  · have hin : InTmp fs0 (tmpOf md a) (fs0.create (tmpOf md a)) := by
      refine ⟨fun j hj => if_neg (by omega), rfl, ?_, ?_, ?_⟩
      · show Op.apply fs0.ent _ = _
        rw [hq.2]
      · show fs0.pending ++ _ = _
        rw [hq.1]; rfl
      · rw [← hq.2]; exact hf
    have h1 : ∀ s ∈ ((⟨fs0, [fs0]⟩ : W).put (fs0.create (tmpOf md a))).trace, Inv fs0 T N msg s := put_trace h0 (hin.inv (hT a ha))
    have hc := copyFd_spec fs0.next E.sigEnd E.reads true true E.writes ((⟨fs0, [fs0]⟩ : W).put (fs0.create (tmpOf md a)))
    simp only
    rcases hb : copyFd fs0.next E.sigEnd true true E.reads E.writes ((⟨fs0, [fs0]⟩ : W).put (fs0.create (tmpOf md a))) with ⟨w1, r⟩
    rw [hb] at hc
    have h2 : ∀ s ∈ w1.trace, Inv fs0 T N msg s := fun s hs => (hc.1.2 s hs).elim (h1 s) (fun x => (hin.wr x).inv (hT a ha))
    have hin1 : InTmp fs0 (tmpOf md a) w1.fs := hin.wr hc.1.1
    have hu : ∀ p, E.cleanOk = true → (unlinkIf E.cleanOk (tmpOf md a) w1).fs.view p = fs0.view p := by
      intro p hcl
      rw [unlinkIf, if_pos hcl]
      exact hin1.unlink hq hok p
    rcases r with _ | _ | _
    · exact ⟨h2, trivial⟩
    · exact ⟨unlinkIf_trace h2 (hin1.unlink_inv (hT a ha)), fun hcl p => hu p hcl⟩
    · simp only
      split
      · have hin2 := hin1.wr (Wr.sync fs0.next w1.fs)
        refine ⟨put_trace h2 (hin2.inv (hT a ha)), a, ha, rfl, rfl, hin2, ?_⟩
        have := hc.2 rfl
        rw [show (((⟨fs0, [fs0]⟩ : W).put (fs0.create (tmpOf md a))).fs.ino fs0.next).1 = [] by simp [W.put, Fs.create, Fs.change]] at this
        show ((w1.fs.sync fs0.next).ino fs0.next) = _
        simp only [Fs.sync, if_true]
        rw [this]
        rfl
      · exact ⟨unlinkIf_trace h2 (hin1.unlink_inv (hT a ha)), fun hcl p => hu p hcl⟩

end Notmuch.Insert
