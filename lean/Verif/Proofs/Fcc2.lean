import Verif.Proofs.Fcc
import Verif.Spec.Fcc

namespace Notmuch.Fcc

theorem keeps_refl (a : Fs) : Keeps a a := ⟨fun _ h => h, fun _ _ => rfl⟩

theorem keeps_trans {a b c : Fs} (h1 : Keeps a b) (h2 : Keeps b c) : Keeps a c := by
  refine ⟨fun d hd => h2.1 d (h1.1 d hd), fun p hp => ?_⟩
  have e := h1.2 p hp
  rw [h2.2 p (by rw [e]; exact hp), e]

theorem keeps_dirs (fs : Fs) (ds : List Str) : Keeps fs { fs with dirs := ds ++ fs.dirs } :=
  ⟨fun _ h => List.mem_append.2 (Or.inr h), fun _ _ => rfl⟩

theorem write_keeps (E : Env) (fs : Fs) (count : Nat) (dest msg : Str) (seen : Bool) (fault : Fault) :
    ∀ s ∈ (writeBuffer E fs count dest msg seen fault).trace, Keeps fs s := by
  intro s hs
  have h := write_safe E fs count dest msg seen fault s hs
  have hfree := (get_none_of (uniq_free E fs dest count)).1
  refine ⟨fun d hd => by rw [h.dirs]; exact hd, fun p hp => ?_⟩
  by_cases e : p = dest ++ bs "/tmp/" ++ E.name (next E fs dest count)
  · rw [e] at hp; exact absurd hfree hp
  · rcases h.file p e with h | ⟨_, h, _⟩
    · exact h
    · exact absurd h hp

theorem create_keeps {fs fs' : Fs} {d : Str} (h : createMaildir fs d = some fs') : Keeps fs fs' := by
  unfold createMaildir at h
  split at h
  · cases h
  · cases h
    exact ⟨fun x hx => by simp [hx], fun _ _ => rfl⟩

theorem file_keeps (E : Env) (msg : Str) (fault : Fault) (answers : List Answer) : ∀ fs count header,
    ∀ s ∈ (fileFcc E msg fault fs count header answers).trace, Keeps fs s := by
  induction answers with
  | nil =>
    intro fs count header s hs
    unfold fileFcc at hs
    split at hs
    · exact write_keeps _ _ _ _ _ _ _ s hs
    · cases hs
  | cons a as ih =>
    intro fs count header s hs
    unfold fileFcc at hs
    split at hs
    · exact write_keeps _ _ _ _ _ _ _ s hs
    · cases a with
      | retry made =>
        rcases List.mem_cons.1 hs with rfl | hs
        · exact keeps_dirs fs made
        · exact keeps_trans (keeps_dirs fs made) (ih _ _ _ s hs)
      | create w =>
        cases w
        · exact ih _ _ _ s hs
        · simp only at hs
          split at hs
          · cases hs
          · rename_i fs' hc
            rcases List.mem_cons.1 hs with rfl | hs
            · exact create_keeps hc
            · exact keeps_trans (create_keeps hc) (ih _ _ _ s hs)
      | ignore => cases hs
      | edit h => exact ih _ _ _ s hs

theorem final_mem {fs : Fs} {l : List Fs} : final fs l = fs ∧ l = [] ∨ final fs l ∈ l := by
  unfold final
  cases h : l.getLast? with
  | none => exact Or.inl ⟨rfl, List.getLast?_eq_none_iff.1 h⟩
  | some x => exact Or.inr (List.mem_of_getLast? h)

theorem final_cons (fs a : Fs) (l : List Fs) : final fs (a :: l) = final a l := by
  unfold final
  cases l with
  | nil => rfl
  | cons b l => simp [List.getLast?_cons]

theorem final_append (fs : Fs) (l l' : List Fs) : final fs (l ++ l') = final (final fs l) l' := by
  unfold final
  cases h : l'.getLast? with
  | none => rw [List.getLast?_eq_none_iff.1 h]; simp
  | some x => simp [List.getLast?_append, h]

theorem file_final_keeps (E : Env) (msg : Str) (fault : Fault) (answers : List Answer) (fs : Fs) (count : Nat) (header : Str) :
    Keeps fs (final fs (fileFcc E msg fault fs count header answers).trace) := by
  rcases final_mem (fs := fs) (l := (fileFcc E msg fault fs count header answers).trace) with ⟨h, _⟩ | h
  · rw [h]; exact keeps_refl fs
  · exact file_keeps _ _ _ _ _ _ _ _ h

theorem isMaildir_mono {a b : Fs} {d : Str} (h : ∀ x ∈ a.dirs, x ∈ b.dirs) (hm : isMaildir a d = true) : isMaildir b d = true := by
  unfold isMaildir at *
  simp only [Bool.and_eq_true, List.contains_iff_mem] at *
  exact ⟨⟨h _ hm.1.1, h _ hm.1.2⟩, h _ hm.2⟩

theorem target_seen (dir n : Str) : target dir n true = dir ++ bs "/cur/" ++ n ++ bs ":2,S" := by
  unfold target
  rw [if_pos rfl, List.append_assoc]
  rfl

theorem maildir_dirs {b : Fs} {d : Str} (h : isMaildir b d = true) : ∀ sub ∈ [bs "/cur", bs "/new", bs "/tmp"], d ++ sub ∈ b.dirs := by
  unfold isMaildir at h
  simp only [Bool.and_eq_true, List.contains_iff_mem] at h
  intro sub hs
  simp only [List.mem_cons, List.not_mem_nil, or_false] at hs
  rcases hs with rfl | rfl | rfl
  · exact h.1.1
  · exact h.1.2
  · exact h.2

theorem file_done (E : Env) (msg : Str) (fault : Fault) (answers : List Answer) : ∀ fs count header,
    (fileFcc E msg fault fs count header answers).fin = .done → .ignore ∉ answers →
    NoDir E fs → (∀ s ∈ (fileFcc E msg fault fs count header answers).trace, NoDir E s) →
    (∀ dir c, count < c → fs.get (target dir (E.name c) true) = none) →
    count < (fileFcc E msg fault fs count header answers).count ∧
    (∃ p, Saved E msg fs (final fs (fileFcc E msg fault fs count header answers).trace) p) ∧
    ∀ dir c, (fileFcc E msg fault fs count header answers).count < c →
      (final fs (fileFcc E msg fault fs count header answers).trace).get (target dir (E.name c) true) = none := by
  have base : ∀ fs count header, isMaildir fs header = true →
      (writeBuffer E fs count header msg true fault).fin = .done → NoDir E fs →
      (∀ dir c, count < c → fs.get (target dir (E.name c) true) = none) →
      count < (writeBuffer E fs count header msg true fault).count ∧
      (∃ p, Saved E msg fs (final fs (writeBuffer E fs count header msg true fault).trace) p) ∧
      ∀ dir c, (writeBuffer E fs count header msg true fault).count < c →
        (final fs (writeBuffer E fs count header msg true fault).trace).get (target dir (E.name c) true) = none := by
    intro fs count header hm hd hn hfree
    have hgt : count < next E fs header count := uniq_gt _ _ _ _ _
    have hex : fs.exists (target header (E.name (next E fs header count)) true) = false :=
      exists_iff.2 ⟨hfree _ _ hgt, by rw [target_seen]; exact hn _ _⟩
    obtain ⟨rfl, _⟩ := write_done E fs count header msg true fault hd hex
    obtain ⟨_, h2, h3, h4⟩ := write_saved E fs count header msg true hm hex
    rw [h2]
    refine ⟨hgt, ⟨_, ⟨header, _, target_seen _ _, maildir_dirs (isMaildir_mono (fun x hx => by rw [h3]; exact hx) hm)⟩, hfree _ _ hgt, ?_⟩, ?_⟩
    · rw [h4, if_pos rfl]
    · intro dir c hc
      rw [h4, if_neg, hfree _ _ (Nat.lt_trans hgt hc)]
      intro e
      have := target_inj e
      omega
  induction answers with
  | nil =>
    intro fs count header
    unfold fileFcc
    split
    · rename_i hm
      intro hd _ hn _ hf
      exact base fs count header hm hd hn hf
    · intro hd; cases hd
  | cons a as ih =>
    intro fs count header
    unfold fileFcc
    split
    · rename_i hm
      intro hd _ hn _ hf
      exact base fs count header hm hd hn hf
    · intro hd hi hn ht hf
      have hi' : .ignore ∉ as := fun h => hi (List.mem_cons_of_mem _ h)
      cases a with
      | retry made =>
        simp only at hd ht ⊢
        have hn' := ht _ (List.mem_cons_self ..)
        obtain ⟨h1, ⟨p, h2, h3, h4⟩, h5⟩ := ih { fs with dirs := made ++ fs.dirs } count header hd hi' hn'
          (fun s hs => ht s (List.mem_cons_of_mem _ hs)) hf
        rw [final_cons]
        exact ⟨h1, ⟨p, h2, h3, h4⟩, h5⟩
      | create w =>
        cases w
        · exact ih fs count header hd hi' hn ht hf
        · simp only at hd ht ⊢
          cases hc : createMaildir fs header with
          | none => rw [hc] at hd; cases hd
          | some fs' =>
            rw [hc] at hd ht
            simp only at hd ht ⊢
            have hn' := ht _ (List.mem_cons_self ..)
            have hg : ∀ p, fs'.get p = fs.get p := by
              unfold createMaildir at hc
              split at hc
              · cases hc
              · cases hc; intro p; rfl
            obtain ⟨h1, ⟨p, h2, h3, h4⟩, h5⟩ := ih fs' count header hd hi' hn'
              (fun s hs => ht s (List.mem_cons_of_mem _ hs)) (fun d c hc => by rw [hg]; exact hf d c hc)
            rw [final_cons]
            exact ⟨h1, ⟨p, h2, by rw [← hg]; exact h3, h4⟩, h5⟩
      | ignore => exact absurd (List.mem_cons_self ..) hi
      | edit h => exact ih fs count h hd hi' hn ht hf

theorem all_keeps (E : Env) (msg : Str) (jobs : List (Str × List Answer × Fault)) : ∀ fs count,
    ∀ s ∈ (handleAll E msg fs count jobs).trace, Keeps fs s := by
  induction jobs with
  | nil => intro fs count s hs; cases hs
  | cons j js ih =>
    obtain ⟨f, as, fault⟩ := j
    intro fs count s hs
    unfold handleAll at hs
    simp only at hs
    split at hs
    · rcases List.mem_append.1 hs with h | h
      · exact file_keeps _ _ _ _ _ _ _ s h
      · exact keeps_trans (file_final_keeps _ _ _ _ _ _ _) (ih _ _ s h)
    · exact file_keeps _ _ _ _ _ _ _ s hs

theorem all_done (E : Env) (msg : Str) (jobs : List (Str × List Answer × Fault)) : ∀ fs count,
    (handleAll E msg fs count jobs).fin = .done → (∀ j ∈ jobs, .ignore ∉ j.2.1) →
    NoDir E fs → (∀ s ∈ (handleAll E msg fs count jobs).trace, NoDir E s) →
    (∀ dir c, count < c → fs.get (target dir (E.name c) true) = none) →
    ∃ ps : List Str, ps.length = jobs.length ∧ ps.Nodup ∧
      ∀ p ∈ ps, Saved E msg fs (final fs (handleAll E msg fs count jobs).trace) p := by
  induction jobs with
  | nil => intro fs count _ _ _ _ _; exact ⟨[], rfl, List.nodup_nil, fun p hp => by cases hp⟩
  | cons j js ih =>
    obtain ⟨f, as, fault⟩ := j
    intro fs count hd hi hn ht hf
    unfold handleAll at hd ht ⊢
    simp only at hd ht ⊢
    cases hr : (fileFcc E msg fault fs count f as).fin with
    | done =>
      simp only [hr] at hd ht ⊢
      obtain ⟨h1, ⟨p, ⟨dir, c, hp, hmd⟩, hp2, hp3⟩, h5⟩ := file_done E msg fault as fs count f hr (hi _ (List.mem_cons_self ..)) hn
        (fun s hs => ht s (List.mem_append.2 (Or.inl hs))) hf
      have hn' : NoDir E (final fs (fileFcc E msg fault fs count f as).trace) := by
        rcases final_mem (fs := fs) (l := (fileFcc E msg fault fs count f as).trace) with ⟨h, _⟩ | h
        · rw [h]; exact hn
        · exact ht _ (List.mem_append.2 (Or.inl h))
      obtain ⟨ps, hl, hnd, hps⟩ := ih (final fs (fileFcc E msg fault fs count f as).trace) _ hd (fun j hj => hi j (List.mem_cons_of_mem _ hj)) hn'
        (fun s hs => ht s (List.mem_append.2 (Or.inr hs))) h5
      rw [final_append]
      have hk : Keeps (final fs (fileFcc E msg fault fs count f as).trace)
          (final (final fs (fileFcc E msg fault fs count f as).trace)
            (handleAll E msg (final fs (fileFcc E msg fault fs count f as).trace) (fileFcc E msg fault fs count f as).count js).trace) := by
        rcases final_mem (fs := final fs (fileFcc E msg fault fs count f as).trace)
          (l := (handleAll E msg (final fs (fileFcc E msg fault fs count f as).trace) (fileFcc E msg fault fs count f as).count js).trace) with ⟨h, _⟩ | h
        · rw [h]; exact keeps_refl _
        · exact all_keeps _ _ _ _ _ _ h
      have hk0 := file_final_keeps E msg fault as fs count f
      refine ⟨p :: ps, by simp [hl], List.nodup_cons.2 ⟨fun hmem => ?_, hnd⟩, fun q hq => ?_⟩
      · have := (hps p hmem).2.1
        rw [hp3] at this
        cases this
      · rcases List.mem_cons.1 hq with rfl | hq
        · refine ⟨⟨dir, c, hp, fun sub hs => hk.1 _ (hmd sub hs)⟩, hp2, ?_⟩
          rw [hk.2 _ (by rw [hp3]; simp), hp3]
        · obtain ⟨h1, h2, h3⟩ := hps q hq
          refine ⟨h1, ?_, h3⟩
          cases hg : fs.get q with
          | none => rfl
          | some x =>
            have := hk0.2 q (by rw [hg]; simp)
            rw [h2, hg] at this
            cases this
    | error => simp only [hr] at hd; cases hd
    | asking => simp only [hr] at hd; cases hd

/-! ### The headers -/

theorem takeFcc_spec : ∀ (n : Nat) (hs : List (Str × Str)) (files : List Str), hs.length ≤ n →
    takeFcc n hs files = (((hs.filter (fun h => isFcc h.1)).map Prod.snd).reverse ++ files, hs.filter (fun h => !isFcc h.1)) := by
  intro n
  induction n with
  | zero =>
    intro hs files h
    have : hs = [] := List.length_eq_zero_iff.1 (by omega)
    subst this
    rfl
  | succ n ih =>
    intro hs files hl
    unfold takeFcc
    cases hf : hs.find? (fun h => isFcc h.1) with
    | none =>
      simp only
      rw [List.find?_eq_none] at hf
      have e1 : hs.filter (fun h => isFcc h.1) = [] := List.filter_eq_nil_iff.2 hf
      have e2 : hs.filter (fun h => !isFcc h.1) = hs := List.filter_eq_self.2 (fun a ha => by simpa using hf a ha)
      rw [e1, e2]; rfl
    | some h =>
      simp only
      obtain ⟨hp, as, bs, e, hns⟩ := List.find?_eq_some_iff_append.1 hf
      have he : hs.eraseP (fun h => isFcc h.1) = as ++ bs := by
        rw [e, List.eraseP_append_right _ (fun b hb => by simpa using hns b hb), List.eraseP_cons_of_pos (p := fun h : Str × Str => isFcc h.1) (a := h) hp]
      rw [he, ih _ _ (by rw [e] at hl; simp at hl ⊢; omega)]
      have e1 : as.filter (fun h => isFcc h.1) = [] := List.filter_eq_nil_iff.2 (fun a ha => by simpa using hns a ha)
      rw [e]
      simp only [List.filter_append, List.filter_cons, e1, hp, if_true, List.nil_append, Bool.not_true, Bool.false_eq_true, if_false]
      simp

end Notmuch.Fcc
