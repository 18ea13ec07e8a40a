import Verif.Base.ListLemmas
import Verif.Model.StringUtil
import Verif.Spec.BoolTerm

namespace Notmuch.StringUtil
open BoolTermSpec

theorem quoteBody_doubled (t : Str) : Doubled t (quoteBody t) := by
  induction t with
  | nil => exact .nil
  | cons c s ih =>
    unfold quoteBody
    split
    · rename_i h; subst h; exact .quote ih
    · rename_i h; exact .other h ih

theorem quoteBody_length (t : Str) :
    (quoteBody t).length = (t.map (fun c => if c = 34 then 2 else 1)).sum := by
  induction t with
  | nil => rfl
  | cons c s ih => unfold quoteBody; split <;> simp_all <;> omega

theorem make_length (pre : Option Str) (t : Str) :
    (makeBooleanTerm pre t).length + 1 = makeNeeded pre t := by
  unfold makeBooleanTerm makeNeeded
  cases pre <;> cases needQuoting t <;> simp [quoteBody_length] <;> omega

theorem dequote_quote (s : Str) : dequote (34 :: 34 :: s) = (34 :: (dequote s).1, (dequote s).2) := by
  rw [dequote.eq_def]; simp

theorem dequote_other {c : UInt8} (hc : c ≠ 34) (s : Str) :
    dequote (c :: s) = (c :: (dequote s).1, (dequote s).2) := by
  rw [dequote.eq_def]; simp [hc]

theorem dequote_close (w : Str) (hw : w.head? ≠ some 34) :
    dequote (34 :: w) = ([], some (skipSpace w)) := by
  cases w with
  | nil => rw [dequote.eq_def]; simp [skipSpace]
  | cons d w =>
    rw [dequote.eq_def]
    simp at hw
    simp [hw]

theorem dequote_doubled {t q : Str} (h : Doubled t q) (w : Str) (hw : w.head? ≠ some 34) :
    dequote (q ++ 34 :: w) = (t, some (skipSpace w)) := by
  induction h with
  | nil => exact dequote_close w hw
  | quote _ ih => rw [List.cons_append, List.cons_append, dequote_quote, ih]
  | other hc _ ih => rw [List.cons_append, dequote_other hc, ih]

theorem dequote_sound (s : Str) : ∀ rest, (dequote s).2 = some rest →
    ∃ q w, Doubled (dequote s).1 q ∧ s = q ++ 34 :: w ∧ rest = skipSpace w := by
  induction s using dequote.induct with
  | case1 => intro rest h; simp [dequote] at h
  | case2 d s' hd =>
    intro rest h
    rw [dequote_close _ (by simpa using hd)] at h ⊢
    simp at h
    exact ⟨[], _, .nil, rfl, h.symm⟩
  | case3 d s' hd ih =>
    intro rest h
    have hd : d = 34 := by simpa using hd
    subst hd
    rw [dequote_quote] at h ⊢
    obtain ⟨q, w, hq, e, hr⟩ := ih rest h
    exact ⟨34 :: 34 :: q, w, .quote hq, by simp [e], hr⟩
  | case4 =>
    intro rest h
    refine ⟨[], [], .nil, rfl, ?_⟩
    simp [dequote] at h; simp [h, skipSpace]
  | case5 c s' hc ih =>
    intro rest h
    rw [dequote_other hc] at h ⊢
    obtain ⟨q, w, hq, e, hr⟩ := ih rest h
    exact ⟨c :: q, w, .other hc hq, by simp [e], hr⟩

theorem dequote_length (s : Str) : (dequote s).1.length ≤ s.length ∧
    ((dequote s).2.isSome → (dequote s).1.length < s.length) := by
  induction s using dequote.induct with
  | case1 => simp [dequote]
  | case2 d s' hd => rw [dequote_close _ (by simpa using hd)]; simp
  | case3 d s' hd ih =>
    have hd : d = 34 := by simpa using hd
    subst hd
    rw [dequote_quote]
    simp only [List.length_cons]
    exact ⟨by omega, fun h => by have := ih.2 h; omega⟩
  | case4 => simp [dequote]
  | case5 c s' hc ih =>
    rw [dequote_other hc]
    simp only [List.length_cons]
    exact ⟨by omega, fun h => by have := ih.2 h; omega⟩

theorem skipSpace_blank (w : Str) : skipSpace w = [] ↔ Blank w :=
  ⟨fun h => dropWhile_eq_nil_all _ _ h, fun h => dropWhile_eq_nil_of _ _ h⟩

theorem blank_head {w : Str} (h : Blank w) : w.head? ≠ some 34 := by
  cases w with
  | nil => simp
  | cons a w =>
    have := h a (by simp)
    intro e; simp at e; subst e; revert this; decide

theorem space_terminator : ∀ c : UInt8, isSpace c = true → isUnquotedTerminator c = true := by
  apply forall_byte; decide +kernel

theorem terminator_iff : ∀ c : UInt8, isUnquotedTerminator c = false ↔ (32 < c ∧ c ≠ 41) := by
  apply forall_byte; decide +kernel

theorem skip_prefix {w p : Str} (hw : Blank w) (hp : LegalPrefix p) (r : Str) :
    skipSpace (w ++ (p ++ r)) = p ++ r := by
  unfold skipSpace
  rw [dropWhile_append_all _ _ _ hw, dropWhile_eq_self_of_head]
  intro c hc
  obtain ⟨h1, _, h3⟩ := hp
  cases p with
  | nil => exact absurd rfl h1
  | cons a p => exact h3 c (by simpa using hc)

theorem parse_prefix {w p : Str} (hw : Blank w) (hp : LegalPrefix p) (pos : Str) :
    parseBooleanTerm (w ++ (p ++ 58 :: pos)) = (parseTermBody pos).map (fun t => (p, t)) := by
  unfold parseBooleanTerm
  rw [skip_prefix hw hp]
  have hne : ∀ a ∈ p, (a != 58) = true := by
    intro a ha; simp; rintro rfl; exact hp.2.1 ha
  simp only [dropWhile_append_stop (· != 58) p 58 pos hne (by decide),
    takeWhile_append_stop (· != 58) p 58 pos hne (by decide)]
  have : p.isEmpty = false := by simpa using hp.1
  simp only [this, Bool.false_eq_true, if_false]

theorem parseTermBody_bare {pos : Str} (h : pos.head? ≠ some 34) :
    parseTermBody pos = if skipSpace (pos.dropWhile (fun c => !isUnquotedTerminator c)) = [] then
          some (pos.takeWhile (fun c => !isUnquotedTerminator c)) else none := by
  unfold parseTermBody
  split
  · simp at h
  · rfl

theorem parse_of_reads {s p t : Str} (h : Reads s p t) : parseBooleanTerm s = some (p, t) := by
  obtain ⟨hp, w, w', hw, hw', (⟨hb, rfl⟩ | ⟨q, hq, rfl⟩)⟩ := h
  · have e : w ++ p ++ [58] ++ t ++ w' = w ++ (p ++ 58 :: (t ++ w')) := by simp
    rw [e, parse_prefix hw hp]
    have ht : ∀ a ∈ t, (!isUnquotedTerminator a) = true := by
      intro a ha
      simp [(terminator_iff a).2 (hb.1 a ha)]
    have htw : (t ++ w').takeWhile (fun c => !isUnquotedTerminator c) = t ∧
        (t ++ w').dropWhile (fun c => !isUnquotedTerminator c) = w' := by
      cases w' with
      | nil => simp [takeWhile_eq_self_of _ _ ht, dropWhile_eq_nil_of _ _ ht]
      | cons x w' =>
        have hx : (!isUnquotedTerminator x) = false := by
          simp [space_terminator x (hw' x (by simp))]
        exact ⟨takeWhile_append_stop _ t x w' ht hx, dropWhile_append_stop _ t x w' ht hx⟩
    have hhead : (t ++ w').head? ≠ some 34 := by
      cases t with
      | nil => exact blank_head hw'
      | cons a t => intro e; exact hb.2 (by simpa using e)
    rw [parseTermBody_bare hhead, htw.1, htw.2, (skipSpace_blank w').2 hw']; simp
  · have e : w ++ p ++ [58] ++ ([34] ++ q ++ [34]) ++ w' = w ++ (p ++ 58 :: (34 :: (q ++ 34 :: w'))) := by
      simp
    rw [e, parse_prefix hw hp]
    simp only [parseTermBody, dequote_doubled hq w' (blank_head hw'), (skipSpace_blank w').2 hw']
    rfl

theorem parseTermBody_sound {pos t : Str} (h : parseTermBody pos = some t) :
    ∃ w', Blank w' ∧ ((BareTerm t ∧ pos = t ++ w') ∨
      (∃ q, Doubled t q ∧ pos = [34] ++ q ++ [34] ++ w')) := by
  by_cases hq : pos.head? = some 34
  · obtain ⟨body, rfl⟩ : ∃ body, pos = 34 :: body := by
      cases pos with
      | nil => simp at hq
      | cons a l => simp at hq; exact ⟨l, by rw [hq]⟩
    simp only [parseTermBody] at h
    split at h
    · rename_i out heq
      simp at h
      subst h
      obtain ⟨q, w', hq, e, hr⟩ := dequote_sound body [] (by rw [heq])
      rw [heq] at hq
      exact ⟨w', (skipSpace_blank w').1 hr.symm, Or.inr ⟨q, hq, by rw [e]; simp⟩⟩
    · simp at h
  · rw [parseTermBody_bare hq] at h
    split at h
    · rename_i hr
      simp at h
      subst h
      refine ⟨pos.dropWhile (fun c => !isUnquotedTerminator c), (skipSpace_blank _).1 hr,
        Or.inl ⟨⟨?_, ?_⟩, (List.takeWhile_append_dropWhile).symm⟩⟩
      · intro c hc
        have := takeWhile_all _ _ c hc
        exact (terminator_iff c).1 (by simpa using this)
      · intro hh
        cases pos with
        | nil => simp at hh
        | cons a pos =>
          rw [List.takeWhile_cons] at hh
          split at hh
          · exact hq (by simpa using hh)
          · simp at hh
    · simp at h

theorem reads_of_parse {s p t : Str} (h : parseBooleanTerm s = some (p, t)) : Reads s p t := by
  unfold parseBooleanTerm at h
  have hs : s = s.takeWhile isSpace ++ skipSpace s := by
    unfold skipSpace; exact (List.takeWhile_append_dropWhile).symm
  have hsp : (skipSpace s) = (skipSpace s).takeWhile (· != 58) ++ (skipSpace s).dropWhile (· != 58) :=
    (List.takeWhile_append_dropWhile).symm
  cases hd : (skipSpace s).dropWhile (· != 58) with
  | nil => simp [hd] at h
  | cons x pos =>
    have hx : x = 58 := by simpa using dropWhile_head _ _ _ _ hd
    subst hx
    simp only [hd] at h
    split at h
    · simp at h
    · rename_i hpe
      have hlegal : LegalPrefix ((skipSpace s).takeWhile (· != 58)) := by
        refine ⟨by simpa using hpe, ?_, ?_⟩
        · intro hm
          have := takeWhile_all _ _ 58 hm
          simp at this
        · intro c hc
          apply dropWhile_head isSpace s c (skipSpace s).tail
          show skipSpace s = _
          cases hk : skipSpace s with
          | nil => simp [hk] at hc
          | cons a k =>
            rw [hk, List.takeWhile_cons] at hc
            split at hc
            · simp at hc; simp [hc]
            · simp at hc
      rw [Option.map_eq_some_iff] at h
      obtain ⟨t', ht, e⟩ := h
      simp at e
      obtain ⟨rfl, rfl⟩ := e
      obtain ⟨w', hw', hc⟩ := parseTermBody_sound ht
      refine ⟨hlegal, s.takeWhile isSpace, w', takeWhile_all _ _, hw', ?_⟩
      rw [hsp, hd] at hs
      rcases hc with ⟨hb, e⟩ | ⟨q, hq, e⟩
      · refine Or.inl ⟨hb, ?_⟩
        rw [e] at hs
        simpa using hs
      · refine Or.inr ⟨q, hq, ?_⟩
        rw [e] at hs
        simpa using hs

theorem needQuoting_bare : ∀ t : Str, needQuoting t = false → BareTerm t := by
  intro t h
  unfold needQuoting at h
  simp only [Bool.or_eq_false_iff, List.any_eq_false] at h
  obtain ⟨he, ha⟩ := h
  refine ⟨fun c hc => ?_, ?_⟩
  · have := ha c hc
    simp only [Bool.or_eq_true, not_or, Bool.not_eq_true] at this
    exact (terminator_iff c).1 this.1.1.1
  · cases t with
    | nil => simp at he
    | cons a t =>
      have := ha a (by simp)
      intro e; simp at e; subst e
      simp at this

theorem make_reads (p t : Str) (hp : LegalPrefix p) : Reads (makeBooleanTerm (some p) t) p t := by
  refine ⟨hp, [], [], by simp [Blank], by simp [Blank], ?_⟩
  cases h : needQuoting t
  · exact Or.inl ⟨needQuoting_bare t h, by simp [makeBooleanTerm, h]⟩
  · exact Or.inr ⟨quoteBody t, quoteBody_doubled t, by simp [makeBooleanTerm, h]⟩

end Notmuch.StringUtil
