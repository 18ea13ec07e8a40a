import Verif.Proofs.TimeFixed

/-! # Proofs: timestamps -/

namespace Notmuch.Time

def stampFields (t : Int) : List (Field × Int) := absFields.map (fun f => (f, tmField (fieldsOf t) f)) ++ [(.tz, 0)]

/-- The fields that a timestamp gives. -/
def gStamp (t : Int) : Given := Given.none.addAll (stampFields t)

theorem stamp_tm (t : Int) (f : Field) : (gStamp t).tm f = if f ∈ absFields then tmField (fieldsOf t) f else 0 := by
  cases f <;> simp [gStamp, stampFields, absFields, Given.addAll, Given.add, Given.none, put]

theorem stamp_set (t : Int) (f : Field) : (gStamp t).set f = if f ∈ absFields ∨ f = .tz then .set else .unset := by
  cases f <;> simp [gStamp, stampFields, absFields, Given.addAll, Given.add, Given.none, put]

theorem parse_stamp (s : Str) (h0 : s ≠ []) (hd : ∀ c ∈ s, isDigit c = true) (hv : decVal s < 2 ^ 55) : ∃ st, parse .init (64 :: s) = .ok st ∧ Clean st (gStamp (decVal s)) := by
  have e1 : parse .init (64 :: s) = parse { State.init with delim := 64 } s := by
    have := parse_delim .init [] s 64 (by intro x hx; simp at hx; subst hx; decide) (by
      intro x hx
      cases s with
      | nil => exact absurd rfl h0
      | cons c l =>
        simp at hx
        subst hx
        have := hd c List.mem_cons_self
        unfold isAlnum
        rw [this]
        simp)
    simpa using this
  rw [e1]
  have e2 := parse_single { State.init with delim := 64 } s [] h0 hd (by intro c hc; simp at hc) (by intro c d l h; simp at h)
  rw [List.append_nil] at e2
  rw [e2]
  have e3 : singleNumber { State.init with delim := 64 } (strtoul s) s.length = setAll { State.init with delim := 64 } (stampFields (decVal s)) := by
    unfold singleNumber
    rw [if_pos rfl, strtoul_eq s (by omega)]
    unfold setTimestamp toTime
    rw [if_pos (by omega), gmtime_eq _ (by omega) (by omega)]
    rfl
  rw [e3]
  have hm : Means { State.init with delim := 64 } Given.none := ⟨{ State.init with delim := 64 }, rfl, rfl, rfl⟩
  obtain ⟨st', a, b, _⟩ := setAll_means (stampFields (decVal s)) hm (by simp [stampFields, absFields, Free, Given.add, Given.none, put])
  rw [a]
  obtain ⟨st2, c, d⟩ := b
  exact ⟨st2, c, d, parsePostponed_post c⟩

theorem out_stamp (z : Zone) (t ref : Int) (r : Round) (h1 : 0 ≤ t) (h2 : t < 2 ^ 55) (h3 : 0 ≤ ref) (h4 : ref < 2 ^ 55) : gOut z (gStamp t) ref r = .ok t := by
  have rg := fieldsOf_inRange t
  have r1 := rg.sec
  have r2 := rg.min
  have r3 := rg.hour
  have r4 := mday_le rg
  have r5 := rg.mon
  have r6 := fieldsOf_year t h1 h2
  have hi : gInit z (gStamp t) ref = some (fieldsOf ref) := by
    unfold gInit Given.isSet
    rw [stamp_set, stamp_tm]
    simp [absFields, gmtime_eq ref h3 h4]
  have hs : Simple (gStamp t) := by
    refine ⟨?_, by simp [stamp_set, absFields], by simp [stamp_set, absFields]⟩
    intro f
    rw [stamp_set]
    split <;> simp
  have hg : ∀ tm, seconds tm = t → gInstant z (gStamp t) tm = some t := by
    intro tm h
    unfold gInstant Given.isSet
    rw [stamp_set, stamp_tm]
    simp only [absFields]
    simp [timegm, h]
    omega
  have hsec : ∀ tm : Tm, tm.sec = (fieldsOf t).sec → tm.min = (fieldsOf t).min → tm.hour = (fieldsOf t).hour → tm.mday = (fieldsOf t).mday → tm.mon = (fieldsOf t).mon → tm.year = (fieldsOf t).year →
      seconds tm = t := by
    intro tm a b c d e f
    rw [← seconds_fieldsOf t]
    unfold seconds
    rw [a, b, c, d, e, f]
  by_cases hr : r = .none
  · subst hr
    rw [out_none z _ ref _ hi hs, hg]
    · rfl
    · apply hsec <;> simp [plainTm, orNow, stamp_set, stamp_tm, absFields, tmField] <;> omega
    · simp only [FitsPlain, orNow, stamp_set, stamp_tm, absFields, tmField, List.mem_cons, List.not_mem_nil, or_false, reduceCtorEq, if_true, true_or, or_true, false_or, if_false, ne_eq, not_false_eq_true]
      refine ⟨?_, ?_, ?_, ?_, ?_, ?_, ?_, ?_⟩ <;> apply inInt_of <;> omega
  · rw [out_finest z _ ref _ .sec r hi hr hs, hg]
    · rfl
    · apply hsec <;> simp [endTm, base, stamp_set, stamp_tm, absFields, tmField, extra] <;> omega
    · refine ⟨by decide, ?_, ?_, ?_⟩
      · intro f hf
        simp [finer] at hf
      · intro hf
        simp [finer] at hf
      · simp [stamp_set, absFields]
    · simp only [Fits, base, stamp_set, stamp_tm, absFields, tmField, extra, relField, List.mem_cons, List.not_mem_nil, or_false, reduceCtorEq, if_true, true_or, or_true, false_or, if_false, ne_eq, not_false_eq_true]
      refine ⟨?_, ?_, ?_, ?_, ?_, ?_, ?_, ?_, ?_, ?_⟩ <;> apply inInt_of <;> omega

/-- A timestamp. -/
theorem stamp_text (z : Zone) (s : Str) (ref : Int) (r : Round) (h0 : s ≠ []) (hd : ∀ c ∈ s, isDigit c = true) (hv : decVal s < 2 ^ 55) (h3 : 0 ≤ ref) (h4 : ref < 2 ^ 55) :
    parseTimeString z (64 :: s) ref r = .ok (decVal s) := by
  obtain ⟨st, e, c⟩ := parse_stamp s h0 hd hv
  unfold parseTimeString
  have : parseInput (64 :: s).length .init (64 :: s) = .ok st := e
  rw [this]
  show createOutput z st ref r = _
  rw [createOutput_eq z st _ ref r c, out_stamp z _ ref r (by omega) (by omega) h3 h4]

end Notmuch.Time
