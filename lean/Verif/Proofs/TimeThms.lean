import Verif.Proofs.TimeEval

/-! # Proofs: what dates, times and amounts stand for -/

namespace Notmuch.Time

/-! ## Without rounding -/

/-- What is given, or as it is now. -/
def orNow (now : Tm) (g : Given) (f : Field) : Int := if g.set f ≠ .unset then g.tm f else tmField now f

def plainTm (now : Tm) (g : Given) : Tm :=
  let b := orNow now g
  ⟨b .sec - g.tm .relSec, b .min - g.tm .relMin, b .hour - g.tm .relHour, b .mday - g.tm .relDay - 7 * g.tm .relWeek, b .mon - g.tm .relMon - 1, b .year - g.tm .relYear - 1900, 0⟩

def FitsPlain (now : Tm) (g : Given) : Prop :=
  let b := orNow now g
  inInt (b .sec - g.tm .relSec) = true ∧ inInt (b .min - g.tm .relMin) = true ∧ inInt (b .hour - g.tm .relHour) = true ∧
    inInt (b .mday - g.tm .relDay) = true ∧ inInt (7 * g.tm .relWeek) = true ∧ inInt (b .mday - g.tm .relDay - 7 * g.tm .relWeek) = true ∧ inInt (b .mon - g.tm .relMon - 1) = true ∧
    inInt (b .year - g.tm .relYear - 1900) = true

theorem rest_none (z : Zone) (now : Tm) (g : Given) (hf : FitsPlain now g) :
    ((gRound now absFields g .none .none).bind fun p => gEnd z p.1 p.2) = outcome (gInstant z g (plainTm now g)) := by
  obtain ⟨f3, f4, f5, f6, f7, f8, f9, f10⟩ := hf
  rw [gRound_none]
  simp only [Except.bind]
  have t1 : ∀ f ∈ absFields, (fillWith (tmField now) absFields g).tm f = orNow now g f := by
    intro f hf
    rw [fillWith_tm]
    unfold orNow
    by_cases h : g.set f = .unset
    · rw [if_pos ⟨hf, h⟩, if_neg (fun k => k h)]
    · rw [if_neg (fun k => h k.2), if_pos h]
  have t2 : ∀ f, f ∉ absFields → (fillWith (tmField now) absFields g).tm f = g.tm f := by
    intro f hf
    rw [fillWith_tm, if_neg (fun k => hf k.1)]
  have t3 : (fillWith (tmField now) absFields g).set .tz = g.set .tz := by
    rw [fillWith_set, if_neg (fun k => absurd k.1 (by decide))]
  generalize fillWith (tmField now) absFields g = g' at t1 t2 t3
  have a1 := t1 .sec (by decide)
  have a2 := t1 .min (by decide)
  have a3 := t1 .hour (by decide)
  have a4 := t1 .mday (by decide)
  have a5 := t1 .mon (by decide)
  have a6 := t1 .year (by decide)
  have b1 := t2 .relSec (by decide)
  have b2 := t2 .relMin (by decide)
  have b3 := t2 .relHour (by decide)
  have b4 := t2 .relDay (by decide)
  have b5 := t2 .relMon (by decide)
  have b6 := t2 .relYear (by decide)
  have b7 := t2 .relWeek (by decide)
  have b8 := t2 .tz (by decide)
  unfold gEnd
  have hin : gInInt g' = true := by
    unfold gInInt
    rw [a1, a2, a3, a4, a5, a6, b1, b2, b3, b4, b5, b6, b7]
    simp only [Bool.and_eq_true]
    exact ⟨⟨⟨⟨⟨⟨⟨f3, f4⟩, f5⟩, f6⟩, f7⟩, f8⟩, f9⟩, f10⟩
  have htm : gTm g' = plainTm now g := by
    unfold gTm plainTm
    rw [a1, a2, a3, a4, a5, a6, b1, b2, b3, b4, b5, b6, b7]
  rw [hin, htm, gInstant_tz z g g' t3 b8]
  simp only [Bool.not_true, Bool.false_eq_true, if_false, weekTm, if_true, Option.bind_some]
  cases gInstant z g (plainTm now g) <;> rfl

theorem out_none (z : Zone) (now : Tm) (ref : Int) (g : Given) (hz : gInit z g ref = some now) (hs : Simple g) (hf : FitsPlain now g) :
    gOut z g ref .none = outcome (gInstant z g (plainTm now g)) := by
  unfold gOut
  rw [hz]
  simp only
  rw [gNow_simple now g hs.now]
  have e1 : gWday now g = .ok g := by
    unfold gWday Given.isSet
    rw [hs.wday]
    simp
  have e2 : gAmpm g = .ok g := by
    unfold gAmpm Given.isSet
    rw [hs.ampm]
    simp
  rw [e1]
  simp only [Except.bind]
  rw [e2]
  exact rest_none z now g hf

/-! ## Days and months -/

theorem int0 : inInt 0 = true := by decide
theorem int1 : inInt 1 = true := by decide
theorem intm1 : inInt (-1) = true := by decide

/-- The rounds that are not `none`. -/
theorem round_cases (r : Round) (h : r ≠ .none) : r = .down ∨ r = .up ∨ r = .upInclusive := by
  cases r
  · exact Or.inl rfl
  · exact absurd rfl h
  · exact Or.inr (Or.inl rfl)
  · exact Or.inr (Or.inr rfl)

/-- The end of a unit: the next one begins, or a second before it. -/
def upBy (r : Round) : Int := if r = .down then 0 else 1
def upSec (r : Round) : Int := if r = .upInclusive then 1 else 0

theorem simple_date (y m d : Nat) : Simple (addDate y m d Given.none) ∧ Finest (addDate y m d Given.none) .mday := by
  refine ⟨⟨?_, by simp [addDate, Given.add, Given.none, put], by simp [addDate, Given.add, Given.none, put]⟩, ⟨by decide, ?_, by simp [finer], by simp [addDate, Given.add, Given.none, put]⟩⟩
  · intro f
    cases f <;> simp [addDate, Given.add, Given.none, put]
  · intro f hf
    simp [finer] at hf
    rcases hf with rfl | rfl | rfl <;> simp [addDate, Given.add, Given.none, put, relField]

theorem out_date (z : Zone) (now : Tm) (ref : Int) (y m d : Nat) (r : Round) (hr : r ≠ .none) (hz : z.localtime ref = some now) (hd : IsDay y m d) :
    gOut z (addDate y m d Given.none) ref r = outcome (z.mktime ⟨-upSec r, 0, 0, (d : Int) + upBy r, (m : Int) - 1, (y : Int) - 1900, 0⟩) := by
  obtain ⟨h1, h2, h3, h4, h5, h6⟩ := hd
  obtain ⟨_, _, b3⟩ := isDay_bounds ⟨h1, h2, h3, h4, h5, h6⟩
  have i1 : inInt (d : Int) = true := inInt_of (by omega) (by omega)
  have i2 : inInt ((d : Int) + 1) = true := inInt_of (by omega) (by omega)
  have i3 : inInt ((m : Int) - 1) = true := inInt_of (by omega) (by omega)
  have i4 : inInt ((y : Int) - 1900) = true := inInt_of (by omega) (by omega)
  have hi : gInit z (addDate y m d Given.none) ref = some now := by
    simp [gInit, Given.isSet, addDate, Given.add, Given.none, put, hz]
  rw [out_finest z now ref _ .mday r hi hr (simple_date y m d).1 (simple_date y m d).2 ?_]
  · have e : endTm now (addDate y m d Given.none) .mday r = ⟨-upSec r, 0, 0, (d : Int) + upBy r, (m : Int) - 1, (y : Int) - 1900, 0⟩ := by
      rcases round_cases r hr with k | k | k <;> subst k <;>
        simp [endTm, base, addDate, Given.add, Given.none, put, finer, extra, relField, epochValue, upSec, upBy]
    rw [e]
    simp [gInstant, Given.isSet, addDate, Given.add, Given.none, put]
  · rcases round_cases r hr with k | k | k <;> subst k <;>
      simp [Fits, base, addDate, Given.add, Given.none, put, finer, extra, relField, epochValue, i1, i2, i3, i4, int0, int1, intm1]

theorem simple_month (y m : Nat) : Simple ((Given.none.add .year y).add .mon m) ∧ Finest ((Given.none.add .year y).add .mon m) .mon := by
  refine ⟨⟨?_, by simp [Given.add, Given.none, put], by simp [Given.add, Given.none, put]⟩, ⟨by decide, ?_, by simp [Given.add, Given.none, put], by simp [Given.add, Given.none, put]⟩⟩
  · intro f
    cases f <;> simp [Given.add, Given.none, put]
  · intro f hf
    simp [finer] at hf
    rcases hf with rfl | rfl | rfl | rfl <;> simp [Given.add, Given.none, put, relField]

theorem out_month (z : Zone) (now : Tm) (ref : Int) (y m : Nat) (r : Round) (hr : r ≠ .none) (hz : z.localtime ref = some now) (hy : 1970 ≤ y ∧ y ≤ 9999) (hm : 1 ≤ m ∧ m ≤ 12) :
    gOut z ((Given.none.add .year y).add .mon m) ref r = outcome (z.mktime ⟨-upSec r, 0, 0, 1, (m : Int) - 1 + upBy r, (y : Int) - 1900, 0⟩) := by
  have i1 : inInt (m : Int) = true := inInt_of (by omega) (by omega)
  have i2 : inInt ((m : Int) + 1 - 1) = true := inInt_of (by omega) (by omega)
  have i3 : inInt ((m : Int) - 1) = true := inInt_of (by omega) (by omega)
  have i4 : inInt ((y : Int) - 1900) = true := inInt_of (by omega) (by omega)
  have hi : gInit z ((Given.none.add .year y).add .mon m) ref = some now := by
    simp [gInit, Given.isSet, Given.add, Given.none, put, hz]
  rw [out_finest z now ref _ .mon r hi hr (simple_month y m).1 (simple_month y m).2 ?_]
  · have e : endTm now ((Given.none.add .year y).add .mon m) .mon r = ⟨-upSec r, 0, 0, 1, (m : Int) - 1 + upBy r, (y : Int) - 1900, 0⟩ := by
      rcases round_cases r hr with k | k | k <;> subst k <;>
        simp [endTm, base, Given.add, Given.none, put, finer, extra, relField, epochValue, upSec, upBy] <;> omega
    rw [e]
    simp [gInstant, Given.isSet, Given.add, Given.none, put]
  · rcases round_cases r hr with k | k | k <;> subst k <;>
      simp [Fits, base, Given.add, Given.none, put, finer, extra, relField, epochValue, i1, i3, i4, int0, int1, intm1]

/-! ## Dates with a time -/

def inst (z : Zone) : Option Int → Tm → Option Int
  | none, tm => z.mktime tm
  | some off, tm => timegm { tm with min := tm.min - off }

/-- The date and the time of the day after am or pm have been looked at. -/
def gMoment (y mo d h mi : Nat) (so : Option Nat) (half : Option Bool) (zo : Option Int) : Given :=
  match half with
  | none => addTime h mi so none zo (addDate y mo d Given.none)
  | some pm => (addTime h mi so (some pm) zo (addDate y mo d Given.none)).add .relHour ((h : Int) - hourOf h (some pm))

theorem ampm_moment (y mo d h mi : Nat) (so : Option Nat) (half : Option Bool) (zo : Option Int) (ht : IsTime h mi so half) :
    gAmpm (addTime h mi so half zo (addDate y mo d Given.none)) = .ok (gMoment y mo d h mi so half zo) := by
  cases half with
  | none =>
    have e : (addTime h mi so none zo (addDate y mo d Given.none)).isSet .ampm = false := by
      cases so <;> cases zo <;> simp [Given.isSet, addTime, addClock, addDate, Given.add, Given.none, put]
    unfold gAmpm
    rw [e]
    rfl
  | some pm =>
    have hh : 1 ≤ h ∧ h ≤ 12 := by have := ht.1; simpa using this
    have e1 : (addTime h mi so (some pm) zo (addDate y mo d Given.none)).isSet .ampm = true := by
      cases so <;> cases zo <;> simp [Given.isSet, addTime, addClock, addDate, Given.add, Given.none, put]
    have e2 : (addTime h mi so (some pm) zo (addDate y mo d Given.none)).isSet .hour = true := by
      cases so <;> cases zo <;> simp [Given.isSet, addTime, addClock, addDate, Given.add, Given.none, put]
    have e3 : (addTime h mi so (some pm) zo (addDate y mo d Given.none)).tm .hour = h := by
      cases so <;> cases zo <;> simp [addTime, addClock, addDate, Given.add, Given.none, put]
    have e4 : (addTime h mi so (some pm) zo (addDate y mo d Given.none)).tm .ampm = if pm then 1 else 0 := by
      cases so <;> cases zo <;> simp [addTime, addClock, addDate, Given.add, Given.none, put]
    have e5 : (addTime h mi so (some pm) zo (addDate y mo d Given.none)).tm .relHour = 0 := by
      cases so <;> cases zo <;> simp [addTime, addClock, addDate, Given.add, Given.none, put]
    have e6 : valid12Hour (h : Int) = true := by
      unfold valid12Hour
      simp only [decide_eq_true_eq]
      omega
    unfold gAmpm gMoment
    rw [e1, e2, e3, e4, e6]
    simp only [Bool.not_true, Bool.false_eq_true, if_false]
    unfold gAdd
    rw [e5]
    have hv : 0 + -(if (if pm = true then (1 : Int) else 0) ≠ 0 then (if (h : Int) ≠ 12 then (12 : Int) else 0) else (if (h : Int) = 12 then -12 else 0)) = (h : Int) - hourOf h (some pm) := by
      cases pm
      · simp only [Bool.false_eq_true, if_false, ne_eq, not_true, hourOf]
        split <;> omega
      · simp only [if_true, ne_eq, hourOf]
        by_cases k : (h : Int) = 12
        · rw [if_pos (by decide), if_neg (by simpa using k)]
          omega
        · rw [if_pos (by decide), if_pos k]
          omega
    rw [hv]
    rw [if_pos]
    apply inInt_of <;> cases pm <;> simp only [hourOf] <;> omega

theorem moment_tm (y mo d h mi : Nat) (so : Option Nat) (half : Option Bool) (zo : Option Int) (f : Field) : (gMoment y mo d h mi so half zo).tm f =
    match f with
    | .sec => ((so.getD 0 : Nat) : Int)
    | .min => mi
    | .hour => h
    | .mday => d
    | .mon => mo
    | .year => y
    | .ampm => if half = some true then 1 else 0
    | .tz => zo.getD 0
    | .relHour => (h : Int) - hourOf h half
    | _ => 0 := by
  cases so <;> cases half <;> cases zo <;> cases f <;> simp [gMoment, addTime, addClock, addDate, Given.add, Given.none, put, hourOf]

theorem moment_set (y mo d h mi : Nat) (so : Option Nat) (half : Option Bool) (zo : Option Int) (f : Field) : (gMoment y mo d h mi so half zo).set f =
    if f = .min ∨ f = .hour ∨ f = .mday ∨ f = .mon ∨ f = .year ∨ (f = .sec ∧ so ≠ none) ∨ (f = .ampm ∧ half ≠ none) ∨ (f = .tz ∧ zo ≠ none) ∨ (f = .relHour ∧ half ≠ none) then .set else .unset := by
  cases so <;> cases half <;> cases zo <;> cases f <;> simp [gMoment, addTime, addClock, addDate, Given.add, Given.none, put]

theorem time_set (y mo d h mi : Nat) (so : Option Nat) (half : Option Bool) (zo : Option Int) : (∀ f, (addTime h mi so half zo (addDate y mo d Given.none)).set f ≠ .now) ∧
    (addTime h mi so half zo (addDate y mo d Given.none)).set .wday = .unset ∧
    (addTime h mi so half zo (addDate y mo d Given.none)).tm .tz = zo.getD 0 ∧
    (addTime h mi so half zo (addDate y mo d Given.none)).set .tz = if zo = none then .unset else .set := by
  refine ⟨?_, ?_, ?_, ?_⟩
  · intro f
    cases so <;> cases half <;> cases zo <;> cases f <;> simp [addTime, addClock, addDate, Given.add, Given.none, put]
  all_goals cases so <;> cases half <;> cases zo <;> simp [addTime, addClock, addDate, Given.add, Given.none, put]

theorem hourOf_le {h mi : Nat} {so : Option Nat} {half : Option Bool} (ht : IsTime h mi so half) : hourOf h half ≤ 23 ∧ h ≤ 23 := by
  have := ht.1
  cases half with
  | none => simp at this; exact ⟨this, this⟩
  | some pm =>
    simp at this
    cases pm <;> simp only [hourOf] <;> omega

/-- What `now` there is, if anything. -/
def nowFor (z : Zone) (zo : Option Int) (ref : Int) : Option Tm :=
  match zo with
  | none => z.localtime ref
  | some off => gmtime (ref + off * 60)

theorem init_moment (z : Zone) (ref : Int) (y mo d h mi : Nat) (so : Option Nat) (half : Option Bool) (zo : Option Int) :
    gInit z (addTime h mi so half zo (addDate y mo d Given.none)) ref = nowFor z zo ref := by
  obtain ⟨_, _, t3, t4⟩ := time_set y mo d h mi so half zo
  unfold gInit Given.isSet
  rw [t3, t4]
  cases zo <;> simp [nowFor]

theorem instant_moment (z : Zone) (y mo d h mi : Nat) (so : Option Nat) (half : Option Bool) (zo : Option Int) (tm : Tm) :
    gInstant z (gMoment y mo d h mi so half zo) tm = inst z zo tm := by
  unfold gInstant Given.isSet
  rw [moment_tm, moment_set]
  cases zo <;> simp [inst]

theorem out_moment (z : Zone) (ref : Int) (round : Round) (y mo d h mi : Nat) (so : Option Nat) (half : Option Bool) (zo : Option Int) (now : Tm) (hz : nowFor z zo ref = some now) (ht : IsTime h mi so half) :
    gOut z (addTime h mi so half zo (addDate y mo d Given.none)) ref round = (gRound now absFields (gMoment y mo d h mi so half zo) round .none).bind fun p => gEnd z p.1 p.2 := by
  obtain ⟨t1, t2, _, _⟩ := time_set y mo d h mi so half zo
  unfold gOut
  rw [init_moment, hz]
  simp only
  rw [gNow_simple now _ t1]
  have e1 : gWday now (addTime h mi so half zo (addDate y mo d Given.none)) = .ok (addTime h mi so half zo (addDate y mo d Given.none)) := by
    unfold gWday Given.isSet
    rw [t2]
    simp
  rw [e1]
  simp only [Except.bind]
  rw [ampm_moment y mo d h mi so half zo ht]

/-- A date and a time with seconds. -/
theorem out_seconds (z : Zone) (ref : Int) (round : Round) (y mo d h mi s : Nat) (half : Option Bool) (zo : Option Int) (now : Tm) (hz : nowFor z zo ref = some now) (hd : IsDay y mo d) (ht : IsTime h mi (some s) half) :
    gOut z (addTime h mi (some s) half zo (addDate y mo d Given.none)) ref round = outcome (inst z zo ⟨s, mi, hourOf h half, d, (mo : Int) - 1, (y : Int) - 1900, 0⟩) := by
  obtain ⟨_, b2, b3⟩ := isDay_bounds hd
  obtain ⟨h1, h2, _⟩ := hd
  obtain ⟨c1, c2⟩ := hourOf_le ht
  have c3 := ht.2.1
  have c4 := ht.2.2 s rfl
  have i1 : inInt (d : Int) = true := inInt_of (by omega) (by omega)
  have i3 : inInt ((mo : Int) - 1) = true := inInt_of (by omega) (by omega)
  have i4 : inInt ((y : Int) - 1900) = true := inInt_of (by omega) (by omega)
  have i5 : inInt (s : Int) = true := inInt_of (by omega) (by omega)
  have i6 : inInt (mi : Int) = true := inInt_of (by omega) (by omega)
  have i7 : inInt (hourOf h half : Int) = true := inInt_of (by omega) (by omega)
  have e7 : (h : Int) - (h - hourOf h half) = hourOf h half := by omega
  rw [out_moment z ref round y mo d h mi (some s) half zo now hz ht]
  by_cases hr : round = .none
  · subst hr
    rw [rest_none, instant_moment]
    · simp [plainTm, orNow, moment_tm, moment_set, e7]
    · simp [FitsPlain, orNow, moment_tm, moment_set, e7, i1, i3, i4, i5, i6, i7, int0]
  · rw [rest_finest z now _ .sec round hr, instant_moment]
    · simp [endTm, base, moment_tm, moment_set, e7, extra]
    · refine ⟨by decide, ?_, ?_, ?_⟩
      · intro f hf
        simp [finer] at hf
      · intro hf
        simp [finer] at hf
      · simp [moment_set]
    · simp [Fits, base, moment_tm, moment_set, e7, extra, relField, i1, i3, i4, i5, i6, i7, int0, int1, intm1]

/-- A date and a time without seconds. -/
theorem out_minutes (z : Zone) (ref : Int) (round : Round) (y mo d h mi : Nat) (half : Option Bool) (zo : Option Int) (now : Tm) (hz : nowFor z zo ref = some now) (hd : IsDay y mo d) (ht : IsTime h mi none half)
    (hr : round ≠ .none) :
    gOut z (addTime h mi none half zo (addDate y mo d Given.none)) ref round = outcome (inst z zo ⟨-upSec round, mi + upBy round, hourOf h half, d, (mo : Int) - 1, (y : Int) - 1900, 0⟩) := by
  obtain ⟨_, b2, b3⟩ := isDay_bounds hd
  obtain ⟨h1, h2, _⟩ := hd
  obtain ⟨c1, c2⟩ := hourOf_le ht
  have c3 := ht.2.1
  have i1 : inInt (d : Int) = true := inInt_of (by omega) (by omega)
  have i3 : inInt ((mo : Int) - 1) = true := inInt_of (by omega) (by omega)
  have i4 : inInt ((y : Int) - 1900) = true := inInt_of (by omega) (by omega)
  have i5 : inInt ((mi : Int) + 1) = true := inInt_of (by omega) (by omega)
  have i6 : inInt (mi : Int) = true := inInt_of (by omega) (by omega)
  have i7 : inInt (hourOf h half : Int) = true := inInt_of (by omega) (by omega)
  have e7 : (h : Int) - (h - hourOf h half) = hourOf h half := by omega
  rw [out_moment z ref round y mo d h mi none half zo now hz ht]
  rw [rest_finest z now _ .min round hr, instant_moment]
  · rcases round_cases round hr with k | k | k <;> subst k <;>
      simp [endTm, base, moment_tm, moment_set, e7, finer, extra, relField, epochValue, upSec, upBy]
  · refine ⟨by decide, ?_, ?_, ?_⟩
    · intro f hf
      simp [finer] at hf
      subst hf
      simp [moment_set, relField]
    · intro hf
      simp [finer] at hf
    · simp [moment_set]
  · rcases round_cases round hr with k | k | k <;> subst k <;>
      simp [Fits, base, moment_tm, moment_set, e7, finer, extra, relField, epochValue, i1, i3, i4, i5, i6, i7, int0, int1, intm1]

end Notmuch.Time
