import Verif.Proofs.TimeQuery

/-! # Proofs: years, today, now, times of today -/

namespace Notmuch.Time

/-! ## Years -/

theorem yearText_does {y : Nat} {s : Str} (hy : 1970 ≤ y) (h : Digits 4 y s) : Does s (fun g => g.set .year = .unset) (fun g => g.add .year y) := by
  constructor
  · have := digits_begin (t := []) (h.ne (by omega)) h.2.1
    simpa using this
  · intro st g rest hr hp hdl hst
    obtain ⟨st', e, r1, r2, r3, _⟩ := parse_number h (by omega) (by omega) hr.means hdl hst.digit hst.group
    exact ⟨st', e, means_year r1 hp r2 r3 hy, by rw [r2]; decide⟩

theorem simple_year (y : Nat) : Simple (Given.none.add .year y) ∧ Finest (Given.none.add .year y) .year := by
  refine ⟨⟨?_, by simp [Given.add, Given.none, put], by simp [Given.add, Given.none, put]⟩, ⟨by decide, ?_, by simp [Given.add, Given.none, put], by simp [Given.add, Given.none, put]⟩⟩
  · intro f
    cases f <;> simp [Given.add, Given.none, put]
  · intro f hf
    simp [finer] at hf
    rcases hf with rfl | rfl | rfl | rfl | rfl <;> simp [Given.add, Given.none, put, relField]

theorem out_year (z : Zone) (now : Tm) (ref : Int) (y : Nat) (r : Round) (hr : r ≠ .none) (hz : z.localtime ref = some now) (hy : 1970 ≤ y ∧ y ≤ 9999) :
    gOut z (Given.none.add .year y) ref r = outcome (z.mktime ⟨-upSec r, 0, 0, 1, 0, (y : Int) - 1900 + upBy r, 0⟩) := by
  have i4 : inInt ((y : Int) - 1900) = true := inInt_of (by omega) (by omega)
  have i5 : inInt ((y : Int) + 1 - 1900) = true := inInt_of (by omega) (by omega)
  have hi : gInit z (Given.none.add .year y) ref = some now := by
    simp [gInit, Given.isSet, Given.add, Given.none, put, hz]
  rw [out_finest z now ref _ .year r hi hr (simple_year y).1 (simple_year y).2 ?_]
  · have e : endTm now (Given.none.add .year y) .year r = ⟨-upSec r, 0, 0, 1, 0, (y : Int) - 1900 + upBy r, 0⟩ := by
      rcases round_cases r hr with k | k | k <;> subst k <;>
        simp [endTm, base, Given.add, Given.none, put, finer, extra, relField, epochValue, upSec, upBy] <;> omega
    rw [e]
    simp [gInstant, Given.isSet, Given.add, Given.none, put]
  · rcases round_cases r hr with k | k | k <;> subst k <;>
      simp [Fits, base, Given.add, Given.none, put, finer, extra, relField, epochValue, i4, i5, int0, int1, intm1]

theorem year_fixed {off now : Int} {y : Nat} {s : Str} (r : Round) (hr : r ≠ .none) (ho : IsOffset off) (hn : IsNow now) (hy : 1970 ≤ y ∧ y ≤ 9999) (hs : Digits 4 y s) :
    parseTimeString (fixedZone off) s now r = .ok (86400 * (if r = .down then dayOf y 1 1 else dayOf y 12 31 + 1) - upSec r - off) := by
  obtain ⟨l1, l2⟩ := now_local ho hn
  have h1 : IsDay y 1 1 := ⟨hy.1, hy.2, by omega, by omega, by omega, by unfold daysIn; simp⟩
  have hD := dayOf_nonneg h1
  have e31 : dayNumber ((y : Int) + 1) 0 1 = dayOf y 12 31 + 1 := by
    have a := daysIn_next y 12 hy.1 (by omega) (by omega)
    have e1 : dayNumber y (((12 : Nat) : Int) - 1 + 1) 1 = dayNumber ((y : Int) + 1) 0 1 := by
      unfold dayNumber
      simp
    rw [e1] at a
    rw [a]
    have : daysIn y 12 = 31 := by unfold daysIn; simp
    rw [this]
    unfold dayOf
    omega
  have e1 : dayNumber (y : Int) 0 1 = dayOf y 1 1 := by
    have := dayNumber_eq y 1 1 hy.1 (by omega) (by omega)
    simpa using this
  have hlt : dayOf y 1 1 ≤ dayOf y 12 31 := by
    have := dayNumber_year_lt y 0 1
    omega
  obtain ⟨o0, o1, o2⟩ := ho
  rw [parseTimeString_eq (yearText_does hy.1 hs).last rfl, out_year (fixedZone off) _ now y r hr (fixed_local off now l1 (by omega)) hy,
    fixed_mktime' off (86400 * (if r = .down then dayOf y 1 1 else dayOf y 12 31 + 1) - upSec r - off)]
  · rfl
  · unfold seconds
    rcases round_cases r hr with k | k | k <;> subst k <;> simp only [upBy, upSec, reduceCtorEq, if_false, if_true]
    · have e : (y : Int) - 1900 + 0 + 1900 = y := by omega
      rw [e, e1]
      omega
    · have e : (y : Int) - 1900 + 1 + 1900 = y + 1 := by omega
      rw [e, e31]
      omega
    · have e : (y : Int) - 1900 + 1 + 1900 = y + 1 := by omega
      rw [e, e31]
      omega
  · rcases round_cases r hr with k | k | k <;> subst k <;> simp only [upSec, reduceCtorEq, if_false, if_true] <;> omega

/-! ## Today and now -/

/-- The field is as it is now. -/
def Given.addNow (g : Given) (f : Field) : Given := ⟨put g.set f .now, put g.tm f 0⟩

theorem setNow_one {st : State} {g : Given} {f : Field} (h : Means st g) (hf : g.set f = .unset) :
    ∃ st', setField st f 0 = .ok st' ∧ Fresh { st' with set := put st'.set f .now } (g.addNow f) f := by
  obtain ⟨st', e, r⟩ := setField_means 0 h hf
  refine ⟨st', e, ⟨⟨?_, ?_⟩, r.post, r.delim, r.last⟩⟩
  · show put st'.set f .now = put g.set f .now
    rw [r.has.1]
    funext x
    simp only [Given.add, put]
    split <;> rfl
  · show st'.tm = put g.tm f 0
    rw [r.has.2]
    rfl

theorem setNow_three {st : State} {g : Given} {a b c : Field} (h : Means st g) (ha : g.set a = .unset) (hb : g.set b = .unset) (hc : g.set c = .unset) (h1 : b ≠ a) (h2 : c ≠ a) (h3 : c ≠ b) :
    ∃ st', setNow st [a, b, c] = .ok st' ∧ Fresh st' (((g.addNow a).addNow b).addNow c) c := by
  obtain ⟨s1, e1, f1⟩ := setNow_one (f := a) h ha
  obtain ⟨s2, e2, f2⟩ := setNow_one (f := b) f1.means (by show put g.set a .now b = _; rw [put_other _ _ _ _ h1]; exact hb)
  obtain ⟨s3, e3, f3⟩ := setNow_one (f := c) f2.means (by
    show put (put g.set a .now) b .now c = _
    rw [put_other _ _ _ _ h3, put_other _ _ _ _ h2]
    exact hc)
  refine ⟨_, ?_, f3⟩
  unfold setNow
  rw [e1]
  simp only [Except.bind]
  unfold setNow
  rw [e2]
  simp only [Except.bind]
  unfold setNow
  rw [e3]
  rfl

theorem today_does {w : Str} (h : w.map toLower = bs "today") : Does w NoDate (fun g => ((g.addNow .year).addNow .mon).addNow .mday) := by
  have kw := todayWord_keyword h
  constructor
  · have := word_begin (t := []) kw.ne kw.alpha
    simpa using this
  · intro st g rest hr hp _ hst
    obtain ⟨k, kf, kv, ks, e⟩ := parse_word kw st rest hst.alpha
    obtain ⟨s1, e1, f1⟩ := setNow_three hr.means hp.1 hp.2.1 hp.2.2 (by decide) (by decide) (by decide)
    refine ⟨s1, ?_, f1.ready⟩
    have : applyKeyword st k = .ok s1 := by
      unfold applyKeyword
      rw [ks]
      exact e1
    rw [e, this]
    rfl

theorem now_does {w : Str} (h : w.map toLower = bs "now") : Does w NoTime (fun g => ((g.addNow .hour).addNow .min).addNow .sec) := by
  have kw := nowWord_keyword h
  constructor
  · have := word_begin (t := []) kw.ne kw.alpha
    simpa using this
  · intro st g rest hr hp _ hst
    obtain ⟨k, kf, kv, ks, e⟩ := parse_word kw st rest hst.alpha
    obtain ⟨s1, e1, f1⟩ := setNow_three hr.means hp.1 hp.2.1 hp.2.2 (by decide) (by decide) (by decide)
    refine ⟨s1, ?_, f1.ready⟩
    have : applyKeyword st k = .ok s1 := by
      unfold applyKeyword
      rw [ks]
      exact e1
    rw [e, this]
    rfl

/-- The fields of today. -/
def gToday (now : Tm) : Given := ((Given.none.add .year (1900 + now.year)).add .mon (now.mon + 1)).add .mday now.mday

theorem gNow_today (now : Tm) : gNow now absFields (((Given.none.addNow .year).addNow .mon).addNow .mday) = gToday now := by
  have e : ∀ g g' : Given, g.set = g'.set → g.tm = g'.tm → g = g' := by
    intro g g' a b
    cases g
    cases g'
    simp only at a b
    rw [a, b]
  apply e
  · funext f
    cases f <;> simp [gNow, absFields, Given.addNow, Given.none, Given.add, put, gToday]
  · funext f
    cases f <;> simp [gNow, absFields, Given.addNow, Given.none, Given.add, put, gToday, tmField]

theorem simple_today (now : Tm) : Simple (gToday now) ∧ Finest (gToday now) .mday := by
  refine ⟨⟨?_, by simp [gToday, Given.add, Given.none, put], by simp [gToday, Given.add, Given.none, put]⟩, ⟨by decide, ?_, by simp [finer], by simp [gToday, Given.add, Given.none, put]⟩⟩
  · intro f
    cases f <;> simp [gToday, Given.add, Given.none, put]
  · intro f hf
    simp [finer] at hf
    rcases hf with rfl | rfl | rfl <;> simp [gToday, Given.add, Given.none, put, relField]

theorem out_today (z : Zone) (now : Tm) (ref : Int) (r : Round) (hr : r ≠ .none) (hz : z.localtime ref = some now) (hi : InRange now) (hy : 0 ≤ now.year ∧ now.year ≤ 1500000000) :
    gOut z (((Given.none.addNow .year).addNow .mon).addNow .mday) ref r = outcome (z.mktime ⟨-upSec r, 0, 0, now.mday + upBy r, now.mon, now.year, 0⟩) := by
  have md := mday_le hi
  have mo := hi.mon
  have i1 : inInt now.mday = true := inInt_of (by omega) (by omega)
  have i2 : inInt (now.mday + 1) = true := inInt_of (by omega) (by omega)
  have i3 : inInt now.mon = true := inInt_of (by omega) (by omega)
  have i4 : inInt now.year = true := inInt_of (by omega) (by omega)
  have e3 : now.mon + 1 - 1 = now.mon := by omega
  have e4 : 1900 + now.year - 1900 = now.year := by omega
  have h0 : gOut z (((Given.none.addNow .year).addNow .mon).addNow .mday) ref r = gOut z (gToday now) ref r := by
    have g1 : gInit z (((Given.none.addNow .year).addNow .mon).addNow .mday) ref = some now := by
      simp [gInit, Given.isSet, Given.addNow, Given.none, put, hz]
    have g2 : gInit z (gToday now) ref = some now := by
      simp [gInit, Given.isSet, gToday, Given.add, Given.none, put, hz]
    unfold gOut
    rw [g1, g2]
    simp only
    rw [gNow_today, gNow_simple now _ (simple_today now).1.now]
  have hg : gInit z (gToday now) ref = some now := by
    simp [gInit, Given.isSet, gToday, Given.add, Given.none, put, hz]
  rw [h0, out_finest z now ref _ .mday r hg hr (simple_today now).1 (simple_today now).2 ?_]
  · have e : endTm now (gToday now) .mday r = ⟨-upSec r, 0, 0, now.mday + upBy r, now.mon, now.year, 0⟩ := by
      rcases round_cases r hr with k | k | k <;> subst k <;>
        simp [endTm, base, gToday, Given.add, Given.none, put, finer, extra, relField, epochValue, upSec, upBy, e3, e4]
    rw [e]
    simp [gInstant, Given.isSet, gToday, Given.add, Given.none, put]
  · rcases round_cases r hr with k | k | k <;> subst k <;>
      simp [Fits, base, gToday, Given.add, Given.none, put, finer, extra, relField, epochValue, i1, i2, i3, i4, int0, int1, intm1, e3, e4]

theorem today_fixed {off now : Int} {s : Str} (r : Round) (hr : r ≠ .none) (ho : IsOffset off) (hn : IsNow now) (hs : s.map toLower = bs "today") :
    parseTimeString (fixedZone off) s now r = .ok (86400 * (localDay off now + upBy r) - upSec r - off) := by
  obtain ⟨l1, l2⟩ := now_local ho hn
  obtain ⟨o0, o1, o2⟩ := ho
  have hy := fieldsOf_year (now + off) l1 (by omega)
  obtain ⟨n1, n2⟩ := hn
  rw [parseTimeString_eq (today_does hs).last ⟨rfl, rfl, rfl⟩, out_today (fixedZone off) _ now r hr (fixed_local off now l1 (by omega)) (fieldsOf_inRange _) (by omega),
    fixed_mktime' off (86400 * (localDay off now + upBy r) - upSec r - off)]
  · rfl
  · unfold seconds localDay
    simp only [dayNumber_day, fieldsOf_day]
    omega
  · unfold localDay
    rcases round_cases r hr with k | k | k <;> subst k <;> simp only [upBy, upSec, reduceCtorEq, if_false, if_true] <;> omega

/-- The time of the day as it is now. -/
def gClock (now : Tm) : Given := ((Given.none.add .hour now.hour).add .min now.min).add .sec now.sec

theorem gNow_now (now : Tm) : gNow now absFields (((Given.none.addNow .hour).addNow .min).addNow .sec) = gClock now := by
  have e : ∀ g g' : Given, g.set = g'.set → g.tm = g'.tm → g = g' := by
    intro g g' a b
    cases g
    cases g'
    simp only at a b
    rw [a, b]
  apply e
  · funext f
    cases f <;> simp [gNow, absFields, Given.addNow, Given.none, Given.add, put, gClock]
  · funext f
    cases f <;> simp [gNow, absFields, Given.addNow, Given.none, Given.add, put, gClock, tmField]

theorem simple_now (now : Tm) : Simple (gClock now) ∧ Finest (gClock now) .sec := by
  refine ⟨⟨?_, by simp [gClock, Given.add, Given.none, put], by simp [gClock, Given.add, Given.none, put]⟩, ⟨by decide, ?_, by simp [finer], by simp [gClock, Given.add, Given.none, put]⟩⟩
  · intro f
    cases f <;> simp [gClock, Given.add, Given.none, put]
  · intro f hf
    simp [finer] at hf

theorem out_now (z : Zone) (now : Tm) (ref : Int) (r : Round) (hz : z.localtime ref = some now) (hi : InRange now) (hy : 0 ≤ now.year ∧ now.year ≤ 1500000000) :
    gOut z (((Given.none.addNow .hour).addNow .min).addNow .sec) ref r = outcome (z.mktime { now with wday := 0 }) := by
  have md := mday_le hi
  have mo := hi.mon
  have ho := hi.hour
  have mi := hi.min
  have se := hi.sec
  have i1 : inInt now.mday = true := inInt_of (by omega) (by omega)
  have i3 : inInt now.mon = true := inInt_of (by omega) (by omega)
  have i4 : inInt now.year = true := inInt_of (by omega) (by omega)
  have i5 : inInt now.hour = true := inInt_of (by omega) (by omega)
  have i6 : inInt now.min = true := inInt_of (by omega) (by omega)
  have i7 : inInt now.sec = true := inInt_of (by omega) (by omega)
  have e3 : now.mon + 1 - 1 = now.mon := by omega
  have e4 : 1900 + now.year - 1900 = now.year := by omega
  have hg : gInit z (gClock now) ref = some now := by
    simp [gInit, Given.isSet, gClock, Given.add, Given.none, put, hz]
  have h0 : gOut z (((Given.none.addNow .hour).addNow .min).addNow .sec) ref r = gOut z (gClock now) ref r := by
    have g1 : gInit z (((Given.none.addNow .hour).addNow .min).addNow .sec) ref = some now := by
      simp [gInit, Given.isSet, Given.addNow, Given.none, put, hz]
    unfold gOut
    rw [g1, hg]
    simp only
    rw [gNow_now, gNow_simple now _ (simple_now now).1.now]
  rw [h0]
  by_cases hr : r = .none
  · subst hr
    rw [out_none z now ref _ hg (simple_now now).1]
    · simp [plainTm, orNow, gClock, Given.add, Given.none, put, tmField, e3, e4, gInstant, Given.isSet]
    · simp [FitsPlain, orNow, gClock, Given.add, Given.none, put, tmField, e3, e4, i1, i3, i4, i5, i6, i7, int0]
  · rw [out_finest z now ref _ .sec r hg hr (simple_now now).1 (simple_now now).2 ?_]
    · simp [endTm, base, gClock, Given.add, Given.none, put, finer, extra, tmField, e3, e4, gInstant, Given.isSet]
    · simp [Fits, base, gClock, Given.add, Given.none, put, finer, extra, relField, tmField, i1, i3, i4, i5, i6, i7, int0, int1, intm1, e3, e4]

theorem now_fixed {off now : Int} {s : Str} (r : Round) (ho : IsOffset off) (hn : IsNow now) (hs : s.map toLower = bs "now") : parseTimeString (fixedZone off) s now r = .ok now := by
  obtain ⟨l1, l2⟩ := now_local ho hn
  have hy := fieldsOf_year (now + off) l1 (by omega)
  obtain ⟨n1, n2⟩ := hn
  rw [parseTimeString_eq (now_does hs).last ⟨rfl, rfl, rfl⟩, out_now (fixedZone off) _ now r (fixed_local off now l1 (by omega)) (fieldsOf_inRange _) (by omega), fixed_mktime' off now]
  · rfl
  · have : seconds { fieldsOf (now + off) with wday := 0 } = seconds (fieldsOf (now + off)) := rfl
    rw [this, seconds_fieldsOf]
    omega
  · omega

/-! ## Times of today -/

/-- The time of the day after am or pm have been looked at. -/
def gTime (h mi : Nat) (so : Option Nat) (half : Option Bool) (zo : Option Int) : Given :=
  match half with
  | none => addTime h mi so none zo Given.none
  | some pm => (addTime h mi so (some pm) zo Given.none).add .relHour ((h : Int) - hourOf h (some pm))

theorem ampm_time (h mi : Nat) (so : Option Nat) (half : Option Bool) (zo : Option Int) (ht : IsTime h mi so half) :
    gAmpm (addTime h mi so half zo Given.none) = .ok (gTime h mi so half zo) := by
  cases half with
  | none =>
    have e : (addTime h mi so none zo Given.none).isSet .ampm = false := by
      cases so <;> cases zo <;> simp [Given.isSet, addTime, addClock, Given.add, Given.none, put]
    unfold gAmpm
    rw [e]
    rfl
  | some pm =>
    have hh : 1 ≤ h ∧ h ≤ 12 := by have := ht.1; simpa using this
    have e1 : (addTime h mi so (some pm) zo Given.none).isSet .ampm = true := by
      cases so <;> cases zo <;> simp [Given.isSet, addTime, addClock, Given.add, Given.none, put]
    have e2 : (addTime h mi so (some pm) zo Given.none).isSet .hour = true := by
      cases so <;> cases zo <;> simp [Given.isSet, addTime, addClock, Given.add, Given.none, put]
    have e3 : (addTime h mi so (some pm) zo Given.none).tm .hour = h := by
      cases so <;> cases zo <;> simp [addTime, addClock, Given.add, Given.none, put]
    have e4 : (addTime h mi so (some pm) zo Given.none).tm .ampm = if pm then 1 else 0 := by
      cases so <;> cases zo <;> simp [addTime, addClock, Given.add, Given.none, put]
    have e5 : (addTime h mi so (some pm) zo Given.none).tm .relHour = 0 := by
      cases so <;> cases zo <;> simp [addTime, addClock, Given.add, Given.none, put]
    have e6 : valid12Hour (h : Int) = true := by
      unfold valid12Hour
      simp only [decide_eq_true_eq]
      omega
    unfold gAmpm gTime
    rw [e1, e2, e3, e4, e6]
    simp only [Bool.not_true, Bool.false_eq_true, if_false]
    unfold gAdd
    rw [e5]
    have hv : 0 + -(if (if pm = true then (1 : Int) else 0) ≠ 0 then (if (h : Int) ≠ 12 then (12 : Int) else 0) else (if (h : Int) = 12 then -12 else 0)) = (h : Int) - hourOf h (some pm) := by
      cases pm
      · simp only [Bool.false_eq_true, if_false, ne_eq, not_true, hourOf]
        split <;> omega
      · simp only [if_true, ne_eq, hourOf]
        by_cases k : (h : Int) = 12
        · rw [if_pos (by decide), if_neg (by simpa using k)]
          omega
        · rw [if_pos (by decide), if_pos k]
          omega
    rw [hv]
    rw [if_pos]
    apply inInt_of <;> cases pm <;> simp only [hourOf] <;> omega

theorem gTime_tm (h mi : Nat) (so : Option Nat) (half : Option Bool) (zo : Option Int) (f : Field) : (gTime h mi so half zo).tm f =
    match f with
    | .sec => ((so.getD 0 : Nat) : Int)
    | .min => mi
    | .hour => h
    | .ampm => if half = some true then 1 else 0
    | .tz => zo.getD 0
    | .relHour => (h : Int) - hourOf h half
    | _ => 0 := by
  cases so <;> cases half <;> cases zo <;> cases f <;> simp [gTime, addTime, addClock, Given.add, Given.none, put, hourOf]

theorem gTime_set (h mi : Nat) (so : Option Nat) (half : Option Bool) (zo : Option Int) (f : Field) : (gTime h mi so half zo).set f =
    if f = .min ∨ f = .hour ∨ (f = .sec ∧ so ≠ none) ∨ (f = .ampm ∧ half ≠ none) ∨ (f = .tz ∧ zo ≠ none) ∨ (f = .relHour ∧ half ≠ none) then .set else .unset := by
  cases so <;> cases half <;> cases zo <;> cases f <;> simp [gTime, addTime, addClock, Given.add, Given.none, put]

theorem addTime_none (h mi : Nat) (so : Option Nat) (half : Option Bool) (zo : Option Int) : (∀ f, (addTime h mi so half zo Given.none).set f ≠ .now) ∧
    (addTime h mi so half zo Given.none).set .wday = .unset ∧ (addTime h mi so half zo Given.none).tm .tz = zo.getD 0 ∧
    (addTime h mi so half zo Given.none).set .tz = if zo = none then .unset else .set := by
  refine ⟨?_, ?_, ?_, ?_⟩
  · intro f
    cases so <;> cases half <;> cases zo <;> cases f <;> simp [addTime, addClock, Given.add, Given.none, put]
  all_goals cases so <;> cases half <;> cases zo <;> simp [addTime, addClock, Given.add, Given.none, put]

theorem out_time (z : Zone) (ref : Int) (round : Round) (h mi : Nat) (so : Option Nat) (half : Option Bool) (zo : Option Int) (now : Tm) (hz : nowFor z zo ref = some now) (ht : IsTime h mi so half) :
    gOut z (addTime h mi so half zo Given.none) ref round = (gRound now absFields (gTime h mi so half zo) round .none).bind fun p => gEnd z p.1 p.2 := by
  obtain ⟨t1, t2, t3, t4⟩ := addTime_none h mi so half zo
  have hi : gInit z (addTime h mi so half zo Given.none) ref = nowFor z zo ref := by
    unfold gInit Given.isSet
    rw [t3, t4]
    cases zo <;> simp [nowFor]
  unfold gOut
  rw [hi, hz]
  simp only
  rw [gNow_simple now _ t1]
  have e1 : gWday now (addTime h mi so half zo Given.none) = .ok (addTime h mi so half zo Given.none) := by
    unfold gWday Given.isSet
    rw [t2]
    simp
  rw [e1]
  simp only [Except.bind]
  rw [ampm_time h mi so half zo ht]

theorem instant_time (z : Zone) (h mi : Nat) (so : Option Nat) (half : Option Bool) (zo : Option Int) (tm : Tm) : gInstant z (gTime h mi so half zo) tm = inst z zo tm := by
  unfold gInstant Given.isSet
  rw [gTime_tm, gTime_set]
  cases zo <;> simp [inst]

/-- A time with seconds. -/
theorem out_time_seconds (z : Zone) (ref : Int) (round : Round) (h mi s : Nat) (half : Option Bool) (zo : Option Int) (now : Tm) (hz : nowFor z zo ref = some now) (ht : IsTime h mi (some s) half)
    (hi : InRange now) (hy : 0 ≤ now.year ∧ now.year ≤ 1500000000) :
    gOut z (addTime h mi (some s) half zo Given.none) ref round = outcome (inst z zo ⟨s, mi, hourOf h half, now.mday, now.mon, now.year, 0⟩) := by
  have md := mday_le hi
  have mo := hi.mon
  obtain ⟨c1, c2⟩ := hourOf_le ht
  have c3 := ht.2.1
  have c4 := ht.2.2 s rfl
  have i1 : inInt now.mday = true := inInt_of (by omega) (by omega)
  have i3 : inInt now.mon = true := inInt_of (by omega) (by omega)
  have i4 : inInt now.year = true := inInt_of (by omega) (by omega)
  have i5 : inInt (s : Int) = true := inInt_of (by omega) (by omega)
  have i6 : inInt (mi : Int) = true := inInt_of (by omega) (by omega)
  have i7 : inInt (hourOf h half : Int) = true := inInt_of (by omega) (by omega)
  have e7 : (h : Int) - (h - hourOf h half) = hourOf h half := by omega
  have e3 : now.mon + 1 - 1 = now.mon := by omega
  have e4 : 1900 + now.year - 1900 = now.year := by omega
  rw [out_time z ref round h mi (some s) half zo now hz ht]
  by_cases hr : round = .none
  · subst hr
    rw [rest_none, instant_time]
    · simp [plainTm, orNow, gTime_tm, gTime_set, e7, tmField, e3, e4]
    · simp [FitsPlain, orNow, gTime_tm, gTime_set, e7, tmField, e3, e4, i1, i3, i4, i5, i6, i7, int0]
  · rw [rest_finest z now _ .sec round hr, instant_time]
    · simp [endTm, base, gTime_tm, gTime_set, e7, extra, tmField, e3, e4, finer]
    · refine ⟨by decide, ?_, ?_, ?_⟩
      · intro f hf
        simp [finer] at hf
      · intro hf
        simp [finer] at hf
      · simp [gTime_set]
    · simp [Fits, base, gTime_tm, gTime_set, e7, extra, relField, tmField, e3, e4, finer, i1, i3, i4, i5, i6, i7, int0, int1, intm1]

/-- A time without seconds. -/
theorem out_time_minutes (z : Zone) (ref : Int) (round : Round) (h mi : Nat) (half : Option Bool) (zo : Option Int) (now : Tm) (hz : nowFor z zo ref = some now) (ht : IsTime h mi none half)
    (hr : round ≠ .none) (hi : InRange now) (hy : 0 ≤ now.year ∧ now.year ≤ 1500000000) :
    gOut z (addTime h mi none half zo Given.none) ref round = outcome (inst z zo ⟨-upSec round, mi + upBy round, hourOf h half, now.mday, now.mon, now.year, 0⟩) := by
  have md := mday_le hi
  have mo := hi.mon
  obtain ⟨c1, c2⟩ := hourOf_le ht
  have c3 := ht.2.1
  have i1 : inInt now.mday = true := inInt_of (by omega) (by omega)
  have i3 : inInt now.mon = true := inInt_of (by omega) (by omega)
  have i4 : inInt now.year = true := inInt_of (by omega) (by omega)
  have i5 : inInt ((mi : Int) + 1) = true := inInt_of (by omega) (by omega)
  have i6 : inInt (mi : Int) = true := inInt_of (by omega) (by omega)
  have i7 : inInt (hourOf h half : Int) = true := inInt_of (by omega) (by omega)
  have e7 : (h : Int) - (h - hourOf h half) = hourOf h half := by omega
  have e3 : now.mon + 1 - 1 = now.mon := by omega
  have e4 : 1900 + now.year - 1900 = now.year := by omega
  rw [out_time z ref round h mi none half zo now hz ht]
  rw [rest_finest z now _ .min round hr, instant_time]
  · rcases round_cases round hr with k | k | k <;> subst k <;>
      simp [endTm, base, gTime_tm, gTime_set, e7, finer, extra, relField, epochValue, upSec, upBy, tmField, e3, e4]
  · refine ⟨by decide, ?_, ?_, ?_⟩
    · intro f hf
      simp [finer] at hf
      subst hf
      simp [gTime_set, relField]
    · intro hf
      simp [finer] at hf
    · simp [gTime_set]
  · rcases round_cases round hr with k | k | k <;> subst k <;>
      simp [Fits, base, gTime_tm, gTime_set, e7, finer, extra, relField, epochValue, tmField, e3, e4, i1, i3, i4, i5, i6, i7, int0, int1, intm1]

/-- The time now in the zone that counts. -/
theorem nowFor_fields {off now : Int} {zo : Option Int} (ho : IsOffset off) (hn : IsNow now) (hz : ∀ x ∈ zo, -1000 ≤ x ∧ x ≤ 1000) :
    nowFor (fixedZone off) zo now = some (fieldsOf (now + zoneOf off zo)) ∧ 0 ≤ now + zoneOf off zo ∧ now + zoneOf off zo < 2 ^ 54 := by
  obtain ⟨l1, l2⟩ := now_local ho hn
  obtain ⟨n1, n2⟩ := hn
  cases zo with
  | none => exact ⟨fixed_local off now l1 (by omega), l1, l2⟩
  | some x =>
    have hx := hz x rfl
    have e : now + zoneOf off (some x) = now + x * 60 := by
      show now + 60 * x = _
      omega
    rw [e]
    exact ⟨gmtime_eq _ (by omega) (by omega), by omega, by omega⟩

/-! ## What is not understood -/

theorem parse_fails {s : Str} {e : Err} (h : parse .init s = .error e) (z : Zone) (now : Int) (r : Round) : parseTimeString z s now r = .error e := by
  unfold parseTimeString
  have : parseInput s.length .init s = .error e := h
  rw [this]
  rfl

theorem userTz_bad (c : UInt8) (h m : Nat) (hb : 14 < h ∨ 59 < m ∨ m % 15 ≠ 0) : userTz c (h : Int) (m : Int) = .error .invalidTime := by
  unfold userTz
  rw [if_pos (by omega)]

theorem bad_zone_colon {h m zh zm : Nat} {so : Option Nat} {half : Option Bool} {a gp b c : Str} (neg : Bool) (ht : TimeText h m so half none a) (hv : IsTime h m so half) (hg : ∀ c ∈ gp, isAlnum c = false)
    (h1 : Digits 2 zh b) (h2 : Digits 2 zm c) (hb : 14 < zh ∨ 59 < zm ∨ zm % 15 ≠ 0) : parse .init (a ++ (gp ++ ((if neg then 45 else 43) :: (b ++ 58 :: c)))) = .error .invalidTime := by
  have hr : Ready .init Given.none := ⟨⟨.init, rfl, rfl, rfl⟩, by decide⟩
  obtain ⟨s1, f, e1, r1, _⟩ := parse_sign (rest := []) (ds := b ++ 58 :: c) ht hv hr ⟨⟨rfl, rfl, rfl⟩, rfl, rfl⟩ (by decide) hg neg (Or.inr (digits_begin (h1.ne (by omega)) h1.2.1))
  have hset := addTime_set (h := h) (m := m) (s := so) (half := half) (g := Given.none)
  rw [List.append_nil, List.append_nil] at e1
  rw [e1]
  generalize hs2 : ({ s1 with delim := if neg then 45 else 43 } : State) = s2
  have d2 : s2.delim = if neg then 45 else 43 := by rw [← hs2]
  have i1 : s2.isSet .hour = true := by
    rw [← hs2]
    show decide (s1.set .hour ≠ .unset) = true
    rw [r1.has.1, hset.1]
    decide
  have i2 : s2.isSet .min = true := by
    rw [← hs2]
    show decide (s1.set .min ≠ .unset) = true
    rw [r1.has.1, hset.2]
    decide
  have e2 := parse_two s2 58 b c [] (by decide) (h1.ne (by omega)) (h2.ne (by omega)) h1.2.1 h2.2.1 (by intro x hx; simp at hx) (by intro d l e; simp at e)
  rw [List.append_nil] at e2
  rw [e2]
  have eg : groups s2 58 b c [] = .error .invalidTime := by
    unfold groups parseTime
    rw [h1.strtoul (by omega), h2.strtoul (by omega), h1.1, h2.1]
    rw [if_pos (by decide), List.length_nil, if_neg (by omega), if_pos ⟨i1, i2, rfl, rfl, rfl, by rw [d2]; cases neg <;> decide⟩, userTz_bad _ zh zm hb]
    rfl
  rw [eg]
  rfl

theorem bad_zone_two {h m zh : Nat} {so : Option Nat} {half : Option Bool} {a gp b : Str} (neg : Bool) (ht : TimeText h m so half none a) (hv : IsTime h m so half) (hg : ∀ c ∈ gp, isAlnum c = false)
    (h1 : Digits 2 zh b) (hb : 14 < zh) : parse .init (a ++ (gp ++ ((if neg then 45 else 43) :: b))) = .error .invalidTime := by
  have hr : Ready .init Given.none := ⟨⟨.init, rfl, rfl, rfl⟩, by decide⟩
  obtain ⟨s1, f, e1, r1, hf⟩ := parse_sign (rest := []) (ds := b) ht hv hr ⟨⟨rfl, rfl, rfl⟩, rfl, rfl⟩ (by decide) hg neg (Or.inl ⟨_, _, h1, by omega⟩)
  rw [List.append_nil] at e1
  rw [e1]
  generalize hs2 : ({ s1 with delim := if neg then 45 else 43 } : State) = s2
  have hm2 : Means s2 (addTime h m so half .none Given.none) := by rw [← hs2]; exact r1.means.delim _
  have d2 : s2.delim = if neg then 45 else 43 := by rw [← hs2]
  have p2 : s2.postLen = 0 := by rw [← hs2]; exact r1.post
  have l2 : s2.last = some f := by rw [← hs2]; exact r1.last
  obtain ⟨s3, e3, q1, q2, q3, q4, q5, _⟩ := parse_number (rest := []) h1 (by omega) (by omega) hm2 (by rw [d2]; cases neg <;> decide) stops_nil.digit stops_nil.group
  have l3 : ¬(s3.consume.last = some .mon) := by
    show ¬(s3.last = some .mon)
    rw [q5 p2, l2]
    intro e
    exact hf (Option.some.inj e)
  have ez := userTz_bad (if neg then 45 else 43) zh 0 (by omega)
  rw [e3, parse_nil]
  unfold parsePostponed
  have ez' : userTz (if neg then 45 else 43) (zh : Int) 0 = .error .invalidTime := ez
  simp only [q2, q3, q4, d2, ez']
  have hsg : ((2 : Nat) : Int) = 2 ∧ ((if neg then 45 else 43 : UInt8) = 43 ∨ (if neg then 45 else 43 : UInt8) = 45) := ⟨rfl, by cases neg <;> decide⟩
  rw [if_neg (by decide), if_pos (by decide), if_neg l3, if_pos hsg]
  rfl

theorem bad_ordinal {d : Nat} {a o : Str} (h1 : Short d a) (ho : o.map toLower ∈ [bs "st", bs "nd", bs "rd", bs "th"]) (hb : ¬OrdinalWord d o) (hd : o.map toLower ≠ bs "th" ∨ d = 0 ∨ 31 < d) :
    parse .init (a ++ o) = .error .invalidDate := by
  obtain ⟨n1, k1, g1⟩ := h1.digits
  have hord : ∃ d', OrdinalWord d' o := by
    simp only [List.mem_cons, List.not_mem_nil, or_false] at ho
    rcases ho with h | h | h | h
    · exact ⟨1, by unfold OrdinalWord; rw [h]; decide⟩
    · exact ⟨2, by unfold OrdinalWord; rw [h]; decide⟩
    · exact ⟨3, by unfold OrdinalWord; rw [h]; decide⟩
    · exact ⟨4, by unfold OrdinalWord; rw [h]; decide⟩
  obtain ⟨d', hd'⟩ := hord
  obtain ⟨kw, k, hk, kn, ks⟩ := ordinalWord_keyword hd'
  have wn := word_next (rest := []) kw
  obtain ⟨s1, e1, r1, r2, r3, _, _, r6⟩ := parse_number (st := .init) (g := Given.none) g1 (by omega) (by omega) ⟨.init, rfl, rfl, rfl⟩ (by decide) wn.1 wn.2
  have e2 := parse_keyword s1 o [] k kw.ne kw.alpha (by intro x hx; simp at hx) hk
  rw [List.append_nil] at e1 e2
  rw [e1, e2]
  have hbad : badOrdinal k.name (d : Int) = true := by
    rw [kn]
    have e : ∀ n : Nat, ((d : Int) != (n : Int)) = decide (d ≠ n) := by
      intro n
      by_cases hn : d = n
      · subst hn; simp
      · have : (d : Int) ≠ n := by omega
        simp [hn, this]
    have l1 := e 1
    have l2 := e 2
    have l3 := e 3
    have l21 := e 21
    have l22 := e 22
    have l23 := e 23
    have l31 := e 31
    simp only [Int.cast_ofNat_Int] at l1 l2 l3 l21 l22 l23 l31
    simp only [List.mem_cons, List.not_mem_nil, or_false] at ho
    unfold badOrdinal
    rcases ho with h | h | h | h
    · unfold OrdinalWord at hb
      rw [h] at hb ⊢
      have : ¬(d = 1 ∨ d = 21 ∨ d = 31) := by
        intro k
        rw [if_pos k] at hb
        exact hb rfl
      have a1 : d ≠ 1 := by omega
      have a2 : d ≠ 21 := by omega
      have a3 : d ≠ 31 := by omega
      rw [l1, l21, l31]
      simp [a1, a2, a3]
    · unfold OrdinalWord at hb
      rw [h] at hb ⊢
      have : ¬(d = 2 ∨ d = 22) := by
        intro k
        rw [if_neg (by omega), if_pos k] at hb
        exact hb rfl
      have a1 : d ≠ 2 := by omega
      have a2 : d ≠ 22 := by omega
      rw [l2, l22]
      simp [a1, a2]
    · unfold OrdinalWord at hb
      rw [h] at hb ⊢
      have : ¬(d = 3 ∨ d = 23) := by
        intro k
        rw [if_neg (by omega), if_neg (by omega), if_pos k] at hb
        exact hb rfl
      have a1 : d ≠ 3 := by omega
      have a2 : d ≠ 23 := by omega
      rw [l3, l23]
      simp [a1, a2]
    · rw [h] at hd ⊢
      have : d = 0 ∨ 31 < d := by
        rcases hd with k | k
        · exact absurd rfl k
        · exact k
      have hv : validMday (d : Int) = false := by
        unfold validMday
        simp only [decide_eq_false_iff_not]
        omega
      rw [hv]
      simp
  have ea : applyKeyword s1 k = .error .invalidDate := by
    unfold applyKeyword
    rw [ks]
    simp only
    rw [if_pos (by omega), r3, hbad]
    rfl
  rw [ea]
  rfl

end Notmuch.Time
