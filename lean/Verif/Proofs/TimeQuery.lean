import Verif.Proofs.TimeRange
import Verif.Proofs.TimeStamp
import Verif.Proofs.TimeCase

/-! # Proofs: date queries -/

namespace Notmuch.Time

theorem fixed_mktime' (off t : Int) (tm : Tm) (h : seconds tm - off = t) (ht : t ≠ -1) : (fixedZone off).mktime tm = some t := by
  show (if seconds tm - off = -1 then none else some (seconds tm - off)) = some t
  rw [h, if_neg ht]

theorem now_local {off now : Int} (ho : IsOffset off) (hn : IsNow now) : 0 ≤ now + off ∧ now + off < 2 ^ 54 := by
  obtain ⟨_, o1, o2⟩ := ho
  obtain ⟨n1, n2⟩ := hn
  omega

theorem dayOf_nonneg {y m d : Nat} (h : IsDay y m d) : 0 ≤ dayOf y m d := by
  obtain ⟨_, _, _, _, h1, _⟩ := h
  unfold dayOf
  omega

theorem date_fixed {off now : Int} {y m d : Nat} {s : Str} (r : Round) (hr : r ≠ .none) (ho : IsOffset off) (hn : IsNow now) (hd : IsDay y m d) (hs : DateText y m d s) :
    parseTimeString (fixedZone off) s now r = .ok (86400 * (dayOf y m d + upBy r) - upSec r - off) := by
  obtain ⟨l1, l2⟩ := now_local ho hn
  have hD := dayOf_nonneg hd
  obtain ⟨o0, o1, o2⟩ := ho
  rw [parseTimeString_eq (dateText_does hd hs).last ⟨rfl, rfl, rfl⟩, out_date (fixedZone off) _ now y m d r hr (fixed_local off now l1 (by omega)) hd,
    fixed_mktime' off (86400 * (dayOf y m d + upBy r) - upSec r - off)]
  · rfl
  · unfold seconds
    simp only [dayNumber_day]
    have e : (y : Int) - 1900 + 1900 = y := by omega
    rw [e, dayNumber_eq y m d hd.1 hd.2.2.1 hd.2.2.2.1]
    omega
  · rcases round_cases r hr with k | k | k <;> subst k <;> simp only [upBy, upSec, reduceCtorEq, if_false, if_true] <;> omega

theorem daysIn_next (y m : Nat) (hy : 1970 ≤ y) (h1 : 1 ≤ m) (h2 : m ≤ 12) : dayNumber y ((m : Int) - 1 + 1) 1 = dayOf y m 1 + daysIn y m := by
  have e : ((m : Int) - 1 + 1) = m := by omega
  rw [e]
  by_cases h : m = 12
  · subst h
    have e1 : dayNumber y (12 : Int) 1 = dayNumber (y + 1 : Nat) (1 - 1 : Int) 1 := by
      unfold dayNumber
      simp
    have e2 := dayNumber_eq (y + 1) 1 1 (by omega) (by omega) (by omega)
    have e3 : (((1 : Nat) : Int) - 1) = 0 := by decide
    show dayNumber (y : Int) 12 1 = _
    rw [e1]
    have e4 : dayNumber ((y + 1 : Nat) : Int) (1 - 1 : Int) 1 = dayOf (y + 1) 1 1 := by simpa using e2
    rw [e4]
    unfold dayOf
    have e5 : y + 1 - 1970 = (y - 1970) + 1 := by omega
    rw [e5]
    have e6 : daysUntil (y - 1970 + 1) = daysUntil (y - 1970) + daysOf (1970 + (y - 1970)) := rfl
    have e7 : 1970 + (y - 1970) = y := by omega
    have e8 : daysBefore (y + 1) 1 = 0 := rfl
    rw [e6, e7, e8]
    unfold daysOf
    omega
  · have e2 := dayNumber_eq y (m + 1) 1 hy (by omega) (by omega)
    have e3 : (((m + 1 : Nat) : Int) - 1) = m := by omega
    rw [e3] at e2
    have e4 : dayNumber (y : Int) (m : Int) 1 = dayOf y (m + 1) 1 := by simpa using e2
    rw [e4]
    unfold dayOf
    have e5 : daysBefore y (m + 1) = daysBefore y m + daysIn y m := by
      show (if m = 0 then 0 else _) = _
      rw [if_neg (by omega)]
    rw [e5]
    omega

theorem month_fixed {off now : Int} {y m : Nat} {s : Str} (ho : IsOffset off) (hn : IsNow now) (hy : 1970 ≤ y ∧ y ≤ 9999) (hm : 1 ≤ m ∧ m ≤ 12) (hs : MonthText y m s) :
    parseTimeString (fixedZone off) s now .down = .ok (86400 * dayOf y m 1 - off) ∧
    parseTimeString (fixedZone off) s now .up = .ok (86400 * (dayOf y m 1 + daysIn y m) - off) ∧
    parseTimeString (fixedZone off) s now .upInclusive = .ok (86400 * (dayOf y m 1 + daysIn y m) - 1 - off) := by
  obtain ⟨l1, l2⟩ := now_local ho hn
  have hI : 28 ≤ daysIn y m := by
    unfold daysIn
    split
    · split <;> omega
    · split <;> omega
  have hD : 0 ≤ dayOf y m 1 := dayOf_nonneg ⟨hy.1, hy.2, hm.1, hm.2, by omega, by omega⟩
  obtain ⟨o0, o1, o2⟩ := ho
  have e : (y : Int) - 1900 + 1900 = y := by omega
  have d1 : dayNumber y ((m : Int) - 1) 1 = dayOf y m 1 := by
    have := dayNumber_eq y m 1 hy.1 hm.1 hm.2
    simpa using this
  have d2 := daysIn_next y m hy.1 hm.1 hm.2
  have key : ∀ r, r ≠ Round.none → parseTimeString (fixedZone off) s now r =
      outcome ((fixedZone off).mktime ⟨-upSec r, 0, 0, 1, (m : Int) - 1 + upBy r, (y : Int) - 1900, 0⟩) := by
    intro r hr
    rw [parseTimeString_eq (monthText_does hy.1 hm hs).last ⟨rfl, rfl⟩, out_month (fixedZone off) _ now y m r hr (fixed_local off now l1 (by omega)) hy hm]
  refine ⟨?_, ?_, ?_⟩
  · rw [key .down (by decide), fixed_mktime' off (86400 * dayOf y m 1 - off)]
    · rfl
    · unfold seconds upSec upBy
      simp only [reduceCtorEq, if_false, if_true, Int.add_zero]
      rw [e, d1]
      omega
    · omega
  · rw [key .up (by decide), fixed_mktime' off (86400 * (dayOf y m 1 + daysIn y m) - off)]
    · rfl
    · unfold seconds upSec upBy
      simp only [reduceCtorEq, if_false]
      rw [e, d2]
      omega
    · omega
  · rw [key .upInclusive (by decide), fixed_mktime' off (86400 * (dayOf y m 1 + daysIn y m) - 1 - off)]
    · rfl
    · unfold seconds upSec upBy
      simp only [reduceCtorEq, if_false, if_true]
      rw [e, d2]
      omega
    · omega

/-- A date and then a time. -/
theorem moment_does {y mo d h mi : Nat} {so : Option Nat} {half : Option Bool} {zo : Option Int} {a g b : Str} (hd : IsDay y mo d) (ht : IsTime h mi so half) (ha : DateText y mo d a) (hg : Between g)
    (hb : TimeText h mi so half zo b) : DoesLast (a ++ (g ++ b)) (fun g => NoDate g ∧ NoClock (addDate y mo d g)) (fun g => addTime h mi so half zo (addDate y mo d g)) :=
  (dateText_does hd ha).seqLast hg (zoneText_does hb ht)

/-- A time and then a date. -/
theorem moment_does' {y mo d h mi : Nat} {so : Option Nat} {half : Option Bool} {a g b : Str} (hd : IsDay y mo d) (ht : IsTime h mi so half) (ha : DateText y mo d a) (hg : Between g)
    (hb : TimeText h mi so half none b) : Does (b ++ (g ++ a)) (fun g => NoClock g ∧ NoDate (addTime h mi so half none g)) (fun g => addDate y mo d (addTime h mi so half none g)) :=
  (timeText_does hb ht).seq hg (dateText_does hd ha)

theorem inst_fixed {off t : Int} {zo : Option Int} {tm : Tm} (h : seconds tm - zoneOf off zo = t) (ht : t ≠ -1) : inst (fixedZone off) zo tm = some t := by
  cases zo with
  | none => exact fixed_mktime' off t tm h ht
  | some x =>
    have e : seconds { tm with min := tm.min - x } = seconds tm - 60 * x := by
      unfold seconds
      simp only
      omega
    show timegm { tm with min := tm.min - x } = some t
    unfold timegm
    rw [e]
    have h' : seconds tm - 60 * x = t := h
    rw [h', if_neg ht]

theorem zone_bounds {h m : Nat} {so : Option Nat} {half : Option Bool} {zo : Option Int} {s : Str} (ht : TimeText h m so half zo s) : ∀ x ∈ zo, -1000 ≤ x ∧ x ≤ 1000 := by
  have zb : ∀ {x : Int} {s : Str}, ZoneText x s → -1000 ≤ x ∧ x ≤ 1000 := by
    intro x s h
    cases h with
    | colon neg h m a b _ _ h1 h2 h3 => cases neg <;> simp <;> omega
    | four neg h m a _ h1 h2 h3 => cases neg <;> simp <;> omega
    | two neg h a _ h1 => cases neg <;> simp <;> omega
  cases ht with
  | plain _ _ => simp
  | half _ _ _ _ _ _ _ => simp
  | hour _ _ _ _ _ _ _ _ _ => simp
  | noon _ _ _ _ _ => simp
  | midnight _ _ _ _ _ => simp
  | named _ z _ _ _ _ _ _ hz =>
    have k : ∀ p ∈ zoneNames, -1000 ≤ p.2 ∧ p.2 ≤ 1000 := by decide +kernel
    intro x hx
    simp at hx
    rw [← hx]
    exact k _ hz
  | zone _ z _ _ _ _ _ hz =>
    intro x hx
    simp at hx
    rw [← hx]
    exact zb hz

theorem nowFor_fixed {off now : Int} {zo : Option Int} (ho : IsOffset off) (hn : IsNow now) (hz : ∀ x ∈ zo, -1000 ≤ x ∧ x ≤ 1000) : ∃ tm, nowFor (fixedZone off) zo now = some tm := by
  obtain ⟨l1, l2⟩ := now_local ho hn
  obtain ⟨n1, n2⟩ := hn
  cases zo with
  | none => exact ⟨_, fixed_local off now l1 (by omega)⟩
  | some x =>
    have := hz x rfl
    exact ⟨_, gmtime_eq _ (by omega) (by omega)⟩

theorem seconds_moment {y mo d : Nat} (hd : IsDay y mo d) (s mi h : Int) : seconds ⟨s, mi, h, d, (mo : Int) - 1, (y : Int) - 1900, 0⟩ = 86400 * dayOf y mo d + 3600 * h + 60 * mi + s := by
  unfold seconds
  have e : (y : Int) - 1900 + 1900 = y := by omega
  simp only [e, dayNumber_eq y mo d hd.1 hd.2.2.1 hd.2.2.2.1]

end Notmuch.Time
