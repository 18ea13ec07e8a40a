import Verif.Proofs.TimeMore

/-!
# C54: dates and times

`now` is the time of day when the query is run; `fixedZone off` is a zone that is always `off` seconds ahead of UTC.
-/

namespace Notmuch.Props

open Notmuch.Time

/-! ## Days and months -/

/-- `date:2012-09-03`, in any of the ways to write it, finds the messages of that day, and no others. -/
theorem C54_date {off now : Int} {y m d : Nat} {s : Str} (ho : IsOffset off) (hn : IsNow now) (hd : IsDay y m d) (hs : DateText y m d s) :
    ∃ r, dateField (fixedZone off) now s = .ok r ∧ ∀ t, r.has t = true ↔ localDay off t = dayOf y m d := by
  refine ⟨⟨some (86400 * (dayOf y m d + 0) - 0 - off), some (86400 * (dayOf y m d + 1) - 1 - off)⟩, ?_, ?_⟩
  · unfold dateField
    rw [date_fixed .down (by decide) ho hn hd hs, date_fixed .upInclusive (by decide) ho hn hd hs]
    rfl
  · intro t
    unfold Range.has localDay
    simp only [Option.map_some, Option.getD_some, Bool.and_eq_true, decide_eq_true_eq]
    omega

/-- `date:from..to`, with days on both sides: from the first day to the last one. -/
theorem C54_days {off now : Int} {y m d y' m' d' : Nat} {a b : Str} (ho : IsOffset off) (hn : IsNow now) (hd : IsDay y m d) (ha : DateText y m d a) (hd' : IsDay y' m' d') (hb : DateText y' m' d' b) :
    ∃ r, dateStrings (fixedZone off) now a b = .ok r ∧ ∀ t, r.has t = true ↔ dayOf y m d ≤ localDay off t ∧ localDay off t ≤ dayOf y' m' d' := by
  have ea : a ≠ [] := by
    obtain ⟨c, l, e, _⟩ := (dateText_does hd ha).begins
    rw [e]; simp
  have eb : b ≠ [] ∧ b ≠ bs "!" := by
    obtain ⟨c, l, e, h⟩ := (dateText_does hd' hb).begins
    rw [e]
    refine ⟨by simp, ?_⟩
    intro k
    have : c = 33 := by
      have := congrArg List.head? k
      simpa [bs] using this
    rw [this] at h
    exact absurd h (by decide)
  refine ⟨⟨some (86400 * (dayOf y m d + 0) - 0 - off), some (86400 * (dayOf y' m' d' + 1) - 1 - off)⟩, ?_, ?_⟩
  · unfold dateStrings
    rw [if_neg ea, if_neg eb.1, if_neg (fun k => eb.2 k.1), date_fixed .down (by decide) ho hn hd ha, date_fixed .upInclusive (by decide) ho hn hd' hb]
    rfl
  · intro t
    unfold Range.has localDay
    simp only [Option.map_some, Option.getD_some, Bool.and_eq_true, decide_eq_true_eq]
    omega

/-- `date:from..` and `date:..to`: one side may be left out; `date:..to` leaves out messages of the first second of 1970 and before. -/
theorem C54_open {off now : Int} {y m d : Nat} {s : Str} (ho : IsOffset off) (hn : IsNow now) (hd : IsDay y m d) (hs : DateText y m d s) :
    (∃ r, dateStrings (fixedZone off) now s [] = .ok r ∧ ∀ t, r.has t = true ↔ dayOf y m d ≤ localDay off t) ∧
    (∃ r, dateStrings (fixedZone off) now [] s = .ok r ∧ ∀ t, r.has t = true ↔ 0 < t ∧ localDay off t ≤ dayOf y m d) := by
  have es : s ≠ [] := by
    obtain ⟨c, l, e, _⟩ := (dateText_does hd hs).begins
    rw [e]; simp
  refine ⟨⟨⟨some (86400 * (dayOf y m d + 0) - 0 - off), none⟩, ?_, ?_⟩, ⟨⟨none, some (86400 * (dayOf y m d + 1) - 1 - off)⟩, ?_, ?_⟩⟩
  · unfold dateStrings
    rw [if_neg es, if_pos rfl, date_fixed .down (by decide) ho hn hd hs]
    rfl
  · intro t
    unfold Range.has localDay
    simp only [Option.map_some, Option.getD_some, Option.map_none, Option.getD_none, Bool.and_eq_true, decide_eq_true_eq, and_true]
    omega
  · unfold dateStrings
    rw [if_pos rfl, if_neg es, if_neg (fun k => k.2 rfl), date_fixed .upInclusive (by decide) ho hn hd hs]
    rfl
  · intro t
    unfold Range.has localDay
    simp only [Option.map_some, Option.getD_some, Option.map_none, Option.getD_none, Bool.and_eq_true, decide_eq_true_eq, and_true]
    omega

/-- `date:X..!` is `date:X`, whatever X is. -/
theorem C54_bang (z : Zone) (now : Int) (s : Str) (hs : s ≠ []) : dateStrings z now s (bs "!") = dateField z now s := by
  unfold dateStrings dateField
  rw [if_neg hs, if_neg (by decide), if_pos ⟨rfl, hs⟩]
  cases parseTimeString z s now .down with
  | error e => rfl
  | ok a =>
    simp only [Except.bind]
    cases parseTimeString z s now .upInclusive <;> rfl

/-- `date:2012-09`, in any of the ways to write it, finds the messages of that month, and no others. -/
theorem C54_month {off now : Int} {y m : Nat} {s : Str} (ho : IsOffset off) (hn : IsNow now) (hy : 1970 ≤ y ∧ y ≤ 9999) (hm : 1 ≤ m ∧ m ≤ 12) (hs : MonthText y m s) :
    ∃ r, dateField (fixedZone off) now s = .ok r ∧ ∀ t, r.has t = true ↔ ∃ d : Nat, IsDay y m d ∧ localDay off t = dayOf y m d := by
  obtain ⟨h1, _, h3⟩ := month_fixed ho hn hy hm hs
  refine ⟨⟨some (86400 * dayOf y m 1 - off), some (86400 * (dayOf y m 1 + daysIn y m) - 1 - off)⟩, ?_, ?_⟩
  · unfold dateField
    rw [h1, h3]
    rfl
  · intro t
    have hD := dayOf_nonneg (y := y) (m := m) (d := 1) ⟨hy.1, hy.2, hm.1, hm.2, by omega, by
      unfold daysIn
      split
      · split <;> omega
      · split <;> omega⟩
    have hd1 : ∀ d : Nat, dayOf y m d = dayOf y m 1 + d - 1 := by
      intro d
      unfold dayOf
      omega
    unfold Range.has
    simp only [Option.map_some, Option.getD_some, Bool.and_eq_true, decide_eq_true_eq]
    constructor
    · rintro ⟨a, b⟩
      refine ⟨(localDay off t - dayOf y m 1 + 1).toNat, ⟨hy.1, hy.2, hm.1, hm.2, ?_, ?_⟩, ?_⟩
      · unfold localDay; omega
      · unfold localDay; omega
      · rw [hd1]
        unfold localDay
        omega
    · rintro ⟨d, ⟨_, _, _, _, k1, k2⟩, k⟩
      rw [hd1] at k
      unfold localDay at k
      omega

/-- `date:2012` finds the messages from the first to the last day of that year. -/
theorem C54_year {off now : Int} {y : Nat} {s : Str} (ho : IsOffset off) (hn : IsNow now) (hy : 1970 ≤ y ∧ y ≤ 9999) (hs : Digits 4 y s) :
    ∃ r, dateField (fixedZone off) now s = .ok r ∧ ∀ t, r.has t = true ↔ dayOf y 1 1 ≤ localDay off t ∧ localDay off t ≤ dayOf y 12 31 := by
  refine ⟨⟨some (86400 * dayOf y 1 1 - 0 - off), some (86400 * (dayOf y 12 31 + 1) - 1 - off)⟩, ?_, ?_⟩
  · unfold dateField
    rw [year_fixed .down (by decide) ho hn hy hs, year_fixed .upInclusive (by decide) ho hn hy hs]
    rfl
  · intro t
    unfold Range.has localDay
    simp only [Option.map_some, Option.getD_some, Bool.and_eq_true, decide_eq_true_eq]
    omega

/-- `date:today`: the messages of the day that it is now. -/
theorem C54_today {off now : Int} {s : Str} (ho : IsOffset off) (hn : IsNow now) (hs : s.map toLower = bs "today") :
    ∃ r, dateField (fixedZone off) now s = .ok r ∧ ∀ t, r.has t = true ↔ localDay off t = localDay off now := by
  refine ⟨⟨some (86400 * (localDay off now + 0) - 0 - off), some (86400 * (localDay off now + 1) - 1 - off)⟩, ?_, ?_⟩
  · unfold dateField
    rw [today_fixed .down (by decide) ho hn hs, today_fixed .upInclusive (by decide) ho hn hs]
    rfl
  · intro t
    unfold Range.has localDay
    simp only [Option.map_some, Option.getD_some, Bool.and_eq_true, decide_eq_true_eq]
    omega

/-- `now` is now, however it is rounded. -/
theorem C54_now {off now : Int} {s : Str} (r : Round) (ho : IsOffset off) (hn : IsNow now) (hs : s.map toLower = bs "now") : parseTimeString (fixedZone off) s now r = .ok now := now_fixed r ho hn hs

/-- In any zone: a day is from 00:00:00 on until a second before 00:00:00 of the next day, as `mktime` has them. -/
theorem C54_date_zone (z : Zone) {now : Int} {local_ : Tm} {y m d : Nat} {s : Str} (hz : z.localtime now = some local_) (hd : IsDay y m d) (hs : DateText y m d s) :
    parseTimeString z s now .down = outcome (z.mktime ⟨0, 0, 0, d, (m : Int) - 1, (y : Int) - 1900, 0⟩) ∧
    parseTimeString z s now .up = outcome (z.mktime ⟨0, 0, 0, d + 1, (m : Int) - 1, (y : Int) - 1900, 0⟩) ∧
    parseTimeString z s now .upInclusive = outcome (z.mktime ⟨-1, 0, 0, d + 1, (m : Int) - 1, (y : Int) - 1900, 0⟩) := by
  have key : ∀ r, r ≠ Round.none → parseTimeString z s now r = outcome (z.mktime ⟨-upSec r, 0, 0, (d : Int) + upBy r, (m : Int) - 1, (y : Int) - 1900, 0⟩) := by
    intro r hr
    rw [parseTimeString_eq (dateText_does hd hs).last ⟨rfl, rfl, rfl⟩, out_date z local_ now y m d r hr hz hd]
  refine ⟨?_, key .up (by decide), key .upInclusive (by decide)⟩
  have := key .down (by decide)
  simpa [upSec, upBy] using this

/-! ## Times of the day -/

/-- A date and a time with seconds, perhaps with am or pm, perhaps with a zone: that second. -/
theorem C54_second {off now : Int} {y mo d h mi s : Nat} {half : Option Bool} {zo : Option Int} {a g b : Str} (r : Round) (ho : IsOffset off) (hn : IsNow now) (hd : IsDay y mo d) (ht : IsTime h mi (some s) half)
    (ha : DateText y mo d a) (hg : Between g) (hb : TimeText h mi (some s) half zo b) (hm : secondsOf y mo d (hourOf h half) mi s - zoneOf off zo ≠ -1) :
    parseTimeString (fixedZone off) (a ++ (g ++ b)) now r = .ok (secondsOf y mo d (hourOf h half) mi s - zoneOf off zo) := by
  obtain ⟨tm, hz⟩ := nowFor_fixed ho hn (zone_bounds hb)
  rw [parseTimeString_eq (moment_does hd ht ha hg hb) (by simp [NoDate, NoClock, NoTime, addDate, Given.add, Given.none, put]), out_seconds (fixedZone off) now r y mo d h mi s half zo tm hz hd ht,
    inst_fixed (t := secondsOf y mo d (hourOf h half) mi s - zoneOf off zo) ?_ hm]
  · rfl
  · rw [seconds_moment hd]
    unfold secondsOf
    rfl

/-- A date and a time without seconds: the 60 seconds of that minute. -/
theorem C54_minute {off now : Int} {y mo d h mi : Nat} {half : Option Bool} {zo : Option Int} {a g b : Str} (ho : IsOffset off) (hn : IsNow now) (hd : IsDay y mo d) (ht : IsTime h mi none half)
    (ha : DateText y mo d a) (hg : Between g) (hb : TimeText h mi none half zo b) (hm : 0 ≤ secondsOf y mo d (hourOf h half) mi 0 - zoneOf off zo) :
    ∃ r, dateField (fixedZone off) now (a ++ (g ++ b)) = .ok r ∧ ∀ t, r.has t = true ↔ ∃ s : Nat, s < 60 ∧ t = secondsOf y mo d (hourOf h half) mi s - zoneOf off zo := by
  obtain ⟨tm, hz⟩ := nowFor_fixed ho hn (zone_bounds hb)
  have key : ∀ r, r ≠ Round.none → parseTimeString (fixedZone off) (a ++ (g ++ b)) now r = .ok (secondsOf y mo d (hourOf h half) mi 0 + 60 * upBy r - upSec r - zoneOf off zo) := by
    intro r hr
    rw [parseTimeString_eq (moment_does hd ht ha hg hb) (by simp [NoDate, NoClock, NoTime, addDate, Given.add, Given.none, put]), out_minutes (fixedZone off) now r y mo d h mi half zo tm hz hd ht hr,
      inst_fixed (t := secondsOf y mo d (hourOf h half) mi 0 + 60 * upBy r - upSec r - zoneOf off zo)]
    · rfl
    · rw [seconds_moment hd]
      unfold secondsOf
      omega
    · rcases round_cases r hr with k | k | k <;> subst k <;> simp only [upBy, upSec, reduceCtorEq, if_false, if_true] <;> omega
  refine ⟨⟨some (secondsOf y mo d (hourOf h half) mi 0 - zoneOf off zo), some (secondsOf y mo d (hourOf h half) mi 0 + 59 - zoneOf off zo)⟩, ?_, ?_⟩
  · unfold dateField
    rw [key .down (by decide), key .upInclusive (by decide)]
    simp only [Except.bind, upBy, upSec, reduceCtorEq, if_false, if_true]
    have e1 : secondsOf y mo d (hourOf h half) mi 0 + 60 * 0 - 0 - zoneOf off zo = secondsOf y mo d (hourOf h half) mi 0 - zoneOf off zo := by omega
    have e2 : secondsOf y mo d (hourOf h half) mi 0 + 60 * 1 - 1 - zoneOf off zo = secondsOf y mo d (hourOf h half) mi 0 + 59 - zoneOf off zo := by omega
    rw [e1, e2]
  · intro t
    unfold Range.has
    simp only [Option.map_some, Option.getD_some, Bool.and_eq_true, decide_eq_true_eq]
    unfold secondsOf
    constructor
    · rintro ⟨k1, k2⟩
      refine ⟨(t - (secondsOf y mo d (hourOf h half) mi 0 - zoneOf off zo)).toNat, ?_, ?_⟩
      · unfold secondsOf; omega
      · unfold secondsOf; omega
    · rintro ⟨s, k1, k2⟩
      omega

/-- A time with seconds alone: of the day that it is now in the zone. -/
theorem C54_second_today {off now : Int} {h mi s : Nat} {half : Option Bool} {zo : Option Int} {b : Str} (r : Round) (ho : IsOffset off) (hn : IsNow now) (ht : IsTime h mi (some s) half)
    (hb : TimeText h mi (some s) half zo b) :
    parseTimeString (fixedZone off) b now r = .ok (86400 * localDay (zoneOf off zo) now + 3600 * hourOf h half + 60 * mi + s - zoneOf off zo) := by
  obtain ⟨hz, z1, z2⟩ := nowFor_fields ho hn (zone_bounds hb)
  have hy := fieldsOf_year (now + zoneOf off zo) z1 (by omega)
  rw [parseTimeString_eq (zoneText_does hb ht) ⟨⟨rfl, rfl, rfl⟩, rfl, rfl⟩, out_time_seconds (fixedZone off) now r h mi s half zo _ hz ht (fieldsOf_inRange _) (by omega),
    inst_fixed (t := 86400 * localDay (zoneOf off zo) now + 3600 * hourOf h half + 60 * mi + s - zoneOf off zo)]
  · rfl
  · unfold seconds localDay
    simp only [fieldsOf_day]
  · have h3 := ht.2.1
    have h4 := hourOf_le ht
    obtain ⟨n1, n2⟩ := hn
    unfold localDay
    omega

/-- A time without seconds alone: that minute of the day that it is now in the zone. -/
theorem C54_minute_today {off now : Int} {h mi : Nat} {half : Option Bool} {zo : Option Int} {b : Str} (ho : IsOffset off) (hn : IsNow now) (ht : IsTime h mi none half) (hb : TimeText h mi none half zo b) :
    ∃ r, dateField (fixedZone off) now b = .ok r ∧
      ∀ t, r.has t = true ↔ ∃ s : Nat, s < 60 ∧ t = 86400 * localDay (zoneOf off zo) now + 3600 * hourOf h half + 60 * mi + s - zoneOf off zo := by
  obtain ⟨hz, z1, z2⟩ := nowFor_fields ho hn (zone_bounds hb)
  have hy := fieldsOf_year (now + zoneOf off zo) z1 (by omega)
  have h3 := ht.2.1
  have h4 := hourOf_le ht
  obtain ⟨n1, n2⟩ := hn
  have key : ∀ r, r ≠ Round.none → parseTimeString (fixedZone off) b now r =
      .ok (86400 * localDay (zoneOf off zo) now + 3600 * hourOf h half + 60 * (mi + upBy r) - upSec r - zoneOf off zo) := by
    intro r hr
    rw [parseTimeString_eq (zoneText_does hb ht) ⟨⟨rfl, rfl, rfl⟩, rfl, rfl⟩, out_time_minutes (fixedZone off) now r h mi half zo _ hz ht hr (fieldsOf_inRange _) (by omega),
      inst_fixed (t := 86400 * localDay (zoneOf off zo) now + 3600 * hourOf h half + 60 * (mi + upBy r) - upSec r - zoneOf off zo)]
    · rfl
    · unfold seconds localDay
      simp only [fieldsOf_day]
      omega
    · unfold localDay
      rcases round_cases r hr with k | k | k <;> subst k <;> simp only [upBy, upSec, reduceCtorEq, if_false, if_true] <;> omega
  refine ⟨_, by unfold dateField; rw [key .down (by decide), key .upInclusive (by decide)]; rfl, ?_⟩
  intro t
  unfold Range.has
  simp only [Option.map_some, Option.getD_some, Bool.and_eq_true, decide_eq_true_eq, upBy, upSec, reduceCtorEq, if_false, if_true]
  constructor
  · rintro ⟨k1, k2⟩
    exact ⟨(t - (86400 * localDay (zoneOf off zo) now + 3600 * hourOf h half + 60 * mi - zoneOf off zo)).toNat, by omega, by omega⟩
  · rintro ⟨s, k1, k2⟩
    omega

/-- The time may be first. -/
theorem C54_time_first {z : Zone} {now : Int} {y mo d h mi : Nat} {so : Option Nat} {half : Option Bool} {a g g' b : Str} (r : Round) (hd : IsDay y mo d) (ht : IsTime h mi so half)
    (ha : DateText y mo d a) (hg : Between g) (hg' : Between g') (hb : TimeText h mi so half none b) : parseTimeString z (b ++ (g ++ a)) now r = parseTimeString z (a ++ (g' ++ b)) now r := by
  rw [parseTimeString_eq (moment_does hd ht ha hg' hb) (by simp [NoDate, NoClock, NoTime, addDate, Given.add, Given.none, put]),
    parseTimeString_eq (moment_does' hd ht ha hg hb).last ?_]
  · congr 1
    cases so <;> cases half <;> simp only [addTime, addClock, addDate] <;>
      simp only [Given.add_comm _ .hour .year _ _ (by decide), Given.add_comm _ .min .year _ _ (by decide), Given.add_comm _ .sec .year _ _ (by decide), Given.add_comm _ .ampm .year _ _ (by decide),
        Given.add_comm _ .hour .mon _ _ (by decide), Given.add_comm _ .min .mon _ _ (by decide), Given.add_comm _ .sec .mon _ _ (by decide), Given.add_comm _ .ampm .mon _ _ (by decide),
        Given.add_comm _ .hour .mday _ _ (by decide), Given.add_comm _ .min .mday _ _ (by decide), Given.add_comm _ .sec .mday _ _ (by decide), Given.add_comm _ .ampm .mday _ _ (by decide)]
  · cases so <;> cases half <;> simp [NoDate, NoClock, NoTime, addTime, addClock, Given.add, Given.none, put]

/-! ## How long ago -/

/-- Amounts of seconds to weeks: the whole second, minute, hour, day or week, whichever is the finest that is said, of the time so long ago. -/
theorem C54_ago {off now : Int} {l : List (Nat × TimeUnit)} {u : TimeUnit} {s : Str} (r : Round) (ho : IsOffset off) (hn : IsNow now) (hs : AmountsText l s) (hu : FinestUnit l u)
    (hm : ∀ p ∈ l, p.2 ≠ .month ∧ p.2 ≠ .year) (hl : ∀ u, total l u ≤ 100000000) (hp : 864000 ≤ now - agoSeconds l) :
    parseTimeString (fixedZone off) s now r = .ok (endingAt u (now + off - agoSeconds l) r - off) := by
  obtain ⟨l1, l2⟩ := now_local ho hn
  obtain ⟨_, o1, o2⟩ := ho
  rw [parseTimeString_adds (amounts_does hs)]
  · apply fixed_ago off now l u r l1 l2 hl hm hu
    obtain ⟨n, hmem⟩ := hu.1
    have h := hm _ hmem
    unfold beginningAt
    cases u <;> simp only [reduceCtorEq, if_false, if_true, TimeUnit.size]
    case month => exact absurd rfl h.1
    case year => exact absurd rfl h.2
    all_goals omega
  · intro u
    have := hl u
    simp only [Given.none]
    omega

/-- `date:yesterday`: the messages of the day before the one that it is now. -/
theorem C54_yesterday {off now : Int} {s : Str} (ho : IsOffset off) (hn : IsNow now) (hp : 950400 ≤ now) (hs : s.map toLower = bs "yesterday") :
    ∃ r, dateField (fixedZone off) now s = .ok r ∧ ∀ t, r.has t = true ↔ localDay off t = localDay off now - 1 := by
  have hu : FinestUnit [(1, TimeUnit.day)] .day := ⟨⟨1, by simp⟩, by simp⟩
  have hl : ∀ u, total [(1, TimeUnit.day)] u ≤ 100000000 := by intro u; cases u <;> decide
  have k := fun r => C54_ago r ho hn (.one 1 .day s (.yesterday s rfl rfl hs)) hu (by simp) hl (by show 864000 ≤ now - 86400; omega)
  refine ⟨_, by unfold dateField; rw [k .down, k .upInclusive]; rfl, ?_⟩
  intro t
  have e : agoSeconds [(1, TimeUnit.day)] = 86400 := by decide
  unfold Range.has localDay
  simp only [Option.map_some, Option.getD_some, Bool.and_eq_true, decide_eq_true_eq, e, endingAt, beginningAt, reduceCtorEq, if_false, TimeUnit.size]
  omega

/-- What a query for such an amount finds. -/
theorem C54_ago_query {off now : Int} {l : List (Nat × TimeUnit)} {u : TimeUnit} {s : Str} (ho : IsOffset off) (hn : IsNow now) (hs : AmountsText l s) (hu : FinestUnit l u)
    (hm : ∀ p ∈ l, p.2 ≠ .month ∧ p.2 ≠ .year) (hl : ∀ u, total l u ≤ 100000000) (hp : 864000 ≤ now - agoSeconds l) :
    ∃ r, dateField (fixedZone off) now s = .ok r ∧ r.has (now - agoSeconds l) = true ∧ ∀ t, r.has t = true ↔ beginningAt u (t + off) = beginningAt u (now - agoSeconds l + off) := by
  have k1 := C54_ago .down ho hn hs hu hm hl hp
  have k2 := C54_ago .upInclusive ho hn hs hu hm hl hp
  obtain ⟨n, hmem⟩ := hu.1
  have h := hm _ hmem
  have e0 : now + off - agoSeconds l = now - agoSeconds l + off := by omega
  rw [e0] at k1 k2
  refine ⟨⟨some (endingAt u (now - agoSeconds l + off) .down - off), some (endingAt u (now - agoSeconds l + off) .upInclusive - off)⟩, ?_, ?_, ?_⟩
  · unfold dateField
    rw [k1, k2]
    rfl
  · unfold Range.has
    simp only [Option.map_some, Option.getD_some, Bool.and_eq_true, decide_eq_true_eq]
    unfold endingAt beginningAt
    cases u <;> simp only [reduceCtorEq, if_false, if_true, TimeUnit.size]
    case month => exact absurd rfl h.1
    case year => exact absurd rfl h.2
    all_goals omega
  · intro t
    unfold Range.has
    simp only [Option.map_some, Option.getD_some, Bool.and_eq_true, decide_eq_true_eq]
    unfold endingAt beginningAt
    cases u <;> simp only [reduceCtorEq, if_false, if_true, TimeUnit.size]
    case month => exact absurd rfl h.1
    case year => exact absurd rfl h.2
    all_goals omega

/-- In any zone and with any units but weeks as the finest: the fields of the local time now, less the amounts, then rounded. -/
theorem C54_ago_zone (z : Zone) {now : Int} {local_ : Tm} {l : List (Nat × TimeUnit)} {u : TimeUnit} {s : Str} (r : Round) (hz : z.localtime now = some local_) (hr : InRange local_)
    (hy : 0 ≤ local_.year + 1900 ∧ local_.year ≤ 1500000000) (hs : AmountsText l s) (hu : FinestUnit l u) (hw : u ≠ .week ∨ r = .none) (hl : ∀ u, total l u ≤ 100000000) :
    parseTimeString z s now r = outcome (z.mktime (rounded u (agoTm local_ l) r)) := by
  rw [parseTimeString_adds (amounts_does hs)]
  · have hsane : Sane local_ l := ⟨hl, hr, hy⟩
    by_cases h : r = .none
    · subst h
      exact out_ago_none z local_ now l hz hsane
    · rcases hw with hw | hw
      · exact out_ago_round z local_ now l u r h hz hsane hu hw
      · exact absurd hw h
  · intro u
    have := hl u
    simp only [Given.none]
    omega

/-- The order of the amounts does not matter, nor how they are written. -/
theorem C54_ago_order (z : Zone) {now : Int} {local_ : Tm} {l l' : List (Nat × TimeUnit)} {u : TimeUnit} {s s' : Str} (r : Round) (hz : z.localtime now = some local_) (hr : InRange local_)
    (hy : 0 ≤ local_.year + 1900 ∧ local_.year ≤ 1500000000) (hs : AmountsText l s) (hs' : AmountsText l' s') (hu : FinestUnit l u) (hu' : FinestUnit l' u) (hw : u ≠ .week ∨ r = .none)
    (hl : ∀ u, total l u ≤ 100000000) (he : ∀ u, total l' u = total l u) : parseTimeString z s now r = parseTimeString z s' now r := by
  rw [C54_ago_zone z r hz hr hy hs hu hw hl, C54_ago_zone z r hz hr hy hs' hu' hw (fun u => by rw [he]; exact hl u)]
  have : agoTm local_ l' = agoTm local_ l := by
    unfold agoTm
    simp only [he]
  rw [this]

/-- A day of the week: the last one before today. -/
theorem C54_weekday {off now : Int} {n : Nat} {w : Str} (ho : IsOffset off) (hn : IsNow now) (hw : DayWord n w) :
    ∃ day : Int, localDay off now - 7 ≤ day ∧ day < localDay off now ∧ (day + 4) % 7 = n ∧
      ∃ r, dateField (fixedZone off) now w = .ok r ∧ ∀ t, r.has t = true ↔ localDay off t = day := by
  obtain ⟨l1, l2⟩ := now_local ho hn
  have hn7 : n < 7 := by
    obtain ⟨full, h1, _⟩ := hw
    have := (List.getElem?_eq_some_iff.1 h1).1
    simpa [dayNames] using this
  obtain ⟨day, a, b, c, e⟩ := fixed_wday off now n hn7 (by obtain ⟨_, o1, o2⟩ := ho; obtain ⟨n1, _⟩ := hn; omega) (by obtain ⟨n1, _⟩ := hn; omega) l2
  refine ⟨day, a, b, c, ⟨some (86400 * day - off), some (86400 * day + 86399 - off)⟩, ?_, ?_⟩
  · have hb : beginningAt .day (86400 * day) = 86400 * day := by
      simp only [beginningAt, TimeUnit.size, reduceCtorEq, if_false]
      omega
    unfold dateField
    rw [parseTimeString_eq (dayWord_does hw).last rfl, parseTimeString_eq (dayWord_does hw).last rfl, e .down (by decide), e .upInclusive (by decide)]
    simp only [endingAt, hb, Except.bind, reduceCtorEq, if_false, TimeUnit.size]
    have : 86400 * day + 86400 - 1 - off = 86400 * day + 86399 - off := by omega
    rw [this]
  · intro t
    unfold Range.has localDay
    simp only [Option.map_some, Option.getD_some, Bool.and_eq_true, decide_eq_true_eq]
    omega

/-- `date:@1346000000`: a time as the seconds since 1970, in any zone. -/
theorem C54_timestamp (z : Zone) {now : Int} {s : Str} (r : Round) (hn : IsNow now) (hs : s ≠ []) (hd : ∀ c ∈ s, isDigit c = true) (hv : decVal s < 2 ^ 55) :
    parseTimeString z (64 :: s) now r = .ok (decVal s) := by
  obtain ⟨n1, n2⟩ := hn
  exact stamp_text z s now r hs hd hv (by omega) (by omega)

/-! ## Any text -/

/-- Whatever the text is: if it is understood, then what it stands for does not end before it begins. -/
theorem C54_range (z : Zone) (hz : z.Mono) (now : Int) (s : Str) (a b : Int) (ha : parseTimeString z s now .down = .ok a) (hb : parseTimeString z s now .upInclusive = .ok b) : a ≤ b := by
  rcases out_of_text z s now with ⟨e, h⟩ | ⟨g, h⟩
  · rw [h] at ha
    cases ha
  · rw [h] at ha hb
    exact out_range hz ha hb

/-- ... and a second after its last second is where the next one begins, unless it is a second only. -/
theorem C54_end (off now : Int) (s : Str) (a b c : Int) (ha : parseTimeString (fixedZone off) s now .down = .ok a) (hb : parseTimeString (fixedZone off) s now .upInclusive = .ok b)
    (hc : parseTimeString (fixedZone off) s now .up = .ok c) : (a = b ∧ b = c) ∨ (a < c ∧ b + 1 = c) := by
  rcases out_of_text (fixedZone off) s now with ⟨e, h⟩ | ⟨g, h⟩
  · rw [h] at ha
    cases ha
  · rw [h] at ha hb hc
    exact out_end ha hb hc

/-- A text that is not understood is not understood however it is rounded: an error while reading it does not depend on that. -/
theorem C54_rounding (z : Zone) (now : Int) (s : Str) : (∃ e, ∀ r, parseTimeString z s now r = .error e) ∨ ∃ st, parseInput s.length .init s = .ok st ∧ ∀ r, parseTimeString z s now r = createOutput z st now r := by
  unfold parseTimeString
  cases h : parseInput s.length .init s with
  | error e => exact Or.inl ⟨e, fun r => rfl⟩
  | ok st => exact Or.inr ⟨st, rfl, fun r => rfl⟩

/-- Upper and lower case are the same in any text, but for an `M` that is a word of its own. -/
theorem C54_case (z : Zone) (now : Int) (s : Str) (r : Round) (h : NoLoneM s) : parseTimeString z (s.map toLower) now r = parseTimeString z s now r := parseTimeString_lower z s now r h

/-- Of the fixed zones, all have what C54_range asks for. -/
theorem C54_fixed_mono (off : Int) : (fixedZone off).Mono := fixed_mono off

/-- For comparing results. -/
instance timeDecEq {ε α : Type} [DecidableEq ε] [DecidableEq α] : DecidableEq (Except ε α)
  | .ok a, .ok b => if h : a = b then isTrue (h ▸ rfl) else isFalse fun e => h (Except.ok.inj e)
  | .error a, .error b => if h : a = b then isTrue (h ▸ rfl) else isFalse fun e => h (Except.error.inj e)
  | .ok _, .error _ => isFalse nofun
  | .error _, .ok _ => isFalse nofun

/-! ## What is not understood -/

/-- After a time, no zone is more than 14 hours and 45 minutes off, and they are in quarters of an hour. -/
theorem C54_bad_zone {h m zh zm : Nat} {so : Option Nat} {half : Option Bool} {a gp b c : Str} (neg : Bool) (z : Zone) (now : Int) (r : Round) (ht : TimeText h m so half none a) (hv : IsTime h m so half)
    (hg : ∀ c ∈ gp, isAlnum c = false) (h1 : Digits 2 zh b) (h2 : Digits 2 zm c) (hb : 14 < zh ∨ 59 < zm ∨ zm % 15 ≠ 0) :
    parseTimeString z (a ++ (gp ++ ((if neg then 45 else 43) :: (b ++ 58 :: c)))) now r = .error .invalidTime := parse_fails (bad_zone_colon neg ht hv hg h1 h2 hb) z now r

theorem C54_bad_zone_hours {h m zh : Nat} {so : Option Nat} {half : Option Bool} {a gp b : Str} (neg : Bool) (z : Zone) (now : Int) (r : Round) (ht : TimeText h m so half none a) (hv : IsTime h m so half)
    (hg : ∀ c ∈ gp, isAlnum c = false) (h1 : Digits 2 zh b) (hb : 14 < zh) :
    parseTimeString z (a ++ (gp ++ ((if neg then 45 else 43) :: b))) now r = .error .invalidTime := parse_fails (bad_zone_two neg ht hv hg h1 hb) z now r

/-- `2st` and `32th` are errors; but `3th` is not. -/
theorem C54_bad_ordinal {d : Nat} {a o : Str} (z : Zone) (now : Int) (r : Round) (h1 : Short d a) (ho : o.map toLower ∈ [bs "st", bs "nd", bs "rd", bs "th"]) (hb : ¬OrdinalWord d o)
    (hd : o.map toLower ≠ bs "th" ∨ d = 0 ∨ 31 < d) : parseTimeString z (a ++ o) now r = .error .invalidDate := parse_fails (bad_ordinal h1 ho hb hd) z now r

/-! ## What is not so -/

/-- `3th` is understood as the third. -/
theorem C54_3th : ¬OrdinalWord 3 (bs "th") ∧ parseTimeString (fixedZone 0) (bs "3th") 1000000000 .down = parseTimeString (fixedZone 0) (bs "3rd") 1000000000 .down ∧
    parseTimeString (fixedZone 0) (bs "3th") 1000000000 .down = .ok (86400 * dayOf 2001 9 3) := by
  refine ⟨?_, ?_, ?_⟩
  · unfold OrdinalWord
    decide +kernel
  · decide +kernel
  · decide +kernel

/-- After a time, `+1500` is an error, but `+2000` is a year. -/
theorem C54_zone_year : parseTimeString (fixedZone 0) (bs "9:30:00 +1500") 1000000000 .down = .error .invalidTime ∧
    parseTimeString (fixedZone 0) (bs "9:30:00 +2000") 1000000000 .down = .ok (secondsOf 2000 9 9 9 30 0) := by
  refine ⟨?_, ?_⟩ <;> decide +kernel

/-- A minute is `m` and a month `M`, as the manual says. -/
theorem C54_m_and_M : parseTimeString (fixedZone 0) (bs "1m") 1000000000 .none = .ok (1000000000 - 60) ∧ parseTimeString (fixedZone 0) (bs "1M") 1000000000 .none = .ok (1000000000 - 31 * 86400) := by
  refine ⟨?_, ?_⟩ <;> decide +kernel

/-- `a.m.` and `p.m.` are among the keywords, but never understood. -/
theorem C54_dotted_am_pm : (∃ k ∈ keywords, k.name = bs "a.m.") ∧ parseTimeString (fixedZone 0) (bs "2012-09-03 9:30 a.m.") 1000000000 .down = .error .keyword ∧
    parseTimeString (fixedZone 0) (bs "2012-09-03 9:30 p.m.") 1000000000 .down = .error .keyword := by
  refine ⟨?_, ?_, ?_⟩ <;> decide +kernel

/-- A day that is not in the calendar is another one. -/
theorem C54_february_31 : ¬IsDay 2023 2 31 ∧ parseTimeString (fixedZone 0) (bs "2023-02-31") 1700000000 .down = parseTimeString (fixedZone 0) (bs "2023-03-03") 1700000000 .down ∧
    parseTimeString (fixedZone 0) (bs "2023-02-31") 1700000000 .down = .ok (86400 * dayOf 2023 3 3) := by
  refine ⟨?_, ?_, ?_⟩
  · rintro ⟨_, _, _, _, _, h⟩
    revert h
    decide
  · decide +kernel
  · decide +kernel

/-- `mon` is Monday, where `mo` and `mont` are months. -/
theorem C54_mon : ∃ now, parseTimeString (fixedZone 0) (bs "2 mo") now .down = parseTimeString (fixedZone 0) (bs "2 mont") now .down ∧
    parseTimeString (fixedZone 0) (bs "2 mon") now .down = .error .format :=
  ⟨1700000000, by decide +kernel, by decide +kernel⟩

/-- A month before the 31st of March, without rounding, is the 3rd of March, but with rounding it is February: the time itself need not be in its own range. -/
theorem C54_month_before : ∃ now a b t, parseTimeString (fixedZone 0) (bs "1 month") now .down = .ok a ∧ parseTimeString (fixedZone 0) (bs "1 month") now .upInclusive = .ok b ∧
    parseTimeString (fixedZone 0) (bs "1 month") now .none = .ok t ∧ b < t :=
  ⟨86400 * dayOf 2023 3 31, 86400 * dayOf 2023 2 1, 86400 * dayOf 2023 3 1 - 1, 86400 * dayOf 2023 3 3, by decide +kernel, by decide +kernel, by decide +kernel, by decide +kernel⟩

/-- Sums of amounts may overflow an `int`, which C leaves undefined. -/
theorem C54_overflow : parseTimeString (fixedZone 0) (bs "2147483647 days 2147483647 days") 1700000000 .down = .error .overflow := by decide +kernel

/-- The last second before 1970 is an error, although the second before it is not. -/
theorem C54_minus_one : parseTimeString (fixedZone 0) (bs "1970-01-01 00:59:59 +01:00") 1700000000 .down = .error .lib ∧
    parseTimeString (fixedZone 0) (bs "1970-01-01 00:59:58 +01:00") 1700000000 .down = .ok (-2) := by
  refine ⟨?_, ?_⟩ <;> decide +kernel

/-- A message without a date, which has the time 0, is not before any day. -/
theorem C54_no_date : ∃ r, dateStrings (fixedZone 0) 1700000000 [] (bs "2012-09-03") = .ok r ∧ r.has 0 = false ∧ r.has 1 = true :=
  ⟨⟨none, some (86400 * (dayOf 2012 9 3 + 1) - 1)⟩, by decide +kernel, by decide +kernel, by decide +kernel⟩

/-! ## Examples -/

example : IsOffset 7200 ∧ IsOffset (-12600) ∧ IsNow 1700000000 ∧ IsDay 2012 9 3 ∧ IsDay 2024 2 29 ∧ dayOf 2012 9 3 = 15586 ∧ IsTime 9 30 none (some true) ∧ IsTime 21 30 (some 15) none := by
  refine ⟨⟨?_, ?_, ?_⟩, ⟨?_, ?_, ?_⟩, ⟨?_, ?_⟩, ⟨?_, ?_, ?_, ?_, ?_, ?_⟩, ⟨?_, ?_, ?_, ?_, ?_, ?_⟩, ?_, ⟨?_, ?_, ?_⟩, ⟨?_, ?_, ?_⟩⟩ <;> decide +kernel

theorem example_word (full : Str) (n : Nat) (w : Str) (h1 : n ≤ w.length) (h2 : (w.map toLower).isPrefixOf full = true) : Abbrev full n w := ⟨h1, List.isPrefixOf_iff_prefix.1 h2⟩

/-- 3 September 2012 in several ways. -/
example : DateText 2012 9 3 (bs "2012-09-03") ∧ DateText 2012 9 3 (bs "9/3/12") ∧ DateText 2012 9 3 (bs "3.9.2012") ∧ DateText 2012 9 3 (bs "20120903") ∧ DateText 2012 9 3 (bs "3 Sept 2012") := by
  refine ⟨.yearFirst (bs "2012") (bs "09") (bs "03") ⟨?_, ?_, ?_⟩ ⟨?_, ?_, ?_⟩ ⟨?_, ?_, ?_⟩, .slashes (bs "9") (bs "3") (bs "12") (.inl ⟨?_, ?_, ?_⟩) (.inl ⟨?_, ?_, ?_⟩) (.inr ⟨⟨?_, ?_, ?_⟩, ?_, ?_⟩),
    .dots (bs "3") (bs "9") (bs "2012") (.inl ⟨?_, ?_, ?_⟩) (.inl ⟨?_, ?_, ?_⟩) (.inl ⟨?_, ?_, ?_⟩), .plain (bs "20120903") ⟨?_, ?_, ?_⟩,
    .dayMonth (bs "3") (bs " ") (bs "Sept") (bs " ") (bs "2012") (.inl ⟨?_, ?_, ?_⟩) ⟨?_, ?_⟩ ⟨?_, bs "september", ?_, example_word _ _ _ ?_ ?_⟩ ⟨?_, ?_⟩ ⟨?_, ?_, ?_⟩⟩ <;> decide +kernel

example : MonthText 2012 9 (bs "September 2012") ∧ DayWord 3 (bs "wed") :=
  ⟨.name (bs "September") (bs " ") (bs "2012") ⟨by decide +kernel, bs "september", by decide +kernel, example_word _ _ _ (by decide +kernel) (by decide +kernel)⟩ ⟨by decide +kernel, by decide +kernel⟩
    ⟨by decide +kernel, by decide +kernel, by decide +kernel⟩, bs "wednesday", by decide +kernel, example_word _ _ _ (by decide +kernel) (by decide +kernel)⟩

/-- Half past nine in the evening, two hours ahead of UTC. -/
example : TimeText 9 30 none (some true) (some 120) (bs "9:30pm +02:00") :=
  .zone (some true) 120 (bs "9:30pm") (bs " ") (bs "+02:00")
    (.half true (bs "9:30") [] (bs "pm") (.minutes (bs "9") (bs "30") (.inl ⟨by decide +kernel, by decide +kernel, by decide +kernel⟩) ⟨by decide +kernel, by decide +kernel, by decide +kernel⟩)
      ⟨by simp, by simp⟩ (by unfold HalfText; decide +kernel))
    (by decide +kernel)
    (ZoneText.colon false 2 0 (bs "02") (bs "00") ⟨by decide +kernel, by decide +kernel, by decide +kernel⟩ ⟨by decide +kernel, by decide +kernel, by decide +kernel⟩ (by decide) (by decide) (by decide))

/-- Ordinals, noon, named zones, a unit alone. -/
example : DateText 2012 9 3 (bs "3rd September 2012") ∧ DateText 2012 9 22 (bs "Sep 22ND, 2012") ∧ TimeText 12 0 (some 0) none (some (-210)) (bs "noon NST") ∧ TimeText 9 0 (some 0) (some true) none (bs "9 pm") ∧
    AmountsText [(1, .week), (1, .day)] (bs "week, yesterday") := by
  refine ⟨.ordinalMonth (bs "3") (bs "rd") (bs " ") (bs "September") (bs " ") (bs "2012") (.inl ⟨?_, ?_, ?_⟩) (by unfold OrdinalWord; decide +kernel) ⟨?_, ?_⟩ ?_ ⟨?_, bs "september", ?_, example_word _ _ _ ?_ ?_⟩ ⟨?_, ?_⟩ ⟨?_, ?_, ?_⟩,
    .monthOrdinal (bs "Sep") (bs " ") (bs "22") (bs "ND") (bs ", ") (bs "2012") ⟨?_, bs "september", ?_, example_word _ _ _ ?_ ?_⟩ ⟨?_, ?_⟩ (.inr ⟨?_, ?_, ?_⟩) (by unfold OrdinalWord; decide +kernel) ⟨?_, ?_⟩ ⟨?_, ?_, ?_⟩,
    .named none (-210) (bs "noon") (bs " ") (bs "NST") (.noon (bs "noon") rfl rfl rfl ?_) ⟨?_, ?_⟩ ?_ ?_,
    .hour true (bs "9") (bs " ") (bs "pm") rfl rfl (.inl ⟨?_, ?_, ?_⟩) ⟨?_, ?_⟩ (by unfold HalfText; decide +kernel),
    .more [(1, .week)] 1 .day (bs "week") (bs ", ") (bs "yesterday") (.one 1 .week (bs "week") (.alone (bs "week") rfl (example_word _ _ _ ?_ ?_)))
      ⟨⟨?_, ?_⟩, ?_, by intro c h; exact absurd (congrArg List.length h) (by simp [bs])⟩ (.yesterday (bs "yesterday") rfl rfl ?_)⟩ <;> decide +kernel

/-- Two weeks and three days. -/
example : AmountsText [(2, .week), (3, .day)] (bs "two weeks, 3d") ∧ FinestUnit [(2, .week), (3, .day)] .day ∧ total [(2, .week), (3, .day)] .week = 2 ∧ agoSeconds [(2, .week), (3, .day)] = 17 * 86400 := by
  refine ⟨?_, ⟨⟨3, by simp⟩, by decide⟩, by decide, by decide⟩
  exact .more [(2, .week)] 3 .day (bs "two weeks") (bs ", ") (bs "3d")
    (.one 2 .week (bs "two weeks") (.word (bs "two") (bs " ") (bs "weeks") (by decide +kernel) ⟨by decide +kernel, by decide +kernel⟩ (by decide +kernel) (example_word _ _ _ (by decide +kernel) (by decide +kernel))))
    ⟨⟨by decide +kernel, by decide +kernel⟩, by decide +kernel, by intro c h; exact absurd (congrArg List.length h) (by simp [bs])⟩
    (.digits (bs "3") [] (bs "d") (by decide +kernel) (by decide +kernel) (by decide +kernel) (by decide) ⟨by simp, by simp⟩ (example_word _ _ _ (by decide +kernel) (by decide +kernel)))

end Notmuch.Props
