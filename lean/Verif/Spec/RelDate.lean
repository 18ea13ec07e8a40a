import Verif.Spec.Time
import Verif.Model.RelDate

/-! # Specification: relative dates (C56) -/

namespace Notmuch.RelDate

open Notmuch.Time

/-- By the clocks of a zone, which is so many seconds ahead of UTC, it is that day, hour and minute at the time `t`. -/
def At (off t : Int) (y mo d h mi : Nat) : Prop := IsDay y mo d ∧ h ≤ 23 ∧ mi ≤ 59 ∧ ∃ s, s ≤ 59 ∧ t + off = secondsOf y mo d h mi s

/-- A time of day: `hh:mm`. -/
def IsClock (h mi : Nat) (s : Str) : Prop := ∃ hh mm, Digits 2 h hh ∧ Digits 2 mi mm ∧ s = hh ++ bs ":" ++ mm

/-- `Sun`, .., for the days of the week from 0 on. -/
def IsDayName (n : Int) (s : Str) : Prop := 0 ≤ n ∧ [bs "Sun", bs "Mon", bs "Tue", bs "Wed", bs "Thu", bs "Fri", bs "Sat"][n.toNat]? = some s

/-- `January`, .., for the months from 1 on. -/
def IsMonthName (m : Nat) (s : Str) : Prop :=
  1 ≤ m ∧ [bs "January", bs "February", bs "March", bs "April", bs "May", bs "June", bs "July", bs "August", bs "September", bs "October", bs "November", bs "December"][m - 1]? = some s

/-- A time that the zone has a four-digit year for, from 1970 on. -/
def InCalendar (off t : Int) : Prop := 0 ≤ t + off ∧ t + off < secondsOf 9999 12 31 23 59 59 + 1

/-- The zone of a place where the clocks are put forward, or back, by an hour at the time `at'`: `before` and `after` are its offsets. -/
def changing (before after at' : Int) : Zone :=
  { localtime := fun t => gmtime (t + (if t < at' then before else after)), mktime := fun _ => none }

end Notmuch.RelDate
