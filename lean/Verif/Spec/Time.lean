import Verif.Model.Time
import Verif.Base.Dec

/-!
# Specification: dates and times (C54)

The calendar: days are counted from 1970-01-01 on.  Then how dates and times are written, after doc/man7/notmuch-search-terms.rst, "DATE AND TIME SEARCH".
-/

namespace Notmuch.Time

/-- The days of a month of a year, from 1 for January on. -/
def daysIn (y m : Nat) : Nat :=
  if m = 2 then (if 4 ∣ y ∧ (¬100 ∣ y ∨ 400 ∣ y) then 29 else 28) else if m = 4 ∨ m = 6 ∨ m = 9 ∨ m = 11 then 30 else 31

/-- The days of a year that are before a month. -/
def daysBefore (y : Nat) : Nat → Nat
  | 0 => 0
  | m + 1 => if m = 0 then 0 else daysBefore y m + daysIn y m

/-- The days of a year. -/
def daysOf (y : Nat) : Nat := daysBefore y 12 + daysIn y 12

/-- The days from 1970 until a year that is so many after it. -/
def daysUntil : Nat → Nat
  | 0 => 0
  | n + 1 => daysUntil n + daysOf (1970 + n)

/-- The number of a day, from 1970 on. -/
def dayOf (y m d : Nat) : Int := daysUntil (y - 1970) + daysBefore y m + d - 1

/-- It is a day of the calendar, from 1970 to 9999. -/
def IsDay (y m d : Nat) : Prop := 1970 ≤ y ∧ y ≤ 9999 ∧ 1 ≤ m ∧ m ≤ 12 ∧ 1 ≤ d ∧ d ≤ daysIn y m

/-! ## Words and numbers -/

/-- So many digits, with a value. -/
def Digits (n v : Nat) (s : Str) : Prop := s.length = n ∧ (∀ c ∈ s, isDigit c = true) ∧ decVal s = v

/-- One or two digits. -/
def Short (v : Nat) (s : Str) : Prop := Digits 1 v s ∨ Digits 2 v s

/-- Characters between words and numbers, perhaps none: neither letters nor digits, and not with `@` at the end. -/
def Gap (s : Str) : Prop := (∀ c ∈ s, isAlnum c = false) ∧ ∀ c ∈ s.getLast?, c ≠ 64

/-- Characters that keep numbers apart: some, but not just one of those that dates and times are written with: `/`, `-`, `.` and `:`. -/
def Between (s : Str) : Prop := Gap s ∧ s ≠ [] ∧ ∀ c, s = [c] → c ≠ 47 ∧ c ≠ 45 ∧ c ≠ 46 ∧ c ≠ 58

/-- A word is the beginning of another, with at least so many letters; upper and lower case are the same. -/
def Abbrev (full : Str) (least : Nat) (w : Str) : Prop := least ≤ w.length ∧ w.map toLower <+: full

def monthNames : List Str := [bs "january", bs "february", bs "march", bs "april", bs "may", bs "june", bs "july", bs "august", bs "september", bs "october", bs "november", bs "december"]

/-- The name of a month, or three or more letters of it. -/
def MonthWord (m : Nat) (w : Str) : Prop := 1 ≤ m ∧ ∃ full, monthNames[m - 1]? = some full ∧ Abbrev full 3 w

def dayNames : List Str := [bs "sunday", bs "monday", bs "tuesday", bs "wednesday", bs "thursday", bs "friday", bs "saturday"]

/-- The name of a day of the week, from 0 for Sunday on, or three or more letters of it. -/
def DayWord (n : Nat) (w : Str) : Prop := ∃ full, dayNames[n]? = some full ∧ Abbrev full 3 w

/-! ## Dates -/

/-- The ending that makes an ordinal of the number of a day: 1st, 2nd, 3rd, 4th, and so on. -/
def OrdinalWord (d : Nat) (w : Str) : Prop :=
  w.map toLower = if d = 1 ∨ d = 21 ∨ d = 31 then bs "st" else if d = 2 ∨ d = 22 then bs "nd" else if d = 3 ∨ d = 23 then bs "rd" else bs "th"

/-- A year, with four digits or two. -/
def YearText (y : Nat) (s : Str) : Prop := Digits 4 y s ∨ (Digits 2 (y % 100) s ∧ 1970 ≤ y ∧ y < 2070)

/-- How a date is written. -/
inductive DateText (y m d : Nat) : Str → Prop where
  /-- `2012-09-03` -/
  | yearFirst (a b c : Str) : Digits 4 y a → Digits 2 m b → Digits 2 d c → DateText y m d (a ++ 45 :: (b ++ 45 :: c))
  /-- `03-09-2012`, `03-09-12` -/
  | dashes (a b c : Str) : Digits 2 d a → Digits 2 m b → YearText y c → DateText y m d (a ++ 45 :: (b ++ 45 :: c))
  /-- `9/3/2012`, `09/03/12` -/
  | slashes (a b c : Str) : Short m a → Short d b → YearText y c → DateText y m d (a ++ 47 :: (b ++ 47 :: c))
  /-- `3.9.2012` -/
  | dots (a b c : Str) : Short d a → Short m b → YearText y c → DateText y m d (a ++ 46 :: (b ++ 46 :: c))
  /-- `20120903` -/
  | plain (a : Str) : Digits 8 (10000 * y + 100 * m + d) a → DateText y m d a
  /-- `3 September 2012`, `3sep2012` -/
  | dayMonth (a g w h c : Str) : Short d a → Gap g → MonthWord m w → Gap h → Digits 4 y c → DateText y m d (a ++ (g ++ (w ++ (h ++ c))))
  /-- `Sep 3, 2012` -/
  | monthDay (w g a h c : Str) : MonthWord m w → Gap g → Short d a → Between h → Digits 4 y c → DateText y m d (w ++ (g ++ (a ++ (h ++ c))))
  /-- `3rd September 2012` -/
  | ordinalMonth (a o g w h c : Str) : Short d a → OrdinalWord d o → Gap g → g ≠ [] → MonthWord m w → Gap h → Digits 4 y c → DateText y m d (a ++ (o ++ (g ++ (w ++ (h ++ c)))))
  /-- `September 3rd, 2012` -/
  | monthOrdinal (w g a o h c : Str) : MonthWord m w → Gap g → Short d a → OrdinalWord d o → Gap h → Digits 4 y c → DateText y m d (w ++ (g ++ (a ++ (o ++ (h ++ c)))))

/-- How a month of a year is written. -/
inductive MonthText (y m : Nat) : Str → Prop where
  /-- `2012-09` -/
  | yearFirst (a b : Str) : Digits 4 y a → Digits 2 m b → MonthText y m (a ++ 45 :: b)
  /-- `09-2012` -/
  | dash (a b : Str) : Digits 2 m a → Digits 4 y b → MonthText y m (a ++ 45 :: b)
  /-- `9/2012` -/
  | slash (a b : Str) : Short m a → Digits 4 y b → MonthText y m (a ++ 47 :: b)
  /-- `September 2012` -/
  | name (w g a : Str) : MonthWord m w → Gap g → Digits 4 y a → MonthText y m (w ++ (g ++ a))

/-! ## Times of the day -/

/-- How a time of the day is written: hours, minutes and perhaps seconds. -/
inductive ClockText (h m : Nat) : Option Nat → Str → Prop where
  /-- `9:30` -/
  | minutes (a b : Str) : Short h a → Digits 2 m b → ClockText h m none (a ++ 58 :: b)
  /-- `09:30:15` -/
  | seconds (s : Nat) (a b c : Str) : Short h a → Digits 2 m b → Digits 2 s c → ClockText h m (some s) (a ++ 58 :: (b ++ 58 :: c))

/-- `am` or `pm`. -/
def HalfText (pm : Bool) (s : Str) : Prop := s.map toLower = if pm then bs "pm" else bs "am"

/-- How the offset of a time zone is written, in minutes. -/
inductive ZoneText : Int → Str → Prop where
  /-- `+02:00` -/
  | colon (neg : Bool) (h m : Nat) (a b : Str) : Digits 2 h a → Digits 2 m b → h ≤ 14 → m ≤ 59 → m % 15 = 0 →
      ZoneText (if neg then -(60 * h + m : Nat) else (60 * h + m : Nat)) ((if neg then 45 else 43) :: (a ++ 58 :: b))
  /-- `+0200` -/
  | four (neg : Bool) (h m : Nat) (a : Str) : Digits 4 (100 * h + m) a → h ≤ 14 → m ≤ 59 → m % 15 = 0 →
      ZoneText (if neg then -(60 * h + m : Nat) else (60 * h + m : Nat)) ((if neg then 45 else 43) :: a)
  /-- `+02` -/
  | two (neg : Bool) (h : Nat) (a : Str) : Digits 2 h a → h ≤ 14 → ZoneText (if neg then -(60 * h : Nat) else (60 * h : Nat)) ((if neg then 45 else 43) :: a)

/-- The names of time zones, in minutes ahead of UTC. -/
def zoneNames : List (Str × Int) :=
  [(bs "pst", -480), (bs "mst", -420), (bs "cst", -360), (bs "est", -300), (bs "ast", -240), (bs "nst", -210), (bs "gmt", 0), (bs "utc", 0), (bs "wet", 0), (bs "cet", 60), (bs "eet", 120),
    (bs "fet", 180), (bs "wat", 60), (bs "cat", 120), (bs "eat", 180)]

/-- How a time of the day is written: perhaps with `am` or `pm`, perhaps with a time zone. -/
inductive TimeText (h m : Nat) (s : Option Nat) : Option Bool → Option Int → Str → Prop where
  | plain (a : Str) : ClockText h m s a → TimeText h m s none none a
  /-- `9:30 pm` -/
  | half (pm : Bool) (a g b : Str) : ClockText h m s a → Gap g → HalfText pm b → TimeText h m s (some pm) none (a ++ (g ++ b))
  /-- `9 pm`: the first second of that hour -/
  | hour (pm : Bool) (a g b : Str) : m = 0 → s = some 0 → Short h a → Gap g → HalfText pm b → TimeText h m s (some pm) none (a ++ (g ++ b))
  /-- `noon` -/
  | noon (a : Str) : h = 12 → m = 0 → s = some 0 → a.map toLower = bs "noon" → TimeText h m s none none a
  /-- `midnight`: the first second of the day -/
  | midnight (a : Str) : h = 0 → m = 0 → s = some 0 → a.map toLower = bs "midnight" → TimeText h m s none none a
  /-- `21:30 CET` -/
  | named (pm : Option Bool) (z : Int) (a g b : Str) : TimeText h m s pm none a → Gap g → g ≠ [] → (b.map toLower, z) ∈ zoneNames → TimeText h m s pm (some z) (a ++ (g ++ b))
  /-- `21:30 +02:00` -/
  | zone (pm : Option Bool) (z : Int) (a g b : Str) : TimeText h m s pm none a → (∀ c ∈ g, isAlnum c = false) → ZoneText z b → TimeText h m s pm (some z) (a ++ (g ++ b))

/-- The hour of the day. -/
def hourOf (h : Nat) : Option Bool → Nat
  | none => h
  | some false => h % 12
  | some true => h % 12 + 12

/-- It is a time of the day. -/
def IsTime (h m : Nat) (s : Option Nat) (half : Option Bool) : Prop :=
  (if half = none then h ≤ 23 else 1 ≤ h ∧ h ≤ 12) ∧ m ≤ 59 ∧ ∀ x ∈ s, x ≤ 59

/-! ## How long ago -/

/-- Units of time. -/
inductive TimeUnit where
  | second | minute | hour | day | week | month | year
  deriving DecidableEq

/-- The words for a unit: any beginning of the word, except `m` for a month and `mon`, which is Monday; `M` is a month and `m` a minute. -/
def UnitWord : TimeUnit → Str → Prop
  | .second, w => Abbrev (bs "seconds") 1 w ∨ w.map toLower = bs "secs"
  | .minute, w => w = bs "m" ∨ Abbrev (bs "minutes") 2 w ∨ w.map toLower = bs "mins"
  | .hour, w => Abbrev (bs "hours") 1 w ∨ Abbrev (bs "hrs") 2 w
  | .day, w => Abbrev (bs "days") 1 w
  | .week, w => Abbrev (bs "weeks") 1 w
  | .month, w => w = bs "M" ∨ (Abbrev (bs "months") 2 w ∧ w.map toLower ≠ bs "mon")
  | .year, w => Abbrev (bs "years") 1 w

/-- The words for numbers. -/
def numberWords : List (Str × Nat) :=
  [(bs "one", 1), (bs "two", 2), (bs "three", 3), (bs "four", 4), (bs "five", 5), (bs "six", 6), (bs "seven", 7), (bs "eight", 8), (bs "nine", 9), (bs "ten", 10), (bs "dozen", 12),
    (bs "hundred", 100), (bs "this", 0), (bs "last", 1)]

/-- How an amount is written: a number, in digits or as a word, and a unit; without a number it is one. -/
inductive AmountText (n : Nat) (u : TimeUnit) : Str → Prop where
  /-- `2 days`, `2d` -/
  | digits (a g w : Str) : a ≠ [] → (∀ c ∈ a, isDigit c = true) → decVal a = n → n < 2 ^ 31 → Gap g → UnitWord u w → AmountText n u (a ++ (g ++ w))
  /-- `two days` -/
  | word (a g w : Str) : (a.map toLower, n) ∈ numberWords → Gap g → g ≠ [] → UnitWord u w → AmountText n u (a ++ (g ++ w))
  /-- `week` -/
  | alone (w : Str) : n = 1 → UnitWord u w → AmountText n u w
  /-- `yesterday` -/
  | yesterday (w : Str) : n = 1 → u = .day → w.map toLower = bs "yesterday" → AmountText n u w

/-- Several amounts, with something between them; `ago` may be anywhere after one. -/
inductive AmountsText : List (Nat × TimeUnit) → Str → Prop where
  | one (n : Nat) (u : TimeUnit) (s : Str) : AmountText n u s → AmountsText [(n, u)] s
  | more (l : List (Nat × TimeUnit)) (n : Nat) (u : TimeUnit) (s g t : Str) : AmountsText l s → Between g → AmountText n u t → AmountsText (l ++ [(n, u)]) (s ++ (g ++ t))
  | ago (l : List (Nat × TimeUnit)) (s g t : Str) : AmountsText l s → Between g → t.map toLower = bs "ago" → AmountsText l (s ++ (g ++ t))

/-- How much of a unit there is in total. -/
def total (l : List (Nat × TimeUnit)) (u : TimeUnit) : Nat := ((l.filter (fun p => p.2 == u)).map Prod.fst).foldr (· + ·) 0

/-- From fine to coarse. -/
def TimeUnit.rank : TimeUnit → Nat
  | .second => 0
  | .minute => 1
  | .hour => 2
  | .day => 3
  | .week => 4
  | .month => 5
  | .year => 6

/-- It is one of the units, and the others are not finer. -/
def FinestUnit (l : List (Nat × TimeUnit)) (u : TimeUnit) : Prop := (∃ n, (n, u) ∈ l) ∧ ∀ p ∈ l, u.rank ≤ p.2.rank

/-- The date and the time of the day that are so long ago; they may be out of range, as with the 0th of a month for the last day of the one before. -/
def agoTm (now : Tm) (l : List (Nat × TimeUnit)) : Tm :=
  ⟨now.sec - total l .second, now.min - total l .minute, now.hour - total l .hour, now.mday - total l .day - 7 * total l .week, now.mon - total l .month, now.year - total l .year, 0⟩

/-- The beginning of the minute, hour, day, month or year in which a time is, or of one so many of them later. -/
def beginning (u : TimeUnit) (tm : Tm) (later : Int) : Tm :=
  match u with
  | .minute => { tm with sec := 0, min := tm.min + later }
  | .hour => { tm with sec := 0, min := 0, hour := tm.hour + later }
  | .day => { tm with sec := 0, min := 0, hour := 0, mday := tm.mday + later }
  | .month => { tm with sec := 0, min := 0, hour := 0, mday := 1, mon := tm.mon + later }
  | .year => { tm with sec := 0, min := 0, hour := 0, mday := 1, mon := 0, year := tm.year + later }
  | _ => tm

/-- Rounding: down to the beginning, up to the next one, or to the last second before that. -/
def rounded (u : TimeUnit) (tm : Tm) : Round → Tm
  | .none => tm
  | .down => beginning u tm 0
  | .up => beginning u tm 1
  | .upInclusive => if u = .second then tm else { beginning u tm 1 with sec := -1 }

/-- The seconds of a unit; months and years do not always have the same. -/
def TimeUnit.size : TimeUnit → Int
  | .second => 1
  | .minute => 60
  | .hour => 3600
  | .day => 86400
  | .week => 604800
  | _ => 0

/-- The seconds of all amounts. -/
def agoSeconds (l : List (Nat × TimeUnit)) : Int :=
  total l .second + 60 * total l .minute + 3600 * total l .hour + 86400 * total l .day + 604800 * total l .week

/-- The beginning of the second, minute, hour, day or week in which a local time is; weeks begin on Sundays, and 1970-01-01 was a Thursday. -/
def beginningAt (u : TimeUnit) (t : Int) : Int := if u = .week then t - (t + 4 * 86400) % 604800 else t - t % u.size

/-- Rounding of a local time: down to the beginning of the unit, up to that of the next, or to the last second before that. -/
def endingAt (u : TimeUnit) (t : Int) : Round → Int
  | .down => beginningAt u t
  | .none => t
  | .up => if u = .second then t else beginningAt u t + u.size
  | .upInclusive => if u = .second then t else beginningAt u t + u.size - 1

/-- No `M` is a word of its own. -/
def NoLoneM (s : Str) : Prop := ∀ pre post, s = pre ++ 77 :: post → (∃ c, pre.getLast? = some c ∧ isAlpha c = true) ∨ (∃ c, post.head? = some c ∧ isAlpha c = true)

/-! ## Zones -/

/-- The offset of a time zone in seconds: whole minutes, less than a day. -/
def IsOffset (off : Int) : Prop := off % 60 = 0 ∧ -86400 < off ∧ off < 86400

/-- The offset that counts: of the zone that is given, or of the local one. -/
def zoneOf (off : Int) (zo : Option Int) : Int := (zo.map (60 * ·)).getD off

/-- The seconds of a date and a time of the day. -/
def secondsOf (y mo d h mi s : Nat) : Int := 86400 * dayOf y mo d + 3600 * h + 60 * mi + s

/-- The day, by the calendar of a zone, of a time. -/
def localDay (off t : Int) : Int := (t + off) / 86400

/-- Times that we live to see: from a day and more after the beginning of 1970 on. -/
def IsNow (t : Int) : Prop := 864000 ≤ t ∧ t < 2 ^ 53

/-- Later dates and times are not earlier instants. -/
def Zone.Mono (z : Zone) : Prop := ∀ tm tm' a b, seconds tm ≤ seconds tm' → z.mktime tm = some a → z.mktime tm' = some b → a ≤ b

end Notmuch.Time
