import Verif.Base.Bytes

/-!
# Dates and times: parse-time-string/parse-time-string.c

`gmtime_r` and `timegm` of the C library are given here, for the Gregorian calendar; `localtime_r` and `mktime` are parameters (`Zone`).  `int` is 32 bits, `long` and
`time_t` are 64 bits; where the C code would overflow an `int`, which C leaves undefined, the result is the error `overflow`.
-/

namespace Notmuch.Time

/-! ## The C library -/

/-- `struct tm`, without `tm_yday` and `tm_isdst`, which is always -1 when it is used: "find out". -/
structure Tm where
  sec : Int
  min : Int
  hour : Int
  mday : Int
  mon : Int
  year : Int
  wday : Int
  deriving DecidableEq

/-- A year has 366 days. -/
def isLeap (y : Int) : Bool := y % 4 == 0 && (y % 100 != 0 || y % 400 == 0)

/-- The days from 1970-01-01 until the beginning of a year. -/
def yearDays (y : Int) : Int := 365 * (y - 1970) + ((y - 1) / 4 - (y - 1) / 100 + (y - 1) / 400) - 477

/-- The days of a year that are before a month, from 0 for January on. -/
def monthDays (leap : Bool) (m : Int) : Int :=
  [0, 31, 59, 90, 120, 151, 181, 212, 243, 273, 304, 334].getD m.toNat 0 + (if leap ∧ 2 ≤ m then 1 else 0)

/-- The days since 1970-01-01 of a day; months and days may be out of range. -/
def dayNumber (year mon mday : Int) : Int :=
  yearDays (year + mon / 12) + monthDays (isLeap (year + mon / 12)) (mon % 12) + mday - 1

/-- The seconds since 1970-01-01 00:00:00. -/
def seconds (tm : Tm) : Int := 86400 * dayNumber (tm.year + 1900) tm.mon tm.mday + 3600 * tm.hour + 60 * tm.min + tm.sec

/-- `timegm`; -1 is an error for its callers. -/
def timegm (tm : Tm) : Option Int := if seconds tm = -1 then none else some (seconds tm)

/-- The year of a day. -/
def yearOf (day : Int) : Int :=
  let y := 400 * day / 146097 + 1970
  if yearDays (y + 1) ≤ day then y + 1 else if day < yearDays y then y - 1 else y

/-- The month of a day of a year, from 0 for January on. -/
def monthOf (leap : Bool) (day : Int) : Int :=
  (([1, 2, 3, 4, 5, 6, 7, 8, 9, 10, 11] : List Int).filter (fun m => monthDays leap m ≤ day)).length

/-- An `int`. -/
def inInt (i : Int) : Bool := decide (-2 ^ 31 ≤ i) && decide (i < 2 ^ 31)

/-- The fields of a time. -/
def fieldsOf (t : Int) : Tm :=
  let day := t / 86400
  let year := yearOf day
  let yday := day - yearDays year
  let mon := monthOf (isLeap year) yday
  ⟨t % 60, t / 60 % 60, t / 3600 % 24, yday - monthDays (isLeap year) mon + 1, mon, year - 1900, (day + 4) % 7⟩

/-- `gmtime_r`. -/
def gmtime (t : Int) : Option Tm := if inInt (fieldsOf t).year then some (fieldsOf t) else none

/-- `localtime_r` and `mktime`; -1 is an error. -/
structure Zone where
  localtime : Int → Option Tm
  mktime : Tm → Option Int

/-! ## State -/

/-- `enum field`, parse-time-string.c:115-146. -/
inductive Field where
  | sec | min | hour | mday | mon | year | wday | ampm | tz | relSec | relMin | relHour | relDay | relMon | relYear | relWeek
  deriving DecidableEq

/-- `enum field_set`, parse-time-string.c:149-153. -/
inductive FieldSet where
  | unset
  | set
  | now
  deriving DecidableEq

/-- Errors, parse-time-string.h:28-39. -/
inductive Err where
  | lib | alreadySet | format | dateFormat | timeFormat | invalidDate | invalidTime | keyword | overflow
  deriving DecidableEq

/-- `struct state`, parse-time-string.c:186-197; no delimiter is 0, no postponed number is length 0, one from a keyword is length -1. -/
structure State where
  tm : Field → Int
  set : Field → FieldSet
  last : Option Field
  delim : UInt8
  postLen : Int
  postVal : Int
  postDelim : UInt8

/-- parse-time-string.c:1494. -/
def State.init : State := ⟨fun _ => 0, fun _ => .unset, none, 0, 0, 0, 0⟩

/-- `is_field_set`, parse-time-string.c:278-284. -/
def State.isSet (st : State) (f : Field) : Bool := st.set f ≠ .unset

/-- One more field with a value. -/
def put {α : Type} (g : Field → α) (f : Field) (v : α) : Field → α := fun x => if x = f then v else g x

/-- The postponed number is consumed, parse-time-string.c:220-240. -/
def State.consume (st : State) : State := { st with postLen := 0, postVal := 0, postDelim := 0 }

/-- `set_field`, parse-time-string.c:299-321, when there is no postponed number. -/
def setField0 (st : State) (f : Field) (v : Int) : Except Err State :=
  if st.isSet f then .error .alreadySet else .ok { st with set := put st.set f .set, delim := 0, tm := put st.tm f v, last := some f }

/-- Several of them, one after the other. -/
def setAll0 (st : State) : List (Field × Int) → Except Err State
  | [] => .ok st
  | (f, v) :: l => (setField0 st f v).bind (fun st => setAll0 st l)

/-- Validity checkers, parse-time-string.c:386-426. -/
def validTime (h m s : Int) : Bool := (h == 24 && m == 0 && s == 0) || (decide (0 ≤ h ∧ h ≤ 23 ∧ 0 ≤ m ∧ m ≤ 59 ∧ 0 ≤ s ∧ s ≤ 59))
def validMday (d : Int) : Bool := decide (1 ≤ d ∧ d ≤ 31)
def validMon (m : Int) : Bool := decide (1 ≤ m ∧ m ≤ 12)
def validYear (y : Int) : Bool := decide (1970 ≤ y)
def valid12Hour (h : Int) : Bool := decide (1 ≤ h ∧ h ≤ 12)

/-- `set_user_tz`, parse-time-string.c:821-835: the offset. -/
def userTz (sign : UInt8) (hour min : Int) : Except Err Int :=
  if hour < 0 ∨ hour > 14 ∨ min < 0 ∨ min > 59 ∨ min % 15 ≠ 0 then .error .invalidTime
  else .ok (if sign = 45 then -(hour * 60 + min) else hour * 60 + min)

/-- `parse_postponed_number`, parse-time-string.c:842-901. -/
def parsePostponed (st0 : State) : Except Err State :=
  if st0.postLen = 0 then .ok st0
  else
    let n := st0.postLen
    let v := st0.postVal
    let d := st0.postDelim
    let st := st0.consume
    if n = 1 ∨ n = 2 then
      if st.last = some .mon then
        if validMday v then setField0 st .mday v else .error .invalidDate
      else if n = 2 ∧ (d = 43 ∨ d = 45) then (userTz d v 0).bind (fun tz => setField0 st .tz tz)
      else .error .format
    else if n = 4 then
      if !validYear v then
        if d = 43 ∨ d = 45 then (userTz d (v / 100) (v % 100)).bind (fun tz => setField0 st .tz tz) else .error .format
      else setField0 st .year v
    else if n = 6 then
      if validTime (v / 10000) (v / 100 % 100) (v % 100) then setAll0 st [(.hour, v / 10000), (.min, v / 100 % 100), (.sec, v % 100)] else .error .invalidTime
    else if n = 8 then
      if validYear (v / 10000) && validMon (v / 100 % 100) && validMday (v % 100) then
        setAll0 st [(.year, v / 10000), (.mon, v / 100 % 100), (.mday, v % 100)]
      else .error .invalidDate
    else .error .format

/-- `set_field`, parse-time-string.c:299-321. -/
def setField (st : State) (f : Field) (v : Int) : Except Err State :=
  if st.isSet f then .error .alreadySet
  else (parsePostponed { st with set := put st.set f .set }).bind (fun st => .ok { st with delim := 0, tm := put st.tm f v, last := some f })

/-- `set_abs_time` and `set_abs_date` (the fields that are not UNSET), parse-time-string.c:431-475. -/
def setAll (st : State) : List (Field × Int) → Except Err State
  | [] => .ok st
  | (f, v) :: l => (setField st f v).bind (fun st => setAll st l)

/-- `set_fields_to_now`, parse-time-string.c:329-344. -/
def setNow (st : State) : List Field → Except Err State
  | [] => .ok st
  | f :: l => (setField st f 0).bind (fun st => setNow { st with set := put st.set f .now } l)

/-- `add_to_field`, parse-time-string.c:348-368. -/
def addToField (st : State) (f : Field) (v : Int) : Except Err State :=
  (parsePostponed { st with set := put st.set f .set }).bind (fun st =>
    if inInt (st.tm f + v) then .ok { st with delim := 0, tm := put st.tm f (st.tm f + v), last := some f } else .error .overflow)

/-- `set_postponed_number`, parse-time-string.c:249-266. -/
def postpone (st : State) (v n : Int) : Except Err State :=
  (parsePostponed st).bind (fun st' => .ok { st' with postLen := n, postVal := v, postDelim := st.delim })

/-! ## Keywords -/

/-- The functions `kw_set_*`; `plain` is none of them. -/
inductive Setter where
  | plain | rel | number | month | ampm | timeofday | today | now | ordinal | ignore
  deriving DecidableEq

/-- `struct keyword`, parse-time-string.c:483-488; where there is no field (TM_NONE), it is not used. -/
structure Keyword where
  name : Str
  field : Field
  value : Int
  set : Setter
  deriving DecidableEq

/-- `keywords`, parse-time-string.c:617-720. -/
def keywords : List Keyword := [
  ⟨bs "sun|day", .wday, 0, .plain⟩,
  ⟨bs "mon|day", .wday, 1, .plain⟩,
  ⟨bs "tue|sday", .wday, 2, .plain⟩,
  ⟨bs "wed|nesday", .wday, 3, .plain⟩,
  ⟨bs "thu|rsday", .wday, 4, .plain⟩,
  ⟨bs "fri|day", .wday, 5, .plain⟩,
  ⟨bs "sat|urday", .wday, 6, .plain⟩,
  ⟨bs "jan|uary", .mon, 1, .month⟩,
  ⟨bs "feb|ruary", .mon, 2, .month⟩,
  ⟨bs "mar|ch", .mon, 3, .month⟩,
  ⟨bs "apr|il", .mon, 4, .month⟩,
  ⟨bs "may", .mon, 5, .month⟩,
  ⟨bs "jun|e", .mon, 6, .month⟩,
  ⟨bs "jul|y", .mon, 7, .month⟩,
  ⟨bs "aug|ust", .mon, 8, .month⟩,
  ⟨bs "sep|tember", .mon, 9, .month⟩,
  ⟨bs "oct|ober", .mon, 10, .month⟩,
  ⟨bs "nov|ember", .mon, 11, .month⟩,
  ⟨bs "dec|ember", .mon, 12, .month⟩,
  ⟨bs "y|ears", .relYear, 1, .rel⟩,
  ⟨bs "mo|nths", .relMon, 1, .rel⟩,
  ⟨bs "*M", .relMon, 1, .rel⟩,
  ⟨bs "w|eeks", .relWeek, 1, .rel⟩,
  ⟨bs "d|ays", .relDay, 1, .rel⟩,
  ⟨bs "h|ours", .relHour, 1, .rel⟩,
  ⟨bs "hr|s", .relHour, 1, .rel⟩,
  ⟨bs "mi|nutes", .relMin, 1, .rel⟩,
  ⟨bs "mins", .relMin, 1, .rel⟩,
  ⟨bs "*m", .relMin, 1, .rel⟩,
  ⟨bs "s|econds", .relSec, 1, .rel⟩,
  ⟨bs "secs", .relSec, 1, .rel⟩,
  ⟨bs "one", .sec, 1, .number⟩,
  ⟨bs "two", .sec, 2, .number⟩,
  ⟨bs "three", .sec, 3, .number⟩,
  ⟨bs "four", .sec, 4, .number⟩,
  ⟨bs "five", .sec, 5, .number⟩,
  ⟨bs "six", .sec, 6, .number⟩,
  ⟨bs "seven", .sec, 7, .number⟩,
  ⟨bs "eight", .sec, 8, .number⟩,
  ⟨bs "nine", .sec, 9, .number⟩,
  ⟨bs "ten", .sec, 10, .number⟩,
  ⟨bs "dozen", .sec, 12, .number⟩,
  ⟨bs "hundred", .sec, 100, .number⟩,
  ⟨bs "this", .sec, 0, .number⟩,
  ⟨bs "last", .sec, 1, .number⟩,
  ⟨bs "yesterday", .relDay, 1, .rel⟩,
  ⟨bs "today", .sec, 0, .today⟩,
  ⟨bs "now", .sec, 0, .now⟩,
  ⟨bs "noon", .sec, 12, .timeofday⟩,
  ⟨bs "midnight", .sec, 0, .timeofday⟩,
  ⟨bs "am", .ampm, 0, .ampm⟩,
  ⟨bs "a.m.", .ampm, 0, .ampm⟩,
  ⟨bs "pm", .ampm, 1, .ampm⟩,
  ⟨bs "p.m.", .ampm, 1, .ampm⟩,
  ⟨bs "st", .sec, 0, .ordinal⟩,
  ⟨bs "nd", .sec, 0, .ordinal⟩,
  ⟨bs "rd", .sec, 0, .ordinal⟩,
  ⟨bs "th", .sec, 0, .ordinal⟩,
  ⟨bs "ago", .sec, 0, .ignore⟩,
  ⟨bs "pst", .tz, -480, .plain⟩,
  ⟨bs "mst", .tz, -420, .plain⟩,
  ⟨bs "cst", .tz, -360, .plain⟩,
  ⟨bs "est", .tz, -300, .plain⟩,
  ⟨bs "ast", .tz, -240, .plain⟩,
  ⟨bs "nst", .tz, -210, .plain⟩,
  ⟨bs "gmt", .tz, 0, .plain⟩,
  ⟨bs "utc", .tz, 0, .plain⟩,
  ⟨bs "wet", .tz, 0, .plain⟩,
  ⟨bs "cet", .tz, 60, .plain⟩,
  ⟨bs "eet", .tz, 120, .plain⟩,
  ⟨bs "fet", .tz, 180, .plain⟩,
  ⟨bs "wat", .tz, 60, .plain⟩,
  ⟨bs "cat", .tz, 120, .plain⟩,
  ⟨bs "eat", .tz, 180, .plain⟩]

/-- The same letter, with or without regard to case, parse-time-string.c:757-762. -/
def sameChar (matchCase : Bool) (c k : UInt8) : Bool := if matchCase then c == k else toLower c == toLower k

/-- The loop of `match_keyword`, parse-time-string.c:748-777: `n` characters matched so far, and `pre`: as many as there have to be. -/
def matchGo (matchCase : Bool) : Str → Str → Bool → Nat → Nat
  | [], s, _, n => if (s.head?.map isAlpha).getD false then 0 else n
  | k :: ks, s, pre, n =>
    if k = 124 then matchGo matchCase ks s true n
    else
      match s with
      | c :: cs =>
        if isAlpha c then
          if sameChar matchCase c k then matchGo matchCase ks cs pre (n + 1) else 0
        else if pre then n else 0
      | [] => if pre then n else 0

/-- `match_keyword` for the name of a keyword, which may begin with `*`, parse-time-string.c:742-778 and 791-800. -/
def matchKeyword (s : Str) : Str → Nat
  | 42 :: kw => matchGo true kw s false 0
  | kw => matchGo false kw s false 0

/-- The first keyword that matches, and how many characters of it, parse-time-string.c:791-805. -/
def findKeyword (s : Str) : List Keyword → Option (Keyword × Nat)
  | [] => none
  | k :: l => if matchKeyword s k.name = 0 then findKeyword s l else some (k, matchKeyword s k.name)

/-- Ordinals that are not those of days: parse-time-string.c:598-606. -/
def badOrdinal (name : Str) (v : Int) : Bool :=
  (name == bs "st" && v != 1 && v != 21 && v != 31) || (name == bs "nd" && v != 2 && v != 22) || (name == bs "rd" && v != 3 && v != 23) || (name == bs "th" && !validMday v)

/-- The functions `kw_set_*`, parse-time-string.c:493-613. -/
def applyKeyword (st : State) (k : Keyword) : Except Err State :=
  match k.set with
  | .plain => setField st k.field k.value
  | .rel => addToField st.consume k.field ((if st.postLen = 0 then 1 else st.postVal) * k.value)
  | .number => postpone st k.value (-1)
  | .month =>
    if st.postLen = 1 ∨ st.postLen = 2 then
      if validMday st.postVal then (setField st.consume .mday st.postVal).bind (fun st => setField st k.field k.value) else .error .invalidDate
    else setField st k.field k.value
  | .ampm =>
    if st.postLen = 1 ∨ st.postLen = 2 then
      if valid12Hour st.postVal then
        (setAll st.consume [(.hour, st.postVal), (.min, 0), (.sec, 0)]).bind (fun st => setField st k.field k.value)
      else .error .invalidTime
    else setField st k.field k.value
  | .timeofday => setAll st [(.hour, k.value), (.min, 0), (.sec, 0)]
  | .today => setNow st [.year, .mon, .mday]
  | .now => setNow st [.hour, .min, .sec]
  | .ordinal =>
    if st.postLen = 1 ∨ st.postLen = 2 then
      if badOrdinal k.name st.postVal then .error .invalidDate else setField st.consume .mday st.postVal
    else .error .dateFormat
  | .ignore => .ok st

/-- `parse_keyword`, parse-time-string.c:784-814. -/
def parseKeyword (st : State) (s : Str) : Except Err (State × Nat) :=
  match findKeyword s keywords with
  | none => .error .keyword
  | some (k, n) => (applyKeyword st k).bind (fun st => .ok (st, n))

/-! ## Numbers -/

/-- `tm_get_field`, parse-time-string.c:1267-1286. -/
def tmField (tm : Tm) : Field → Int
  | .sec => tm.sec
  | .min => tm.min
  | .hour => tm.hour
  | .mday => tm.mday
  | .mon => tm.mon + 1
  | .year => 1900 + tm.year
  | .wday => tm.wday
  | _ => 0

/-- TM_ABS_SEC to TM_ABS_YEAR, as `next_abs_field` has them. -/
def absFields : List Field := [.sec, .min, .hour, .mday, .mon, .year]

/-- `set_timestamp`, parse-time-string.c:905-928. -/
def setTimestamp (st : State) (t : Int) : Except Err State :=
  match gmtime t with
  | none => .error .lib
  | some tm => setAll st (absFields.map (fun f => (f, tmField tm f)) ++ [(.tz, 0)])

/-- `unsigned long` as `time_t`. -/
def toTime (v : Nat) : Int := if v < 2 ^ 63 then v else (v : Int) - 2 ^ 64

/-- `parse_single_number`, parse-time-string.c:931-944. -/
def singleNumber (st : State) (v n : Nat) : Except Err State :=
  if st.delim = 64 then setTimestamp st (toTime v)
  else if v ≥ 2 ^ 31 then .error .format
  else postpone st v n

/-- `is_time_sep`, `is_date_sep`, `is_sep`, parse-time-string.c:946-962. -/
def isTimeSep (c : UInt8) : Bool := c == 58
def isDateSep (c : UInt8) : Bool := c == 47 || c == 45 || c == 46
def isSep (c : UInt8) : Bool := isTimeSep c || isDateSep c

/-- `expand_year`, parse-time-string.c:966-976; `none` is UNSET. -/
def expandYear (year n : Nat) : Option Int :=
  if n = 2 then some ((if year < 70 then 2000 else 1900) + year) else if n = 4 then some year else none

/-- The fields of a date: parse-time-string.c:988-1035; the year and the day may be unset. -/
def dateFields (sep : UInt8) (v1 v2 v3 n1 n2 n3 : Nat) : Option (Option Int × Int × Option Int) :=
  if sep = 47 then
    if n1 ≠ 1 ∧ n1 ≠ 2 then none
    else if (n2 = 1 ∨ n2 = 2) ∧ (n3 = 0 ∨ n3 = 2 ∨ n3 = 4) then some (expandYear v3 n3, v1, some v2)
    else if n2 = 4 ∧ n3 = 0 then some (some v2, v1, none)
    else none
  else if sep = 45 then
    if n1 = 4 ∧ n2 = 2 ∧ (n3 = 0 ∨ n3 = 2) then some (some v1, v2, if n3 = 0 then none else some v3)
    else if n1 = 2 ∧ n2 = 2 ∧ (n3 = 0 ∨ n3 = 2 ∨ n3 = 4) then some (expandYear v3 n3, v2, some v1)
    else if n1 = 2 ∧ n2 = 4 ∧ n3 = 0 then some (some v2, v1, none)
    else none
  else
    if (n1 ≠ 1 ∧ n1 ≠ 2) ∨ (n2 ≠ 1 ∧ n2 ≠ 2) ∨ (n3 ≠ 0 ∧ n3 ≠ 2 ∧ n3 ≠ 4) then none
    else some (expandYear v3 n3, v2, some v1)

/-- `parse_date`, parse-time-string.c:979-1048. -/
def parseDate (st : State) (sep : UInt8) (v1 v2 v3 n1 n2 n3 : Nat) : Except Err State :=
  match dateFields sep v1 v2 v3 n1 n2 n3 with
  | none => .error .dateFormat
  | some (year, mon, mday) =>
    if (year.map validYear).getD true && validMon mon && (mday.map validMday).getD true then
      setAll st (year.toList.map (fun y => (.year, y)) ++ [(.mon, mon)] ++ mday.toList.map (fun d => (.mday, d)))
    else .error .invalidDate

/-- `parse_time`, parse-time-string.c:1051-1094. -/
def parseTime (st : State) (v1 v2 v3 n1 n2 n3 : Nat) : Except Err State :=
  if (n1 ≠ 1 ∧ n1 ≠ 2) ∨ n2 ≠ 2 ∨ (n3 ≠ 0 ∧ n3 ≠ 2) then .error .timeFormat
  else if st.isSet .hour = true ∧ st.isSet .min = true ∧ n1 = 2 ∧ n2 = 2 ∧ n3 = 0 ∧ (st.delim = 43 ∨ st.delim = 45) then
    (userTz st.delim v1 v2).bind (fun tz => setField st .tz tz)
  else if !validTime v1 v2 (if n3 = 0 then 0 else v3) then .error .invalidTime
  else setAll st ([(.hour, (v1 : Int)), (.min, v2)] ++ (if n3 = 0 then [] else [(.sec, (v3 : Int))]))

/-- `strtoul` of digits. -/
def strtoul (ds : Str) : Nat := min (2 ^ 64 - 1) (ds.foldl (fun n c => 10 * n + (c.toNat - 48)) 0)

/-- The separator and the digits after it, if there are any. -/
def group (s : Str) : Option (UInt8 × Str) :=
  match s with
  | c :: d :: l => if isDigit d then some (c, (d :: l).takeWhile isDigit) else none
  | _ => none

/-- The digits after the same separator once more, if there are any, parse-time-string.c:1129-1133. -/
def thirdGroup (sep : UInt8) (s : Str) : Str :=
  match group s with
  | some (sep', d3) => if sep' = sep then d3 else []
  | none => []

/-- `parse_number`, parse-time-string.c:1110-1146. -/
def parseNumber (st : State) (s : Str) : Except Err (State × Nat) :=
  let d1 := s.takeWhile isDigit
  let r1 := s.drop d1.length
  match group r1 with
  | none => (singleNumber st (strtoul d1) d1.length).bind (fun st => .ok (st, d1.length))
  | some (sep, d2) =>
    if !isSep sep then (singleNumber st (strtoul d1) d1.length).bind (fun st => .ok (st, d1.length))
    else
      let d3 := thirdGroup sep (r1.drop (1 + d2.length))
      let n := d1.length + (1 + d2.length) + (if d3 = [] then 0 else 1 + d3.length)
      (if isTimeSep sep then parseTime st (strtoul d1) (strtoul d2) (strtoul d3) d1.length d2.length d3.length
        else parseDate st sep (strtoul d1) (strtoul d2) (strtoul d3) d1.length d2.length d3.length).bind (fun st => .ok (st, n))

/-- `parse_delim`, parse-time-string.c:1155-1170. -/
def parseDelim (st : State) (s : Str) : State × Nat :=
  let ds := s.takeWhile (fun c => !isAlnum c)
  ({ st with delim := ds.getLast?.getD st.delim }, ds.length)

/-- What the next characters are. -/
def parseNext (st : State) (s : Str) : Except Err (State × Nat) :=
  match s with
  | [] => .ok (st, 0)
  | c :: _ => if isAlpha c then parseKeyword st s else if isDigit c then parseNumber st s else .ok (parseDelim st s)

/-- `parse_input`, parse-time-string.c:1176-1210, with fuel for the characters. -/
def parseInput : Nat → State → Str → Except Err State
  | _, st, [] => parsePostponed st
  | 0, _, _ :: _ => .error .format
  | n + 1, st, s@(_ :: _) => (parseNext st s).bind (fun p => parseInput n p.1 (s.drop p.2))

/-! ## Output -/

/-- How to round: parse-time-string.h:42-47. -/
inductive Round where
  | down
  | none
  | up
  | upInclusive
  deriving DecidableEq

/-- `initialize_now`, parse-time-string.c:1221-1248. -/
def initNow (z : Zone) (st : State) (ref : Int) : Option Tm :=
  if st.isSet .tz then gmtime (ref + st.tm .tz * 60) else z.localtime ref

/-- Fields flagged as "now", parse-time-string.c:1338-1343. -/
def fillNow (st : State) (now : Tm) : List Field → State
  | [] => st
  | f :: l => if st.set f = .now then fillNow { st with tm := put st.tm f (tmField now f), set := put st.set f .set } now l else fillNow st now l

/-- Weekdays, parse-time-string.c:1352-1368. -/
def fixWday (st : State) (now : Tm) : Except Err State :=
  if st.isSet .wday ∧ !st.isSet .mday then
    let wday := st.tm .wday
    let today := now.wday
    (addToField st .relDay (if today > wday then today - wday else today + 7 - wday)).bind (fun st => .ok { st with set := put st.set .wday .unset, tm := put st.tm .wday 0 })
  else .ok st

/-- `fixup_ampm`, parse-time-string.c:1289-1317. -/
def fixAmpm (st : State) : Except Err State :=
  if !st.isSet .ampm then .ok st
  else if !st.isSet .hour then .error .timeFormat
  else if !valid12Hour (st.tm .hour) then .error .invalidTime
  else
    let hdiff : Int := if st.tm .ampm ≠ 0 then (if st.tm .hour ≠ 12 then 12 else 0) else (if st.tm .hour = 12 then -12 else 0)
    addToField st .relHour (-hdiff)

/-- `abs_to_rel_field`, parse-time-string.c:163-169. -/
def relField : Field → Field
  | .sec => .relSec
  | .min => .relMin
  | .hour => .relHour
  | .mday => .relDay
  | .mon => .relMon
  | _ => .relYear

/-- `get_field_epoch_value`, parse-time-string.c:172-182. -/
def epochValue : Field → Int
  | .mday => 1
  | .mon => 1
  | .year => 1970
  | _ => 0

/-- `set_field` where its result is not looked at: a field that is set stays. -/
def setIfUnset (st : State) (f : Field) (v : Int) : State :=
  match setField st f v with
  | .ok st => st
  | .error _ => st

/-- The loop of parse-time-string.c:1379-1416: `round` and `weekRound` change in it. -/
def roundFields (now : Tm) : List Field → State → Round → Round → Except Err (State × Round)
  | [], st, _, weekRound => .ok (st, weekRound)
  | f :: l, st, round, weekRound =>
    if round = .none then roundFields now l (setIfUnset st f (tmField now f)) .none weekRound
    else if st.isSet f || st.isSet (relField f) then
      (if (round = .up ∨ round = .upInclusive) ∧ f ≠ .sec then
          (addToField st (relField f) (-1)).bind (fun st => if round = .upInclusive then addToField st .relSec 1 else .ok st)
        else .ok st).bind (fun st => roundFields now l (setIfUnset st f (tmField now f)) .none weekRound)
    else if f = .mday ∧ st.isSet .relWeek then roundFields now l (setIfUnset st f (tmField now f)) .none round
    else roundFields now l (setIfUnset (setIfUnset st f (epochValue f)) f (tmField now f)) round weekRound

/-- parse-time-string.c:1419-1425; those fields are set already, so that nothing changes. -/
def fillWeek (st : State) (now : Tm) : State :=
  setIfUnset (setIfUnset (setIfUnset (setIfUnset st .sec now.sec) .min now.min) .hour now.hour) .mday now.mday

/-- parse-time-string.c:1431-1439. -/
def toTm (st : State) : Tm :=
  ⟨st.tm .sec - st.tm .relSec, st.tm .min - st.tm .relMin, st.tm .hour - st.tm .relHour, st.tm .mday - st.tm .relDay - 7 * st.tm .relWeek, st.tm .mon - st.tm .relMon - 1,
    st.tm .year - st.tm .relYear - 1900, 0⟩

/-- None of this overflows. -/
def tmInInt (st : State) : Bool :=
  inInt (st.tm .sec - st.tm .relSec) && inInt (st.tm .min - st.tm .relMin) && inInt (st.tm .hour - st.tm .relHour) && inInt (st.tm .mday - st.tm .relDay) &&
  inInt (7 * st.tm .relWeek) && inInt (st.tm .mday - st.tm .relDay - 7 * st.tm .relWeek) && inInt (st.tm .mon - st.tm .relMon - 1) && inInt (st.tm .year - st.tm .relYear - 1900)

/-- Rounding to weeks, parse-time-string.c:1451-1474. -/
def weekTm (z : Zone) (tm : Tm) (round : Round) : Option Tm :=
  if round = .none then some tm
  else
    match (z.mktime tm).bind z.localtime with
    | none => none
    | some tm =>
      if round = .up then some { tm with sec := 0, min := 0, hour := 0, mday := tm.mday + (7 - tm.wday) }
      else if round = .upInclusive then some { tm with sec := -1, min := 0, hour := 0, mday := tm.mday + (7 - tm.wday) }
      else some { tm with sec := 0, min := 0, hour := 0, mday := tm.mday - tm.wday }

/-- parse-time-string.c:1476-1488. -/
def toInstant (z : Zone) (st : State) (tm : Tm) : Option Int :=
  if st.isSet .tz then timegm { tm with min := tm.min - st.tm .tz } else z.mktime tm

/-- `create_output`, parse-time-string.c:1320-1490. -/
def createOutput (z : Zone) (st : State) (ref : Int) (round : Round) : Except Err Int :=
  match initNow z st ref with
  | none => .error .lib
  | some now =>
    (fixWday (fillNow st now absFields) now).bind fun st =>
    (fixAmpm st).bind fun st =>
    (roundFields now absFields st round .none).bind fun (st, week) =>
    let st := if week = .none then st else fillWeek st now
    if !tmInInt st then .error .overflow
    else
      match (weekTm z (toTm st) week).bind (toInstant z st) with
      | none => .error .lib
      | some t => .ok t

/-- `parse_time_string`, parse-time-string.c:1492-1510; `ref` is the time now. -/
def parseTimeString (z : Zone) (s : Str) (ref : Int) (round : Round) : Except Err Int :=
  (parseInput s.length .init s).bind (fun st => createOutput z st ref round)

/-! ## Queries -/

/-- A range of times; where there is no beginning, it is the least `double` above 0, and where there is no end, it is the greatest. -/
structure Range where
  lo : Option Int
  hi : Option Int
  deriving DecidableEq

/-- A time of a message is in a range of values; that a `double` has 53 bits is left out. -/
def Range.has (r : Range) (t : Int) : Bool := (r.lo.map (fun a => decide (a ≤ t))).getD (decide (0 < t)) && (r.hi.map (fun b => decide (t ≤ b))).getD true

/-- `_notmuch_date_strings_to_query`, lib/parse-time-vrp.cc:27-69, and `ParseTimeRangeProcessor`, lib/parse-time-vrp.cc:71-83: `date:begin..end`. -/
def dateStrings (z : Zone) (now : Int) (begin_ end_ : Str) : Except Err Range :=
  (if begin_ = [] then .ok none else (parseTimeString z begin_ now .down).bind (fun t => .ok (some t))).bind fun lo =>
  (if end_ = [] then .ok none else (parseTimeString z (if end_ = bs "!" ∧ begin_ ≠ [] then begin_ else end_) now .upInclusive).bind (fun t => .ok (some t))).bind fun hi =>
  .ok ⟨lo, hi⟩

/-- `DateFieldProcessor`, lib/parse-time-vrp.cc:86-110: `date:str`. -/
def dateField (z : Zone) (now : Int) (s : Str) : Except Err Range :=
  (parseTimeString z s now .down).bind fun lo => (parseTimeString z s now .upInclusive).bind fun hi => .ok ⟨some lo, some hi⟩

/-- A zone that is always the same time ahead. -/
def fixedZone (offset : Int) : Zone where
  localtime t := gmtime (t + offset)
  mktime tm := if seconds tm - offset = -1 then none else some (seconds tm - offset)

end Notmuch.Time
