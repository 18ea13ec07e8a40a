import Verif.Model.Time
import Verif.Base.Dec

/-!
# Model: relative dates and elapsed times (notmuch-time.c)

`notmuch search` and `notmuch show` print dates with `notmuch_time_relative_date` (notmuch-search.c:180, notmuch-show.c:78 and 155); `notmuch new` prints how long it took with `notmuch_time_print_formatted_seconds`.
The locale is "C": notmuch calls no `setlocale`.  Not modelled: `talloc_zero_size` fails ("when?").
-/

namespace Notmuch.RelDate

open Notmuch.Time

/-- `%d`, `%m`, `%H`, `%M` of `strftime`: two digits. -/
def two (n : Int) : Str := [UInt8.ofNat (48 + n.toNat / 10 % 10), UInt8.ofNat (48 + n.toNat % 10)]

/-- `%a` in the C locale. -/
def dayAbbrev : List Str := [bs "Sun", bs "Mon", bs "Tue", bs "Wed", bs "Thu", bs "Fri", bs "Sat"]

/-- `%B` in the C locale. -/
def monthFull : List Str := [bs "January", bs "February", bs "March", bs "April", bs "May", bs "June", bs "July", bs "August", bs "September", bs "October", bs "November", bs "December"]

/-- `%R`: `%H:%M`. -/
def clockOf (tm : Tm) : Str := two tm.hour ++ [58] ++ two tm.min

/-- `%F`: `%Y-%m-%d`.  Simplified: for years from 1000 on. -/
def dateOf (tm : Tm) : Str := dec (tm.year + 1900).toNat ++ [45] ++ two (tm.mon + 1) ++ [45] ++ two tm.mday

/-- `RELATIVE_DATE_MAX`, notmuch-time.c:45. -/
def maxLen : Nat := 20

/-- `strftime (result, RELATIVE_DATE_MAX, ..)`: when the text and its NUL do not fit, `result` is not to be relied on, which is `none`. -/
def strftime (s : Str) : Option Str := if s.length < maxLen then some s else none

/-- notmuch-time.c:42-44. -/
def minute : Int := 60
def hour : Int := 60 * minute
def day : Int := 24 * hour

/-- The last part of `notmuch_time_relative_date`, notmuch-time.c:80-103: messages of an hour to 180 days ago. -/
def recent (now th : Tm) (delta : Int) : Option Str :=
  if delta ≤ 7 * day ∧ th.wday = now.wday ∧ delta < day then strftime (bs "Today " ++ clockOf th)
  else if delta ≤ 7 * day ∧ (now.wday + 7 - th.wday) % 7 = 1 then strftime (bs "Yest. " ++ clockOf th)
  else if delta ≤ 7 * day ∧ th.wday ≠ now.wday then strftime (dayAbbrev.getD th.wday.toNat [] ++ bs ". " ++ clockOf th)
  else strftime (monthFull.getD th.mon.toNat [] ++ [32] ++ two th.mday)

/-- `notmuch_time_relative_date`, notmuch-time.c:46-104; `none` when a `struct tm` that `localtime_r` has not filled in is used.  `snprintf` cuts the text off after 19 bytes. -/
def relativeDate (z : Zone) (now t : Int) : Option Str :=
  if now < t then some (bs "the future")
  else if 180 * day < now - t then (z.localtime t).bind (fun th => strftime (dateOf th))
  else if now - t < 3600 then some ((dec ((now - t) / 60).toNat ++ bs " mins. ago").take (maxLen - 1))
  else (z.localtime now).bind (fun n => (z.localtime t).bind (fun th => recent n th (now - t)))

/-! ## Elapsed time -/

/-- The hours of `notmuch_time_print_formatted_seconds`, notmuch-time.c:119-123: their number if there are any, and what is left.  Simplified: a `double` is a whole number of microseconds. -/
def hoursOf (us : Nat) : Nat := if 3600 * 1000000 < us then us / 1000000 / 3600 else 0

/-- The minutes, notmuch-time.c:125-129. -/
def minutesOf (us : Nat) : Nat := if 60 * 1000000 < us then us / 1000000 / 60 else 0

/-- `notmuch_time_print_formatted_seconds`, notmuch-time.c:109-132. -/
def formattedSeconds (us : Nat) : Str :=
  if us < 1000000 then bs "almost no time"
  else
    let h := if 3600 * 1000000 < us then dec (hoursOf us) ++ bs "h " else []
    let us := us - hoursOf us * 3600 * 1000000
    let m := if 60 * 1000000 < us then dec (minutesOf us) ++ bs "m " else []
    let us := us - minutesOf us * 60 * 1000000
    h ++ m ++ dec (us / 1000000) ++ bs "s"

/-- `notmuch_time_elapsed`, notmuch-time.c:134-140, in microseconds; a `struct timeval` is seconds and microseconds. -/
def elapsed (s e : Int × Int) : Int := (e.1 - s.1) * 1000000 + (e.2 - s.2)

end Notmuch.RelDate
