import Verif.Proofs.RelDate
import Verif.Props.Time

/-!
# C56: the dates that notmuch search and notmuch show print

`now` is the time of day when the command is run; `fixedZone off` is a zone that is always `off` seconds ahead of UTC.
-/

namespace Notmuch.Props

open Notmuch.Time Notmuch.RelDate

/-- A message from the future is not given a date. -/
theorem C56_future (z : Zone) {now t : Int} (h : now < t) : relativeDate z now t = some (bs "the future") := if_pos h

/-- A message of the last hour: the whole minutes since then. -/
theorem C56_minutes (z : Zone) {now t : Int} (h1 : t ≤ now) (h2 : now - t < 3600) :
    ∃ n : Nat, 60 * (n : Int) ≤ now - t ∧ now - t < 60 * (n + 1) ∧ relativeDate z now t = some (dec n ++ bs " mins. ago") :=
  ⟨((now - t) / 60).toNat, by omega, by omega, minutes_text h1 h2⟩

/-- An earlier message of the same day: the time. -/
theorem C56_today {off now t : Int} {y mo d h mi : Nat} (ho : IsOffset off) (hn : IsNow now) (ha : At off t y mo d h mi) (h1 : 3600 ≤ now - t) (hd : localDay off now = dayOf y mo d) :
    ∃ c, IsClock h mi c ∧ relativeDate (fixedZone off) now t = some (bs "Today " ++ c) :=
  ⟨_, (clock_text (at_local ha).2.2.2.2.1 (at_local ha).2.2.2.2.2.1 ha.2.1 ha.2.2.1).1, recent_today ho hn ha h1 hd⟩

/-- A message of the day before. -/
theorem C56_yesterday {off now t : Int} {y mo d h mi : Nat} (ho : IsOffset off) (hn : IsNow now) (ha : At off t y mo d h mi) (h1 : 3600 ≤ now - t) (hd : localDay off now = dayOf y mo d + 1) :
    ∃ c, IsClock h mi c ∧ relativeDate (fixedZone off) now t = some (bs "Yest. " ++ c) :=
  ⟨_, (clock_text (at_local ha).2.2.2.2.1 (at_local ha).2.2.2.2.2.1 ha.2.1 ha.2.2.1).1, recent_yesterday ho hn ha h1 hd⟩

/-- A message of two to six days ago: the day of the week, which is not ambiguous then.  1970-01-01 was a Thursday. -/
theorem C56_weekday {off now t : Int} {y mo d h mi : Nat} (ho : IsOffset off) (hn : IsNow now) (ha : At off t y mo d h mi) (hd1 : dayOf y mo d + 2 ≤ localDay off now)
    (hd2 : localDay off now ≤ dayOf y mo d + 6) :
    ∃ w c, IsDayName ((dayOf y mo d + 4) % 7) w ∧ IsClock h mi c ∧ relativeDate (fixedZone off) now t = some (w ++ bs ". " ++ c) :=
  ⟨_, _, (dayAbbrev_text (by omega) (by omega)).1, (clock_text (at_local ha).2.2.2.2.1 (at_local ha).2.2.2.2.2.1 ha.2.1 ha.2.2.1).1, recent_weekday ho hn ha hd1 hd2⟩

theorem two_day {y mo d : Nat} (h : IsDay y mo d) : Digits 2 d (two d) := by
  have := h.2.2.2.2.2
  apply two_digits
  unfold daysIn at this
  split at this <;> (try split at this) <;> omega

/-- A message of seven days to 180 days ago: the month and the day. -/
theorem C56_month {off now t : Int} {y mo d h mi : Nat} (ho : IsOffset off) (hn : IsNow now) (ha : At off t y mo d h mi) (hd1 : dayOf y mo d + 7 ≤ localDay off now)
    (hd2 : now - t ≤ 180 * 86400) :
    ∃ w dd, IsMonthName mo w ∧ Digits 2 d dd ∧ relativeDate (fixedZone off) now t = some (w ++ bs " " ++ dd) :=
  ⟨_, _, (monthFull_text ha.1.2.2.1 ha.1.2.2.2.1).1, two_day ha.1, recent_month ho hn ha hd1 hd2⟩

/-- An older message: year, month and day. -/
theorem C56_date {off now t : Int} {y mo d h mi : Nat} (ha : At off t y mo d h mi) (hd : 180 * 86400 < now - t) :
    ∃ yy mm dd, Digits 4 y yy ∧ Digits 2 mo mm ∧ Digits 2 d dd ∧ relativeDate (fixedZone off) now t = some (yy ++ bs "-" ++ mm ++ bs "-" ++ dd) :=
  ⟨_, _, _, dec_four_digits (by have := ha.1.1; omega) ha.1.2.1, two_digits (by have := ha.1.2.2.2.1; omega), two_day ha.1, old_date ha hd⟩

/-- The date of an older message can be searched for, at any time: `date:` finds the messages of that day, the message itself among them, and no others. -/
theorem C56_date_search {off now later t : Int} {y mo d h mi : Nat} {s : Str} (ho : IsOffset off) (hl : IsNow later) (ha : At off t y mo d h mi) (hd : 180 * 86400 < now - t)
    (hs : relativeDate (fixedZone off) now t = some s) :
    ∃ r, dateField (fixedZone off) later s = .ok r ∧ r.has t = true ∧ ∀ u, r.has u = true ↔ localDay off u = localDay off t := by
  obtain ⟨yy, mm, dd, d1, d2, d3, e⟩ := C56_date ha hd
  rw [e, Option.some.injEq] at hs
  have hD := (at_local ha).2.2.2.2.2.2.2
  have hp : s = yy ++ 45 :: (mm ++ 45 :: dd) := by
    rw [← hs]
    show yy ++ [45] ++ mm ++ [45] ++ dd = _
    simp only [List.append_assoc, List.cons_append, List.nil_append]
  obtain ⟨r, h1, h2⟩ := C54_date ho hl ha.1 (show DateText y mo d s by rw [hp]; exact .yearFirst yy mm dd d1 d2 d3)
  exact ⟨r, h1, (h2 t).2 hD, fun u => by rw [h2, hD]⟩

/-- There is always a text, and it fits into the buffer with its NUL. -/
theorem C56_always {off now t : Int} (ho : IsOffset off) (hn : IsNow now) (hc : InCalendar off t) : ∃ s, relativeDate (fixedZone off) now t = some s ∧ 0 < s.length ∧ s.length < 20 := by
  by_cases hf : now < t
  · exact ⟨_, C56_future _ hf, by decide, by decide⟩
  obtain ⟨y, mo, d, h, mi, ha⟩ := at_exists hc
  have hl := (at_local ha).2.2.2.2.2.2.2
  have hle : localDay off t ≤ localDay off now := by unfold localDay; omega
  have ck : ∀ c, IsClock h mi c → c.length = 5 := by
    rintro c ⟨a, b, h1, h2, rfl⟩
    rw [List.length_append, List.length_append, h1.1, h2.1]
    rfl
  by_cases h1 : now - t < 3600
  · obtain ⟨n, k1, k2, e⟩ := C56_minutes (fixedZone off) (Int.not_lt.mp hf) h1
    have k : ∀ n : Fin 60, 0 < (dec n.val ++ bs " mins. ago").length ∧ (dec n.val ++ bs " mins. ago").length < 20 := by decide +kernel
    have := k ⟨n, by omega⟩
    exact ⟨_, e, this.1, this.2⟩
  by_cases h2 : 180 * 86400 < now - t
  · obtain ⟨yy, mm, dd, d1, d2, d3, e⟩ := C56_date ha h2
    refine ⟨_, e, ?_, ?_⟩ <;> simp only [List.length_append, d1.1, d2.1, d3.1] <;> decide
  by_cases h3 : localDay off now = dayOf y mo d
  · obtain ⟨c, hc, e⟩ := C56_today ho hn ha (by omega) h3
    refine ⟨_, e, ?_, ?_⟩ <;> rw [List.length_append, ck c hc] <;> decide
  by_cases h4 : localDay off now = dayOf y mo d + 1
  · obtain ⟨c, hc, e⟩ := C56_yesterday ho hn ha (by omega) h4
    refine ⟨_, e, ?_, ?_⟩ <;> rw [List.length_append, ck c hc] <;> decide
  by_cases h5 : localDay off now ≤ dayOf y mo d + 6
  · obtain ⟨w, c, hw, hc, e⟩ := C56_weekday ho hn ha (by omega) h5
    have hl3 : w.length = 3 := by
      have k : ∀ x ∈ [bs "Sun", bs "Mon", bs "Tue", bs "Wed", bs "Thu", bs "Fri", bs "Sat"], x.length = 3 := by decide +kernel
      exact k w (List.mem_of_getElem? hw.2)
    refine ⟨_, e, ?_, ?_⟩ <;> rw [List.length_append, List.length_append, ck c hc, hl3] <;> decide
  · obtain ⟨w, dd, hw, hd, e⟩ := C56_month ho hn ha (by omega) (by omega)
    have hl3 : w.length ≤ 9 := by
      have k : ∀ x ∈ [bs "January", bs "February", bs "March", bs "April", bs "May", bs "June", bs "July", bs "August", bs "September", bs "October", bs "November", bs "December"], x.length ≤ 9 := by
        decide +kernel
      exact k w (List.mem_of_getElem? hw.2)
    have e1 : (bs " ").length = 1 := rfl
    refine ⟨_, e, ?_, ?_⟩ <;> rw [List.length_append, List.length_append, hd.1, e1] <;> omega

/-- The texts can be told apart: two messages that are shown with the same text at the same time are of the same day, and of the same minute when that day is less than a week ago, or are both
of the last hour and as many minutes old. -/
theorem C56_same_text {off now t u : Int} (ho : IsOffset off) (hn : IsNow now) (ht : InCalendar off t) (hu : InCalendar off u) (h1 : t ≤ now) (h2 : u ≤ now)
    (h : relativeDate (fixedZone off) now t = relativeDate (fixedZone off) now u) :
    (now - t < 3600 ∧ now - u < 3600 ∧ (now - t) / 60 = (now - u) / 60) ∨
      (localDay off t = localDay off u ∧ (localDay off now ≤ localDay off t + 6 → (t + off) / 60 = (u + off) / 60)) := by
  obtain ⟨s, e, k⟩ := shown ho hn ht h1
  obtain ⟨s', e', k'⟩ := shown ho hn hu h2
  rw [e, e', Option.some.injEq] at h
  subst h
  rcases shown_same k k' with w | ⟨w1, w2⟩ | w
  · exact .inl w
  · refine .inr ⟨w1, fun a => w2 a ?_⟩
    unfold localDay at a
    omega
  · omega

/-- Only messages of the day are said to be of today, and only those of the day before to be of yesterday. -/
theorem C56_today_only {off now t : Int} {c : Str} (ho : IsOffset off) (hn : IsNow now) (ht : InCalendar off t) (h1 : t ≤ now) :
    (relativeDate (fixedZone off) now t = some (bs "Today " ++ c) → localDay off t = localDay off now) ∧
      (relativeDate (fixedZone off) now t = some (bs "Yest. " ++ c) → localDay off t + 1 = localDay off now) := by
  obtain ⟨s, e, k⟩ := shown ho hn ht h1
  have hm : ∀ n : Fin 12, (monthFull.getD n.val []).head? ≠ some 84 ∧ (monthFull.getD n.val []).head? ≠ some 89 ∧ monthFull.getD n.val [] ≠ [] := by decide +kernel
  have hw : ∀ n : Fin 7, (dayAbbrev.getD n.val [] ++ bs ". ")[3]? = some 46 ∧ (dayAbbrev.getD n.val []).head? ≠ some 89 ∧ dayAbbrev.getD n.val [] ≠ [] := by decide +kernel
  have hdig : ∀ n : Nat, ∀ l : Str, (dec n ++ l).head? ≠ some 84 ∧ (dec n ++ l).head? ≠ some 89 := by
    intro n l
    have h2 := dec_ne_nil n
    have h3 := dec_digits n
    cases hd : dec n with
    | nil => exact absurd hd h2
    | cons a r =>
      have := h3 a (by rw [hd]; exact List.mem_cons_self)
      constructor <;> (intro k; simp only [List.cons_append, List.head?_cons, Option.some.injEq] at k; rw [k] at this; exact absurd this (by decide))
  have hh : ∀ a l : Str, a ≠ [] → (a ++ l).head? = a.head? := by
    intro a l h
    cases a with
    | nil => exact absurd rfl h
    | cons _ _ => rfl
  constructor
  all_goals
    intro he
    rw [e, Option.some.injEq] at he
  · cases k with
    | minutes p q => rw [he] at q; have := (hdig _ _).1 ((congrArg List.head? q).symm.trans rfl); exact absurd this id
    | today p q => exact p.symm
    | yesterday p q => rw [he] at q; have k : some (84 : UInt8) = some 89 := congrArg List.head? q; exact absurd k (by decide)
    | weekday p p' q =>
      rw [he] at q
      have := congrArg (·[3]?) q
      have hx := (hw ⟨((localDay off t + 4) % 7).toNat, by omega⟩).1
      simp only at this hx
      have hy : (dayAbbrev.getD ((localDay off t + 4) % 7).toNat [] ++ bs ". " ++ clockOf (fieldsOf (t + off)))[3]? = some 46 := by
        obtain ⟨hlt, _⟩ := List.getElem?_eq_some_iff.1 hx
        rw [List.getElem?_append_left hlt]
        exact hx
      rw [hy] at this
      have k : some (97 : UInt8) = some 46 := this
      exact absurd k (by decide)
    | month y mo d p p' hd hl q =>
      rw [he] at q
      have := congrArg List.head? q
      have hx := hm ⟨((mo : Int) - 1).toNat, by have := hd.2.2.2.1; omega⟩
      simp only at hx
      rw [List.append_assoc, hh _ _ hx.2.2] at this
      exact absurd this.symm hx.1
    | date y mo d p hd hl q =>
      rw [he] at q
      simp only [List.append_assoc] at q
      have := (hdig _ _).1 ((congrArg List.head? q).symm.trans rfl)
      exact absurd this id
  · cases k with
    | minutes p q => rw [he] at q; have := (hdig _ _).2 ((congrArg List.head? q).symm.trans rfl); exact absurd this id
    | today p q => rw [he] at q; have k : some (89 : UInt8) = some 84 := congrArg List.head? q; exact absurd k (by decide)
    | yesterday p q => exact p.symm
    | weekday p p' q =>
      rw [he] at q
      have := congrArg List.head? q
      have hx := hw ⟨((localDay off t + 4) % 7).toNat, by omega⟩
      simp only at hx
      rw [List.append_assoc, hh _ _ hx.2.2] at this
      exact absurd this.symm hx.2.1
    | month y mo d p p' hd hl q =>
      rw [he] at q
      have := congrArg List.head? q
      have hx := hm ⟨((mo : Int) - 1).toNat, by have := hd.2.2.2.1; omega⟩
      simp only at hx
      rw [List.append_assoc, hh _ _ hx.2.2] at this
      exact absurd this.symm hx.2.1
    | date y mo d p hd hl q =>
      rw [he] at q
      simp only [List.append_assoc] at q
      have := (hdig _ _).2 ((congrArg List.head? q).symm.trans rfl)
      exact absurd this id

/-- That needs a zone whose clocks are not changed.  In Berlin, where they were put back on 2024-10-27 at 01:00 UTC, a message of 00:10 that day is no longer shown with its time at 23:50 of the same
day, but as `October 27`. -/
theorem C56_long_day : ∃ now t, (changing 7200 3600 1729990800).localtime now = some ⟨0, 50, 23, 27, 9, 124, 0⟩ ∧
    (changing 7200 3600 1729990800).localtime t = some ⟨0, 10, 0, 27, 9, 124, 0⟩ ∧ relativeDate (changing 7200 3600 1729990800) now t = some (bs "October 27") :=
  ⟨1730069400, 1729980600, by decide +kernel⟩

/-- And where they were put forward on 2024-03-31 at 01:00 UTC, a message of Wednesday 2024-03-27, 23:50, is said to be of yesterday on Thursday 2024-04-04 at 00:10, eight days later. -/
theorem C56_short_day : ∃ now t, (changing 3600 7200 1711846800).localtime now = some ⟨0, 10, 0, 4, 3, 124, 4⟩ ∧
    (changing 3600 7200 1711846800).localtime t = some ⟨0, 50, 23, 27, 2, 124, 3⟩ ∧ relativeDate (changing 3600 7200 1711846800) now t = some (bs "Yest. 23:50") :=
  ⟨1712182200, 1711579800, by decide +kernel⟩

/-! ## Elapsed time -/

/-- The hours, minutes and seconds that `notmuch new` prints are the whole seconds, however long it took; there are hours when it took longer than one, and minutes when more than one is left. -/
theorem C56_elapsed (us : Nat) (h : 1000000 ≤ us) :
    ∃ hr mi s : Nat, us / 1000000 = 3600 * hr + 60 * mi + s ∧ mi ≤ 60 ∧ s ≤ 60 ∧
      formattedSeconds us = (if 3600000000 < us then dec hr ++ bs "h " else []) ++ (if 60000000 < us - 3600000000 * hr then dec mi ++ bs "m " else []) ++ dec s ++ bs "s" := by
  have c1 : hoursOf us = 0 ∧ us ≤ 3600000000 ∨ hoursOf us = us / 1000000 / 3600 ∧ 3600000000 < us := by
    unfold hoursOf
    split <;> omega
  have c2 : ∀ v, minutesOf v = 0 ∧ v ≤ 60000000 ∨ minutesOf v = v / 1000000 / 60 ∧ 60000000 < v := by
    intro v
    unfold minutesOf
    split <;> omega
  have e : us - hoursOf us * 3600 * 1000000 = us - 3600000000 * hoursOf us := by omega
  have c3 := c2 (us - 3600000000 * hoursOf us)
  refine ⟨hoursOf us, minutesOf (us - 3600000000 * hoursOf us), (us - 3600000000 * hoursOf us - minutesOf (us - 3600000000 * hoursOf us) * 60 * 1000000) / 1000000, ?_, ?_, ?_, ?_⟩
  · rcases c1 with ⟨a, a'⟩ | ⟨a, a'⟩ <;> rcases c3 with ⟨b, b'⟩ | ⟨b, b'⟩ <;> omega
  · rcases c1 with ⟨a, a'⟩ | ⟨a, a'⟩ <;> rcases c3 with ⟨b, b'⟩ | ⟨b, b'⟩ <;> omega
  · rcases c1 with ⟨a, a'⟩ | ⟨a, a'⟩ <;> rcases c3 with ⟨b, b'⟩ | ⟨b, b'⟩ <;> omega
  · unfold formattedSeconds
    rw [if_neg (by omega)]
    simp only [e]

/-- Less than a second. -/
theorem C56_no_time (us : Nat) (h : us < 1000000) : formattedSeconds us = bs "almost no time" := if_pos h

/-- The microseconds from one reading of the clock to another, each with less than a million of them beside its seconds. -/
theorem C56_elapsed_difference (s1 u1 s2 u2 : Int) : elapsed (s1, u1) (s2, u2) = (1000000 * s2 + u2) - (1000000 * s1 + u1) := by
  unfold elapsed
  omega

/-! ## Examples -/

/-- 2024-10-27, 12:30 UTC. -/
example : At 0 1730032200 2024 10 27 12 30 := ⟨by unfold IsDay; decide, by decide, by decide, 0, by decide, by decide +kernel⟩
example : IsNow 1730032200 ∧ IsOffset 3600 ∧ InCalendar 3600 1730032200 := by
  refine ⟨?_, ?_, ?_⟩ <;> simp only [IsNow, IsOffset, InCalendar] <;> decide +kernel
example : relativeDate (fixedZone 0) 1730032200 (1730032200 - 3599) = some (bs "59 mins. ago") := by decide +kernel
example : relativeDate (fixedZone 0) 1730032200 (1730032200 - 3600) = some (bs "Today 11:30") := by decide +kernel
example : relativeDate (fixedZone 0) 1730032200 (1730032200 - 43260) = some (bs "Yest. 00:29") → False := by decide +kernel
example : relativeDate (fixedZone 0) 1730032200 (1730032200 - 45060) = some (bs "Yest. 23:59") := by decide +kernel
example : relativeDate (fixedZone 0) 1730032200 (1730032200 - 2 * 86400) = some (bs "Fri. 12:30") := by decide +kernel
example : relativeDate (fixedZone 0) 1730032200 (1730032200 - 7 * 86400) = some (bs "October 20") := by decide +kernel
example : relativeDate (fixedZone 0) 1730032200 (1730032200 - 180 * 86400) = some (bs "April 30") := by decide +kernel
example : relativeDate (fixedZone 0) 1730032200 (1730032200 - 180 * 86400 - 1) = some (bs "2024-04-30") := by decide +kernel
example : formattedSeconds 7325000000 = bs "2h 2m 5s" ∧ formattedSeconds 3600000000 = bs "60m 0s" ∧ formattedSeconds 60000000 = bs "60s" := by
  refine ⟨?_, ?_, ?_⟩ <;> decide +kernel

end Notmuch.Props
