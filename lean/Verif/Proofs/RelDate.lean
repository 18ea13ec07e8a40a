import Verif.Spec.RelDate
import Verif.Proofs.TimeQuery

/-! # Proofs: relative dates -/

namespace Notmuch.RelDate

open Notmuch.Time

theorem yearDays_mono {a b : Int} (h : a ≤ b) : yearDays a ≤ yearDays b := by
  unfold yearDays
  omega

theorem yearOf_unique {y D : Int} (h1 : yearDays y ≤ D) (h2 : D < yearDays (y + 1)) : yearOf D = y := by
  obtain ⟨a, b⟩ := yearOf_spec D
  have h : ¬(yearOf D < y) := by
    intro k
    have := yearDays_mono (show yearOf D + 1 ≤ y by omega)
    omega
  have h' : ¬(y < yearOf D) := by
    intro k
    have := yearDays_mono (show y + 1 ≤ yearOf D by omega)
    omega
  omega

theorem monthOf_unique (leap : Bool) (m : Fin 12) (d : Fin 31) : (d : Int) < monthLength leap m → monthOf leap (monthDays leap m + d) = m ∧
    monthDays leap m + d < if leap then 366 else 365 := by
  revert leap m d
  decide +kernel

theorem daysIn_eq (y m : Nat) (h1 : 1 ≤ m) (h2 : m ≤ 12) : (daysIn y m : Int) = monthLength (isLeap y) ((m : Int) - 1) := by
  have e : (4 ∣ y ∧ (¬100 ∣ y ∨ 400 ∣ y)) ↔ isLeap y = true := by
    rw [isLeap_iff]
    omega
  have c : m = 1 ∨ m = 2 ∨ m = 3 ∨ m = 4 ∨ m = 5 ∨ m = 6 ∨ m = 7 ∨ m = 8 ∨ m = 9 ∨ m = 10 ∨ m = 11 ∨ m = 12 := by omega
  rcases c with c | c | c | c | c | c | c | c | c | c | c | c <;> subst c <;> simp only [daysIn, e] <;> cases isLeap y <;> rfl

/-- The fields of a day of the calendar. -/
theorem fields_day {t : Int} {y mo d : Nat} (hd : IsDay y mo d) (h : t / 86400 = dayOf y mo d) :
    (fieldsOf t).year + 1900 = y ∧ (fieldsOf t).mon = (mo : Int) - 1 ∧ (fieldsOf t).mday = d := by
  obtain ⟨h1, h2, h3, h4, h5, h6⟩ := hd
  have hi := daysIn_eq y mo h3 h4
  have hb : (dayOf y mo d : Int) = yearDays y + monthDays (isLeap y) ((mo : Int) - 1) + d - 1 := by
    rw [← dayNumber_eq y mo d h1 h3 h4]
    unfold dayNumber
    have e1 : ((mo : Int) - 1) / 12 = 0 := by omega
    have e2 : ((mo : Int) - 1) % 12 = mo - 1 := by omega
    rw [e1, e2, Int.add_zero]
  have hml : monthLength (isLeap y) ((mo : Int) - 1) ≤ 31 := by
    unfold monthLength
    split <;> (try split) <;> omega
  have mu := monthOf_unique (isLeap y) ⟨mo - 1, by omega⟩ ⟨d - 1, by omega⟩
  simp only at mu
  have em : ((mo - 1 : Nat) : Int) = (mo : Int) - 1 := by omega
  have ed : ((d - 1 : Nat) : Int) = (d : Int) - 1 := by omega
  rw [em, ed] at mu
  obtain ⟨m1, m2⟩ := mu (by omega)
  have m0 : 0 ≤ monthDays (isLeap y) ((mo : Int) - 1) := by
    unfold monthDays
    have c : mo = 1 ∨ mo = 2 ∨ mo = 3 ∨ mo = 4 ∨ mo = 5 ∨ mo = 6 ∨ mo = 7 ∨ mo = 8 ∨ mo = 9 ∨ mo = 10 ∨ mo = 11 ∨ mo = 12 := by omega
    rcases c with c | c | c | c | c | c | c | c | c | c | c | c <;> subst c <;> cases isLeap y <;> decide
  have hy : yearOf (t / 86400) = y := by
    rw [h, hb]
    apply yearOf_unique
    · omega
    · rw [yearDays_succ]
      omega
  have e : t / 86400 - yearDays y = monthDays (isLeap y) ((mo : Int) - 1) + ((d : Int) - 1) := by omega
  simp only [fieldsOf, hy, e, m1]
  refine ⟨by omega, trivial, by omega⟩

theorem two_digits {n : Nat} (h : n ≤ 99) : Digits 2 n (two n) := by
  have h1 := digit_val (n / 10 % 10) (by omega)
  have h2 := digit_val (n % 10) (by omega)
  refine ⟨rfl, ?_, ?_⟩
  · intro c hc
    simp only [two, Int.toNat_natCast, List.mem_cons, List.not_mem_nil, or_false] at hc
    rcases hc with k | k <;> rw [k]
    · exact digit_isDigit _ (by omega)
    · exact digit_isDigit _ (by omega)
  · simp only [two, Int.toNat_natCast, decVal, List.foldl_cons, List.foldl_nil, h1, h2]
    omega

theorem dec_four {n : Nat} (h1 : 1000 ≤ n) (h2 : n ≤ 9999) : (dec n).length = 4 := by
  have e : dec n = [UInt8.ofNat (48 + n / 1000), UInt8.ofNat (48 + n / 100 % 10), UInt8.ofNat (48 + n / 10 % 10), UInt8.ofNat (48 + n % 10)] := by
    unfold dec
    obtain ⟨k, hk⟩ : ∃ k, n + 1 = k + 4 := ⟨n - 3, by omega⟩
    rw [hk]
    simp only [decAux]
    rw [if_neg (by omega), if_neg (by omega), if_neg (by omega), if_pos (by omega)]
    simp only [Nat.div_div_eq_div_mul, List.cons_append, List.nil_append]
  rw [e]
  rfl

theorem dec_four_digits {n : Nat} (h1 : 1000 ≤ n) (h2 : n ≤ 9999) : Digits 4 n (dec n) := ⟨dec_four h1 h2, dec_digits n, decVal_dec n⟩

/-- What a time in the calendar is. -/
theorem at_local {off t : Int} {y mo d h mi : Nat} (ha : At off t y mo d h mi) :
    (fixedZone off).localtime t = some (fieldsOf (t + off)) ∧ (fieldsOf (t + off)).year + 1900 = y ∧ (fieldsOf (t + off)).mon = (mo : Int) - 1 ∧ (fieldsOf (t + off)).mday = d ∧
      (fieldsOf (t + off)).hour = h ∧ (fieldsOf (t + off)).min = mi ∧ (fieldsOf (t + off)).wday = (dayOf y mo d + 4) % 7 ∧ localDay off t = dayOf y mo d := by
  obtain ⟨hd, hh, hm, s, hs, e⟩ := ha
  have e' := e
  unfold secondsOf at e
  have hD := dayOf_nonneg hd
  have hq : (t + off) / 86400 = dayOf y mo d := by omega
  obtain ⟨f1, f2, f3⟩ := fields_day hd hq
  have hy := hd.2.1
  refine ⟨?_, f1, f2, f3, ?_, ?_, ?_, hq⟩
  · show gmtime (t + off) = _
    unfold gmtime
    rw [if_pos]
    have := hd.1
    exact inInt_of (by omega) (by omega)
  · show (t + off) / 3600 % 24 = h
    omega
  · show (t + off) / 60 % 60 = mi
    omega
  · show ((t + off) / 86400 + 4) % 7 = _
    rw [hq]

theorem now_fields {off now : Int} (ho : IsOffset off) (hn : IsNow now) :
    (fixedZone off).localtime now = some (fieldsOf (now + off)) ∧ (fieldsOf (now + off)).wday = (localDay off now + 4) % 7 := by
  obtain ⟨a, b⟩ := now_local ho hn
  exact ⟨fixed_local off now a (by omega), rfl⟩

theorem clock_text {tm : Tm} {h mi : Nat} (h1 : tm.hour = h) (h2 : tm.min = mi) (hh : h ≤ 23) (hm : mi ≤ 59) : IsClock h mi (clockOf tm) ∧ (clockOf tm).length = 5 := by
  unfold clockOf
  rw [h1, h2]
  exact ⟨⟨two h, two mi, two_digits (by omega), two_digits (by omega), rfl⟩, rfl⟩

theorem dayAbbrev_text {n : Int} (h1 : 0 ≤ n) (h2 : n ≤ 6) : IsDayName n (dayAbbrev.getD n.toNat []) ∧ (dayAbbrev.getD n.toNat []).length = 3 := by
  have c : n = 0 ∨ n = 1 ∨ n = 2 ∨ n = 3 ∨ n = 4 ∨ n = 5 ∨ n = 6 := by omega
  rcases c with c | c | c | c | c | c | c <;> subst c <;> exact ⟨⟨by decide, by decide +kernel⟩, by decide +kernel⟩

theorem monthFull_text {m : Nat} (h1 : 1 ≤ m) (h2 : m ≤ 12) : IsMonthName m (monthFull.getD ((m : Int) - 1).toNat []) ∧ (monthFull.getD ((m : Int) - 1).toNat []).length ≤ 9 := by
  have c : m = 1 ∨ m = 2 ∨ m = 3 ∨ m = 4 ∨ m = 5 ∨ m = 6 ∨ m = 7 ∨ m = 8 ∨ m = 9 ∨ m = 10 ∨ m = 11 ∨ m = 12 := by omega
  rcases c with c | c | c | c | c | c | c | c | c | c | c | c <;> subst c <;> exact ⟨⟨by decide, by decide +kernel⟩, by decide +kernel⟩

theorem strftime_fits {s : Str} (h : s.length < 20) : strftime s = some s := if_pos h

/-- The texts, by the day. -/
theorem recent_today {off now t : Int} {y mo d h mi : Nat} (ho : IsOffset off) (hn : IsNow now) (ha : At off t y mo d h mi) (h1 : 3600 ≤ now - t) (hd : localDay off now = dayOf y mo d) :
    relativeDate (fixedZone off) now t = some (bs "Today " ++ clockOf (fieldsOf (t + off))) := by
  obtain ⟨l, _, _, _, a1, a2, a3, a4⟩ := at_local ha
  obtain ⟨n1, n2⟩ := now_fields ho hn
  have hc := (clock_text a1 a2 ha.2.1 ha.2.2.1).2
  have hlt : now - t < 86400 := by unfold localDay at hd a4; omega
  unfold relativeDate
  rw [if_neg (by omega), if_neg (by simp only [day, hour, minute]; omega), if_neg (by omega), n1, l]
  simp only [Option.bind_some, recent]
  rw [if_pos ⟨by simp only [day, hour, minute]; omega, by rw [a3, n2, hd], by simp only [day, hour, minute]; omega⟩, strftime_fits]
  rw [List.length_append, hc]
  decide

theorem recent_yesterday {off now t : Int} {y mo d h mi : Nat} (ho : IsOffset off) (hn : IsNow now) (ha : At off t y mo d h mi) (h1 : 3600 ≤ now - t) (hd : localDay off now = dayOf y mo d + 1) :
    relativeDate (fixedZone off) now t = some (bs "Yest. " ++ clockOf (fieldsOf (t + off))) := by
  obtain ⟨l, _, _, _, a1, a2, a3, a4⟩ := at_local ha
  obtain ⟨n1, n2⟩ := now_fields ho hn
  have hc := (clock_text a1 a2 ha.2.1 ha.2.2.1).2
  have hlt : now - t < 2 * 86400 := by unfold localDay at hd a4; omega
  unfold relativeDate
  rw [if_neg (by omega), if_neg (by simp only [day, hour, minute]; omega), if_neg (by omega), n1, l]
  simp only [Option.bind_some, recent]
  rw [if_neg (by rw [a3, n2, hd]; omega), if_pos ⟨by simp only [day, hour, minute]; omega, by rw [a3, n2, hd]; omega⟩, strftime_fits]
  rw [List.length_append, hc]
  decide

theorem recent_weekday {off now t : Int} {y mo d h mi : Nat} (ho : IsOffset off) (hn : IsNow now) (ha : At off t y mo d h mi) (hd1 : dayOf y mo d + 2 ≤ localDay off now)
    (hd2 : localDay off now ≤ dayOf y mo d + 6) :
    relativeDate (fixedZone off) now t = some (dayAbbrev.getD ((dayOf y mo d + 4) % 7).toNat [] ++ bs ". " ++ clockOf (fieldsOf (t + off))) := by
  obtain ⟨l, _, _, _, a1, a2, a3, a4⟩ := at_local ha
  obtain ⟨n1, n2⟩ := now_fields ho hn
  have hc := (clock_text a1 a2 ha.2.1 ha.2.2.1).2
  have hlt : 86400 < now - t ∧ now - t < 7 * 86400 := by unfold localDay at hd1 hd2 a4; omega
  have hw := (dayAbbrev_text (n := (dayOf y mo d + 4) % 7) (by omega) (by omega)).2
  unfold relativeDate
  rw [if_neg (by omega), if_neg (by simp only [day, hour, minute]; omega), if_neg (by omega), n1, l]
  simp only [Option.bind_some, recent]
  rw [if_neg (by rw [a3, n2]; omega), if_neg (by rw [a3, n2]; omega), if_pos ⟨by simp only [day, hour, minute]; omega, by rw [a3, n2]; omega⟩, a3, strftime_fits]
  rw [List.length_append, List.length_append, hc, hw]
  decide

theorem recent_month {off now t : Int} {y mo d h mi : Nat} (ho : IsOffset off) (hn : IsNow now) (ha : At off t y mo d h mi) (hd1 : dayOf y mo d + 7 ≤ localDay off now)
    (hd2 : now - t ≤ 180 * 86400) :
    relativeDate (fixedZone off) now t = some (monthFull.getD ((mo : Int) - 1).toNat [] ++ [32] ++ two d) := by
  obtain ⟨l, _, b2, b3, a1, a2, a3, a4⟩ := at_local ha
  obtain ⟨n1, n2⟩ := now_fields ho hn
  have hlt : 6 * 86400 < now - t := by unfold localDay at hd1 a4; omega
  have hm := (monthFull_text ha.1.2.2.1 ha.1.2.2.2.1).2
  have hse : now - t ≤ 7 * 86400 → localDay off now = dayOf y mo d + 7 := by
    intro k
    unfold localDay at hd1 a4 ⊢
    omega
  unfold relativeDate
  rw [if_neg (by omega), if_neg (by simp only [day, hour, minute]; omega), if_neg (by omega), n1, l]
  simp only [Option.bind_some, recent]
  rw [if_neg (by simp only [day, hour, minute]; omega), if_neg, if_neg, b2, b3, strftime_fits]
  · rw [List.length_append, List.length_append]
    simp only [two, List.length_cons, List.length_nil]
    omega
  · rintro ⟨k1, k2⟩
    simp only [day, hour, minute] at k1
    rw [a3, n2, hse (by omega)] at k2
    omega
  · rintro ⟨k1, k2⟩
    simp only [day, hour, minute] at k1
    rw [a3, n2, hse (by omega)] at k2
    omega

theorem old_date {off now t : Int} {y mo d h mi : Nat} (ha : At off t y mo d h mi) (hd : 180 * 86400 < now - t) :
    relativeDate (fixedZone off) now t = some (dec y ++ [45] ++ two mo ++ [45] ++ two d) := by
  obtain ⟨l, b1, b2, b3, _⟩ := at_local ha
  unfold relativeDate
  have e : ((mo : Int) - 1 + 1) = (mo : Int) := by omega
  rw [if_neg (by omega), if_pos (by simp only [day, hour, minute]; omega), l]
  simp only [Option.bind_some, dateOf, b1, b2, b3, Int.toNat_natCast, e]
  rw [strftime_fits]
  have := ha.1.1
  have := ha.1.2.1
  simp only [List.length_append, List.length_cons, List.length_nil, two, dec_four (show 1000 ≤ y by omega) (by omega)]
  decide

theorem minutes_text {z : Zone} {now t : Int} (h1 : t ≤ now) (h2 : now - t < 3600) : relativeDate z now t = some (dec ((now - t) / 60).toNat ++ bs " mins. ago") := by
  unfold relativeDate
  rw [if_neg (by omega), if_neg (by simp only [day, hour, minute]; omega), if_pos h2, List.take_of_length_le]
  obtain ⟨n, hn⟩ : ∃ n : Nat, (now - t) / 60 = n := ⟨((now - t) / 60).toNat, by omega⟩
  rw [hn, Int.toNat_natCast]
  have k : ∀ n : Fin 60, (dec n.val ++ bs " mins. ago").length ≤ maxLen - 1 := by decide +kernel
  exact k ⟨n, by omega⟩

/-- Every time of the calendar has a day and a time of day. -/
theorem at_exists {off t : Int} (h : InCalendar off t) : ∃ y mo d h mi, At off t y mo d h mi := by
  obtain ⟨h1, h2⟩ := h
  have r := fieldsOf_inRange (t + off)
  have hday := fieldsOf_day (t + off)
  have hsec := seconds_fieldsOf (t + off)
  have e9 : secondsOf 9999 12 31 23 59 59 + 1 = 86400 * yearDays 10000 := by
    unfold secondsOf
    rw [← dayNumber_eq 9999 12 31 (by decide) (by decide) (by decide)]
    decide +kernel
  obtain ⟨y1, y2⟩ := yearOf_spec ((t + off) / 86400)
  have ey : (fieldsOf (t + off)).year + 1900 = yearOf ((t + off) / 86400) := by
    show yearOf ((t + off) / 86400) - 1900 + 1900 = _
    omega
  have hy1 : 1970 ≤ yearOf ((t + off) / 86400) := by
    have k : ¬(yearOf ((t + off) / 86400) + 1 ≤ 1970) := by
      intro k
      have := yearDays_mono k
      have e : yearDays 1970 = 0 := by decide
      omega
    omega
  have hy2 : yearOf ((t + off) / 86400) ≤ 9999 := by
    have k : ¬(10000 ≤ yearOf ((t + off) / 86400)) := by
      intro k
      have := yearDays_mono k
      omega
    omega
  rw [← ey] at hy1 hy2
  obtain ⟨y, hy⟩ : ∃ y : Nat, (fieldsOf (t + off)).year + 1900 = y := ⟨((fieldsOf (t + off)).year + 1900).toNat, by omega⟩
  obtain ⟨m, hm⟩ : ∃ m : Nat, (fieldsOf (t + off)).mon = (m : Int) - 1 := ⟨((fieldsOf (t + off)).mon + 1).toNat, by have := r.mon; omega⟩
  obtain ⟨d, hd⟩ : ∃ d : Nat, (fieldsOf (t + off)).mday = d := ⟨(fieldsOf (t + off)).mday.toNat, by have := r.mday; omega⟩
  obtain ⟨h, hh⟩ : ∃ d : Nat, (fieldsOf (t + off)).hour = d := ⟨(fieldsOf (t + off)).hour.toNat, by have := r.hour; omega⟩
  obtain ⟨mi, hmi⟩ : ∃ d : Nat, (fieldsOf (t + off)).min = d := ⟨(fieldsOf (t + off)).min.toNat, by have := r.min; omega⟩
  obtain ⟨s, hs⟩ : ∃ d : Nat, (fieldsOf (t + off)).sec = d := ⟨(fieldsOf (t + off)).sec.toNat, by have := r.sec; omega⟩
  have rm := r.mon
  have rd := r.mday
  rw [hy, hm, hd] at hday
  rw [hy] at rd hy1 hy2
  rw [hm] at rm rd
  rw [hd, ← daysIn_eq y m (by omega) (by omega)] at rd
  refine ⟨y, m, d, h, mi, ⟨by omega, by omega, by omega, by omega, by omega, by omega⟩, by have := r.hour; omega, by have := r.min; omega, s, by have := r.sec; omega, ?_⟩
  rw [dayNumber_eq y m d (by omega) (by omega) (by omega)] at hday
  have e1 : (t + off) / 3600 % 24 = h := hh
  have e2 : (t + off) / 60 % 60 = mi := hmi
  have e3 : (t + off) % 60 = s := hs
  unfold secondsOf
  rw [hday]
  omega

/-! ## Reading the texts -/

/-- What kind of text it is. -/
def kind (s : Str) : Nat :=
  if s.getLast? = some 111 then 0
  else if s[4]? = some 45 then 1
  else if s.head? = some 84 ∧ s[3]? = some 97 then 2
  else if s.head? = some 89 then 3
  else if s[3]? = some 46 then 4
  else 5

theorem two_last {n : Nat} (h : n ≤ 99) (s : Str) : (s ++ two n).getLast? ≠ some 111 := by
  have k : ∀ n : Fin 100, (two (n.val : Int)).getLast? ≠ some 111 ∧ two (n.val : Int) ≠ [] := by decide +kernel
  have := k ⟨n, by omega⟩
  rw [List.getLast?_append]
  intro e
  have k2 := this.1
  simp only [two, List.getLast?_cons_cons, List.getLast?_singleton, Option.some_or] at e k2
  exact k2 e

theorem kind_minutes (n : Nat) : kind (dec n ++ bs " mins. ago") = 0 := by
  unfold kind
  rw [if_pos]
  rw [List.getLast?_append]
  rfl

theorem kind_date {y m d : Nat} (h1 : 1000 ≤ y) (h2 : y ≤ 9999) (hd : d ≤ 99) : kind (dec y ++ [45] ++ two m ++ [45] ++ two d) = 1 := by
  unfold kind
  rw [if_neg (two_last hd _), if_pos]
  have := dec_four h1 h2
  rw [List.append_assoc, List.append_assoc, List.append_assoc, List.getElem?_append_right (by omega), this]
  rfl

theorem kind_today {tm : Tm} {mi : Nat} (h : tm.min = mi) (hm : mi ≤ 99) : kind (bs "Today " ++ clockOf tm) = 2 := by
  unfold kind clockOf
  rw [h, ← List.append_assoc, if_neg (two_last hm _)]
  rfl

theorem kind_yesterday {tm : Tm} {mi : Nat} (h : tm.min = mi) (hm : mi ≤ 99) : kind (bs "Yest. " ++ clockOf tm) = 3 := by
  unfold kind clockOf
  rw [h, ← List.append_assoc, if_neg (two_last hm _)]
  rfl

theorem kind_weekday {tm : Tm} {mi : Nat} {n : Int} (h : tm.min = mi) (hm : mi ≤ 99) (h1 : 0 ≤ n) (h2 : n ≤ 6) : kind (dayAbbrev.getD n.toNat [] ++ bs ". " ++ clockOf tm) = 4 := by
  have c : n = 0 ∨ n = 1 ∨ n = 2 ∨ n = 3 ∨ n = 4 ∨ n = 5 ∨ n = 6 := by omega
  unfold kind clockOf
  rw [h, ← List.append_assoc, if_neg (two_last hm _)]
  rcases c with c | c | c | c | c | c | c <;> subst c <;> rfl

theorem kind_month {m d : Nat} (h1 : 1 ≤ m) (h2 : m ≤ 12) (hd : d ≤ 99) : kind (monthFull.getD ((m : Int) - 1).toNat [] ++ [32] ++ two d) = 5 := by
  have c : m = 1 ∨ m = 2 ∨ m = 3 ∨ m = 4 ∨ m = 5 ∨ m = 6 ∨ m = 7 ∨ m = 8 ∨ m = 9 ∨ m = 10 ∨ m = 11 ∨ m = 12 := by omega
  have k : ∀ d : Fin 100, kind (bs "May " ++ two (d.val : Int)) = 5 := by decide +kernel
  rcases c with c | c | c | c | c | c | c | c | c | c | c | c <;> subst c
  case inr.inr.inr.inr.inl => exact k ⟨d, by omega⟩
  all_goals
    unfold kind
    rw [if_neg (two_last hd _)]
    rfl

theorem two_injective {a b : Nat} (ha : a ≤ 99) (hb : b ≤ 99) (h : two (a : Int) = two (b : Int)) : a = b := by
  rw [← (two_digits ha).2.2, h, (two_digits hb).2.2]

theorem clock_injective {t u off : Int} {h mi h' mi' : Nat} (e1 : (fieldsOf (t + off)).hour = h) (e2 : (fieldsOf (t + off)).min = mi) (e3 : (fieldsOf (u + off)).hour = h')
    (e4 : (fieldsOf (u + off)).min = mi') (b1 : h ≤ 99) (b2 : mi ≤ 99) (b3 : h' ≤ 99) (b4 : mi' ≤ 99) (hc : clockOf (fieldsOf (t + off)) = clockOf (fieldsOf (u + off)))
    (hd : localDay off t = localDay off u) : (t + off) / 60 = (u + off) / 60 := by
  unfold clockOf at hc
  rw [e1, e2, e3, e4] at hc
  obtain ⟨a, b⟩ := List.append_inj' hc rfl
  obtain ⟨a, _⟩ := List.append_inj' a rfl
  have h1 := two_injective b1 b3 a
  have h2 := two_injective b2 b4 b
  have e1 : (t + off) / 3600 % 24 = h := e1
  have e2 : (t + off) / 60 % 60 = mi := e2
  have e3 : (u + off) / 3600 % 24 = h' := e3
  have e4 : (u + off) / 60 % 60 = mi' := e4
  unfold localDay at hd
  omega

theorem day_injective {y m d y' m' d' : Nat} (h : IsDay y m d) (h' : IsDay y' m' d') (em : m = m') (ed : d = d') (h1 : dayOf y m d < dayOf y' m' d' + 364) (h2 : dayOf y' m' d' < dayOf y m d + 364) :
    dayOf y m d = dayOf y' m' d' := by
  subst em ed
  have e := dayNumber_eq y m d h.1 h.2.2.1 h.2.2.2.1
  have e' := dayNumber_eq y' m d h'.1 h.2.2.1 h.2.2.2.1
  have grow : ∀ k : Nat, ∀ a : Int, dayNumber a ((m : Int) - 1) d + 364 ≤ dayNumber (a + k + 1) ((m : Int) - 1) d := by
    intro k
    induction k with
    | zero => intro a; have := dayNumber_year_lt a ((m : Int) - 1) d; simpa using this
    | succ k ih =>
      intro a
      have h1 := ih a
      have h2 := dayNumber_year_lt (a + k + 1) ((m : Int) - 1) d
      have e : a + ((k + 1 : Nat) : Int) + 1 = a + k + 1 + 1 := by omega
      rw [e]
      omega
  rcases Nat.lt_trichotomy y y' with k | k | k
  · have := grow (y' - y - 1) y
    have e : (y : Int) + ((y' - y - 1 : Nat) : Int) + 1 = y' := by omega
    rw [e] at this
    omega
  · rw [k]
  · have := grow (y - y' - 1) y'
    have e : (y' : Int) + ((y - y' - 1 : Nat) : Int) + 1 = y := by omega
    rw [e] at this
    omega

/-- The text of a time of the calendar: what it is, and when. -/
inductive Shown (off now t : Int) (s : Str) : Prop
  | minutes : now - t < 3600 → s = dec ((now - t) / 60).toNat ++ bs " mins. ago" → Shown off now t s
  | today : localDay off now = localDay off t → s = bs "Today " ++ clockOf (fieldsOf (t + off)) → Shown off now t s
  | yesterday : localDay off now = localDay off t + 1 → s = bs "Yest. " ++ clockOf (fieldsOf (t + off)) → Shown off now t s
  | weekday : localDay off t + 2 ≤ localDay off now → localDay off now ≤ localDay off t + 6 → s = dayAbbrev.getD ((localDay off t + 4) % 7).toNat [] ++ bs ". " ++ clockOf (fieldsOf (t + off)) → Shown off now t s
  | month (y mo d : Nat) : localDay off t + 7 ≤ localDay off now → now - t ≤ 180 * 86400 → IsDay y mo d → localDay off t = dayOf y mo d →
      s = monthFull.getD ((mo : Int) - 1).toNat [] ++ [32] ++ two d → Shown off now t s
  | date (y mo d : Nat) : 180 * 86400 < now - t → IsDay y mo d → localDay off t = dayOf y mo d → s = dec y ++ [45] ++ two mo ++ [45] ++ two d → Shown off now t s

theorem shown {off now t : Int} (ho : IsOffset off) (hn : IsNow now) (hc : InCalendar off t) (ht : t ≤ now) : ∃ s, relativeDate (fixedZone off) now t = some s ∧ Shown off now t s := by
  obtain ⟨y, mo, d, h, mi, ha⟩ := at_exists hc
  have hl := (at_local ha).2.2.2.2.2.2.2
  have hle : localDay off t ≤ localDay off now := by unfold localDay; omega
  by_cases h1 : now - t < 3600
  · exact ⟨_, minutes_text ht h1, .minutes h1 rfl⟩
  by_cases h2 : 180 * 86400 < now - t
  · exact ⟨_, old_date ha h2, .date y mo d h2 ha.1 hl rfl⟩
  by_cases h3 : localDay off now = localDay off t
  · exact ⟨_, recent_today ho hn ha (by omega) (by omega), .today h3 rfl⟩
  by_cases h4 : localDay off now = localDay off t + 1
  · exact ⟨_, recent_yesterday ho hn ha (by omega) (by omega), .yesterday h4 rfl⟩
  by_cases h5 : localDay off now ≤ localDay off t + 6
  · refine ⟨_, recent_weekday ho hn ha (by omega) (by omega), .weekday (by omega) h5 ?_⟩
    rw [hl]
  · exact ⟨_, recent_month ho hn ha (by omega) (by omega), .month y mo d (by omega) (by omega) ha.1 hl rfl⟩

theorem fields_clock (off t : Int) : ∃ h mi : Nat, h ≤ 99 ∧ mi ≤ 99 ∧ (fieldsOf (t + off)).hour = h ∧ (fieldsOf (t + off)).min = mi := by
  have r := fieldsOf_inRange (t + off)
  have r1 := r.hour
  have r2 := r.min
  exact ⟨(fieldsOf (t + off)).hour.toNat, (fieldsOf (t + off)).min.toNat, by omega, by omega, by omega, by omega⟩

theorem dayAbbrev_injective {a b : Int} (h1 : 0 ≤ a) (h2 : a ≤ 6) (h3 : 0 ≤ b) (h4 : b ≤ 6) (h : dayAbbrev.getD a.toNat [] = dayAbbrev.getD b.toNat []) : a = b := by
  have k : ∀ a b : Fin 7, dayAbbrev.getD a.val [] = dayAbbrev.getD b.val [] → a = b := by decide +kernel
  have := k ⟨a.toNat, by omega⟩ ⟨b.toNat, by omega⟩ h
  rw [Fin.mk.injEq] at this
  omega

theorem monthFull_injective {a b : Nat} (h1 : 1 ≤ a) (h2 : a ≤ 12) (h3 : 1 ≤ b) (h4 : b ≤ 12) (h : monthFull.getD ((a : Int) - 1).toNat [] = monthFull.getD ((b : Int) - 1).toNat []) : a = b := by
  have k : ∀ a b : Fin 12, monthFull.getD a.val [] = monthFull.getD b.val [] → a = b := by decide +kernel
  have := k ⟨((a : Int) - 1).toNat, by omega⟩ ⟨((b : Int) - 1).toNat, by omega⟩ h
  rw [Fin.mk.injEq] at this
  omega

theorem shown_kind {off now t : Int} {s : Str} (h : Shown off now t s) : kind s = 0 ∧ now - t < 3600 ∧ s = dec ((now - t) / 60).toNat ++ bs " mins. ago" ∨
    kind s = 2 ∧ localDay off now = localDay off t ∧ s = bs "Today " ++ clockOf (fieldsOf (t + off)) ∨
    kind s = 3 ∧ localDay off now = localDay off t + 1 ∧ s = bs "Yest. " ++ clockOf (fieldsOf (t + off)) ∨
    kind s = 4 ∧ (localDay off t + 2 ≤ localDay off now ∧ localDay off now ≤ localDay off t + 6) ∧ s = dayAbbrev.getD ((localDay off t + 4) % 7).toNat [] ++ bs ". " ++ clockOf (fieldsOf (t + off)) ∨
    kind s = 5 ∧ (∃ y mo d, (localDay off t + 7 ≤ localDay off now ∧ now - t ≤ 180 * 86400) ∧ IsDay y mo d ∧ localDay off t = dayOf y mo d ∧ s = monthFull.getD ((mo : Int) - 1).toNat [] ++ [32] ++ two d) ∨
    kind s = 1 ∧ (∃ y mo d, 180 * 86400 < now - t ∧ IsDay y mo d ∧ localDay off t = dayOf y mo d ∧ s = dec y ++ [45] ++ two mo ++ [45] ++ two d) := by
  obtain ⟨hh, mi, b1, b2, c1, c2⟩ := fields_clock off t
  have dl : ∀ y mo d, IsDay y mo d → d ≤ 99 := by
    intro y mo d hd
    have := hd.2.2.2.2.2
    unfold daysIn at this
    split at this <;> (try split at this) <;> omega
  cases h with
  | minutes h1 h2 => exact .inl ⟨by rw [h2]; exact kind_minutes _, h1, h2⟩
  | today h1 h2 => exact .inr (.inl ⟨by rw [h2]; exact kind_today c2 b2, h1, h2⟩)
  | yesterday h1 h2 => exact .inr (.inr (.inl ⟨by rw [h2]; exact kind_yesterday c2 b2, h1, h2⟩))
  | weekday h1 h1' h2 => exact .inr (.inr (.inr (.inl ⟨by rw [h2]; exact kind_weekday c2 b2 (by omega) (by omega), ⟨h1, h1'⟩, h2⟩)))
  | month y mo d h1 h1' h3 h4 h2 =>
    exact .inr (.inr (.inr (.inr (.inl ⟨by rw [h2]; exact kind_month h3.2.2.1 h3.2.2.2.1 (dl _ _ _ h3), y, mo, d, ⟨h1, h1'⟩, h3, h4, h2⟩))))
  | date y mo d h1 h3 h4 h2 =>
    exact .inr (.inr (.inr (.inr (.inr ⟨by rw [h2]; exact kind_date (by have := h3.1; omega) h3.2.1 (dl _ _ _ h3), y, mo, d, h1, h3, h4, h2⟩))))

theorem append_same {a b c : Str} (h : a ++ b = a ++ c) : b = c := List.append_cancel_left h

/-- Two times with the same text. -/
theorem shown_same {off now t u : Int} {s : Str} (h : Shown off now t s) (h' : Shown off now u s) :
    (now - t < 3600 ∧ now - u < 3600 ∧ (now - t) / 60 = (now - u) / 60) ∨ (localDay off t = localDay off u ∧ (localDay off now ≤ localDay off t + 6 → now - t ≤ 180 * 86400 → (t + off) / 60 = (u + off) / 60)) ∨ (t > now ∨ u > now) := by
  obtain ⟨hh, mi, b1, b2, c1, c2⟩ := fields_clock off t
  obtain ⟨hh', mi', b1', b2', c1', c2'⟩ := fields_clock off u
  by_cases hf : t > now ∨ u > now
  · exact .inr (.inr hf)
  have dl : ∀ y mo d, IsDay y mo d → d ≤ 99 := by
    intro y mo d hd
    have := hd.2.2.2.2.2
    unfold daysIn at this
    split at this <;> (try split at this) <;> omega
  rcases shown_kind h with ⟨k, p, e⟩ | ⟨k, p, e⟩ | ⟨k, p, e⟩ | ⟨k, p, e⟩ | ⟨k, y, mo, d, p, q, r, e⟩ | ⟨k, y, mo, d, p, q, r, e⟩ <;>
    rcases shown_kind h' with ⟨k', p', e'⟩ | ⟨k', p', e'⟩ | ⟨k', p', e'⟩ | ⟨k', p', e'⟩ | ⟨k', y', mo', d', p', q', r', e'⟩ | ⟨k', y', mo', d', p', q', r', e'⟩ <;>
    first
    | (exfalso; rw [k] at k'; exact absurd k' (by decide))
    | skip
  · left
    rw [e] at e'
    have := dec_injective (List.append_cancel_right e')
    omega
  · right; left
    rw [e] at e'
    have hd : localDay off t = localDay off u := by omega
    exact ⟨hd, fun _ _ => clock_injective c1 c2 c1' c2' b1 b2 b1' b2' (append_same e') hd⟩
  · right; left
    rw [e] at e'
    have hd : localDay off t = localDay off u := by omega
    exact ⟨hd, fun _ _ => clock_injective c1 c2 c1' c2' b1 b2 b1' b2' (append_same e') hd⟩
  · right; left
    rw [e] at e'
    obtain ⟨e1, e2⟩ := List.append_inj' e' rfl
    have := dayAbbrev_injective (by omega) (by omega) (by omega) (by omega) (List.append_cancel_right e1)
    have hd : localDay off t = localDay off u := by omega
    exact ⟨hd, fun _ _ => clock_injective c1 c2 c1' c2' b1 b2 b1' b2' e2 hd⟩
  · right; left
    rw [e] at e'
    obtain ⟨e1, e2⟩ := List.append_inj' e' rfl
    have hm := monthFull_injective q.2.2.1 q.2.2.2.1 q'.2.2.1 q'.2.2.2.1 (List.append_cancel_right e1)
    have hd := two_injective (dl _ _ _ q) (dl _ _ _ q') e2
    have := day_injective q q' hm hd (by rw [← r, ← r']; unfold localDay; omega) (by rw [← r, ← r']; unfold localDay; omega)
    exact ⟨by omega, by intro w; omega⟩
  · right; left
    rw [e] at e'
    obtain ⟨e1, e2⟩ := List.append_inj' e' rfl
    have hd := two_injective (dl _ _ _ q) (dl _ _ _ q') e2
    obtain ⟨e1, e2⟩ := List.append_inj' (List.append_cancel_right e1) rfl
    have hm := two_injective (by have := q.2.2.2.1; omega) (by have := q'.2.2.2.1; omega) e2
    have hy := dec_injective (List.append_cancel_right e1)
    refine ⟨by rw [r, r', hy, hm, hd], by intro w w2; omega⟩

end Notmuch.RelDate
