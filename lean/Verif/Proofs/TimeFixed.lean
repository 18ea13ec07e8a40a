import Verif.Proofs.TimeAgo

/-! # Proofs: times in a zone that is always the same time ahead -/

namespace Notmuch.Time

theorem yearOf_bounds (d : Int) (h1 : 0 ≤ d) (h2 : d < 500000000000) : 1970 ≤ yearOf d ∧ yearOf d ≤ 1500000000 := by
  have s := yearOf_spec d
  unfold yearDays at s
  omega

theorem fieldsOf_year (t : Int) (h1 : 0 ≤ t) (h2 : t < 2 ^ 55) : 70 ≤ (fieldsOf t).year ∧ (fieldsOf t).year ≤ 1500000000 := by
  have := yearOf_bounds (t / 86400) (by omega) (by omega)
  show 70 ≤ yearOf (t / 86400) - 1900 ∧ yearOf (t / 86400) - 1900 ≤ 1500000000
  omega

theorem gmtime_eq (t : Int) (h1 : 0 ≤ t) (h2 : t < 2 ^ 55) : gmtime t = some (fieldsOf t) := by
  unfold gmtime
  have := fieldsOf_year t h1 h2
  rw [if_pos (inInt_of (by omega) (by omega))]

theorem fixed_local (off ref : Int) (h1 : 0 ≤ ref + off) (h2 : ref + off < 2 ^ 55) : (fixedZone off).localtime ref = some (fieldsOf (ref + off)) := gmtime_eq _ h1 h2

theorem fixed_mktime (off t : Int) (tm : Tm) (h : seconds tm - off = t) (ht : 0 ≤ t) : (fixedZone off).mktime tm = some t := by
  show (if seconds tm - off = -1 then none else some (seconds tm - off)) = some t
  rw [h, if_neg (by omega)]

theorem fixed_sane (t : Int) (l : List (Nat × TimeUnit)) (h1 : 0 ≤ t) (h2 : t < 2 ^ 55) (hl : ∀ u, total l u ≤ 100000000) : Sane (fieldsOf t) l := by
  have := fieldsOf_year t h1 h2
  exact ⟨hl, fieldsOf_inRange t, by omega⟩

/-- The seconds of a time some days, hours, minutes and seconds from another. -/
theorem seconds_from (t d : Int) (tm : Tm) (h1 : tm.year = (fieldsOf t).year) (h2 : tm.mon = (fieldsOf t).mon) (h3 : tm.mday = (fieldsOf t).mday + d) :
    seconds tm = 86400 * (t / 86400 + d) + 3600 * tm.hour + 60 * tm.min + tm.sec := by
  unfold seconds
  rw [h1, h2, h3, dayNumber_day, fieldsOf_day]

theorem rounded_seconds (t : Int) (l : List (Nat × TimeUnit)) (u : TimeUnit) (r : Round) (hm : total l .month = 0) (hy : total l .year = 0) (hw : u ≠ .week) (hmy : u ≠ .month ∧ u ≠ .year) (hu : FinestUnit l u) :
    seconds (rounded u (agoTm (fieldsOf t) l) r) = endingAt u (t - agoSeconds l) r := by
  have f : ∀ v : TimeUnit, v.rank < u.rank → total l v = 0 := fun v hv => total_finer hu hv
  have f1 := f .second
  have f2 := f .minute
  have f3 := f .hour
  clear f
  have es : (fieldsOf t).sec = t % 60 := rfl
  have em : (fieldsOf t).min = t / 60 % 60 := rfl
  have eh : (fieldsOf t).hour = t / 3600 % 24 := rfl
  cases u
  case week => exact absurd rfl hw
  case month => exact absurd rfl hmy.1
  case year => exact absurd rfl hmy.2
  case second =>
    rw [seconds_from t (-(total l .day : Int) - 7 * total l .week)]
    · cases r <;> simp [rounded, beginning, agoTm, es, em, eh, endingAt, beginningAt, TimeUnit.size, agoSeconds] <;> omega
    all_goals cases r <;> simp [rounded, beginning, agoTm, hm, hy] <;> omega
  case minute =>
    have f1 := f1 (by decide)
    rw [seconds_from t (-(total l .day : Int) - 7 * total l .week)]
    · cases r <;> simp [rounded, beginning, agoTm, es, em, eh, endingAt, beginningAt, TimeUnit.size, agoSeconds, f1] <;> omega
    all_goals cases r <;> simp [rounded, beginning, agoTm, hm, hy] <;> omega
  case hour =>
    have f1 := f1 (by decide)
    have f2 := f2 (by decide)
    rw [seconds_from t (-(total l .day : Int) - 7 * total l .week)]
    · cases r <;> simp [rounded, beginning, agoTm, es, em, eh, endingAt, beginningAt, TimeUnit.size, agoSeconds, f1, f2] <;> omega
    all_goals cases r <;> simp [rounded, beginning, agoTm, hm, hy] <;> omega
  case day =>
    have f1 := f1 (by decide)
    have f2 := f2 (by decide)
    have f3 := f3 (by decide)
    rw [seconds_from t (-(total l .day : Int) - 7 * total l .week + if r = .up ∨ r = .upInclusive then 1 else 0)]
    · cases r <;> simp [rounded, beginning, agoTm, es, em, eh, endingAt, beginningAt, TimeUnit.size, agoSeconds, f1, f2, f3] <;> omega
    all_goals cases r <;> simp [rounded, beginning, agoTm, hm, hy] <;> omega

theorem fixed_week (off t : Int) (tm : Tm) (D : Int) (r : Round) (hr : r ≠ .none) (hs : seconds tm = 86400 * D) (ht : t = beginningAt .week (86400 * D)) (h0 : 0 ≤ t - off) (h1 : 0 ≤ t) (h2 : D < 300000000000) :
    ((weekTm (fixedZone off) tm r).bind (fixedZone off).mktime) = some (endingAt .week (86400 * D) r - off) := by
  have eb : beginningAt .week (86400 * D) = 86400 * (D - (D + 4) % 7) := by
    simp only [beginningAt, if_true]
    omega
  rw [eb] at ht
  have e1 : (fixedZone off).mktime tm = some (86400 * D - off) := fixed_mktime off _ tm (by omega) (by omega)
  have e2 : (fixedZone off).localtime (86400 * D - off) = some (fieldsOf (86400 * D)) := by
    rw [fixed_local off _ (by omega) (by omega)]
    congr 2
    omega
  have e3 : 86400 * D / 86400 = D := by omega
  have ew : (fieldsOf (86400 * D)).wday = (D + 4) % 7 := by
    show (86400 * D / 86400 + 4) % 7 = _
    rw [e3]
  unfold weekTm
  rw [if_neg hr, e1]
  simp only [Option.bind_some, e2, ew]
  rcases round_cases r hr with k | k | k <;> subst k
  · simp only [reduceCtorEq, if_false, Option.bind_some]
    apply fixed_mktime
    · rw [seconds_from (86400 * D) (-((D + 4) % 7)), e3]
      · simp only [endingAt, eb]
        omega
      · rfl
      · rfl
      · simp only
        omega
    · simp only [endingAt, eb]
      omega
  · simp only [if_true, Option.bind_some]
    apply fixed_mktime
    · rw [seconds_from (86400 * D) (7 - (D + 4) % 7), e3]
      · simp only [endingAt, eb, TimeUnit.size, reduceCtorEq, if_false]
        omega
      · rfl
      · rfl
      · rfl
    · simp only [endingAt, eb, TimeUnit.size, reduceCtorEq, if_false]
      omega
  · simp only [reduceCtorEq, if_false, if_true, Option.bind_some]
    apply fixed_mktime
    · rw [seconds_from (86400 * D) (7 - (D + 4) % 7), e3]
      · simp only [endingAt, eb, TimeUnit.size, reduceCtorEq, if_false]
        omega
      · rfl
      · rfl
      · rfl
    · simp only [endingAt, eb, TimeUnit.size, reduceCtorEq, if_false]
      omega

/-- Amounts without months and years, in a zone that is always the same time ahead. -/
theorem fixed_ago (off ref : Int) (l : List (Nat × TimeUnit)) (u : TimeUnit) (r : Round) (h1 : 0 ≤ ref + off) (h2 : ref + off < 2 ^ 54) (hl : ∀ u, total l u ≤ 100000000)
    (hn : ∀ p ∈ l, p.2 ≠ .month ∧ p.2 ≠ .year) (hu : FinestUnit l u)
    (hp : 0 ≤ beginningAt u (ref + off - agoSeconds l) - off ∧ 0 ≤ beginningAt u (ref + off - agoSeconds l)) :
    gOut (fixedZone off) (gAgo l) ref r = .ok (endingAt u (ref + off - agoSeconds l) r - off) := by
  have hz := fixed_local off ref h1 (by omega)
  have hs := fixed_sane (ref + off) l h1 (by omega) hl
  have hm : total l .month = 0 := total_none (fun p hp => (hn p hp).1)
  have hy : total l .year = 0 := total_none (fun p hp => (hn p hp).2)
  obtain ⟨n, hmem⟩ := hu.1
  have hmy : u ≠ .month ∧ u ≠ .year := hn _ hmem
  have hsz : beginningAt u (ref + off - agoSeconds l) ≤ ref + off - agoSeconds l := by
    unfold beginningAt
    cases u
    case month => exact absurd rfl hmy.1
    case year => exact absurd rfl hmy.2
    all_goals simp [TimeUnit.size] <;> omega
  have hend : ∀ r, 0 ≤ endingAt u (ref + off - agoSeconds l) r - off := by
    intro r
    cases u
    case month => exact absurd rfl hmy.1
    case year => exact absurd rfl hmy.2
    all_goals cases r <;> simp [endingAt, TimeUnit.size] <;> simp at hp <;> omega
  by_cases hr : r = .none
  · subst hr
    rw [out_ago_none _ _ _ _ hz hs, fixed_mktime off (ref + off - agoSeconds l - off) _ ?_ (hend .none)]
    · rfl
    · rw [seconds_from (ref + off) (-(total l .day : Int) - 7 * total l .week)]
      · have es : (fieldsOf (ref + off)).sec = (ref + off) % 60 := rfl
        have em : (fieldsOf (ref + off)).min = (ref + off) / 60 % 60 := rfl
        have eh : (fieldsOf (ref + off)).hour = (ref + off) / 3600 % 24 := rfl
        simp only [agoTm, es, em, eh, agoSeconds]
        omega
      all_goals simp [agoTm, hm, hy] <;> omega
  · by_cases hw : u = .week
    · subst hw
      rw [out_ago_week _ _ _ _ _ hr hz hs hu]
      have f1 := total_finer (v := .second) hu (by decide)
      have f2 := total_finer (v := .minute) hu (by decide)
      have f3 := total_finer (v := .hour) hu (by decide)
      have f4 := total_finer (v := .day) hu (by decide)
      have t5 := hl .week
      have ea : agoSeconds l = 604800 * total l .week := by unfold agoSeconds; omega
      have eb : beginningAt .week (ref + off - agoSeconds l) = beginningAt .week (86400 * ((ref + off) / 86400 - 7 * total l .week)) := by
        rw [ea]
        simp only [beginningAt, if_true]
        omega
      have ee : endingAt .week (ref + off - agoSeconds l) r = endingAt .week (86400 * ((ref + off) / 86400 - 7 * total l .week)) r := by
        rcases round_cases r hr with k | k | k <;> subst k <;> simp only [endingAt, eb, reduceCtorEq, if_false]
      rw [eb] at hp
      rw [fixed_week off _ _ ((ref + off) / 86400 - 7 * total l .week) r hr ?_ rfl hp.1 hp.2 (by omega), ee]
      · rfl
      · rw [seconds_from (ref + off) (-(7 * total l .week))]
        · simp only [beginning]
          omega
        all_goals simp [agoTm, beginning, hm, hy, f4] <;> omega
    · rw [out_ago_round _ _ _ _ u r hr hz hs hu hw, fixed_mktime off _ _ (by rw [rounded_seconds (ref + off) l u r hm hy hw hmy hu]) (hend r)]
      rfl

/-! ## The weekday -/

/-- The day of the week before today. -/
theorem out_wday (off ref : Int) (n : Nat) (r : Round) (hr : r ≠ .none) (hn : n < 7) (h1 : 0 ≤ ref + off) (h2 : ref + off < 2 ^ 54) :
    ∃ day : Int, (ref + off) / 86400 - 7 ≤ day ∧ day < (ref + off) / 86400 ∧ (day + 4) % 7 = n ∧
      gOut (fixedZone off) (Given.none.add .wday n) ref r = outcome ((fixedZone off).mktime (rounded .day ⟨0, 0, 0, (fieldsOf (ref + off)).mday - ((ref + off) / 86400 - day), (fieldsOf (ref + off)).mon, (fieldsOf (ref + off)).year, 0⟩ r)) := by
  have hw : (fieldsOf (ref + off)).wday = ((ref + off) / 86400 + 4) % 7 := rfl
  refine ⟨(ref + off) / 86400 - (if (fieldsOf (ref + off)).wday > n then (fieldsOf (ref + off)).wday - n else (fieldsOf (ref + off)).wday + 7 - n), ?_, ?_, ?_, ?_⟩
  · rw [hw]
    split <;> omega
  · rw [hw]
    split <;> omega
  · rw [hw]
    split <;> omega
  · have hz := fixed_local off ref h1 (by omega)
    have ry := fieldsOf_year (ref + off) h1 (by omega)
    have rg := fieldsOf_inRange (ref + off)
    have r4 := mday_le rg
    have r5 := rg.mon
    have r6 := rg.wday
    generalize fieldsOf (ref + off) = now at *
    generalize hdelta : (if now.wday > n then now.wday - n else now.wday + 7 - n) = delta
    have hd : 0 ≤ delta ∧ delta ≤ 7 := by
      rw [← hdelta]
      split <;> omega
    have hi : gInit (fixedZone off) (Given.none.add .wday n) ref = some now := by
      simp [gInit, Given.isSet, Given.add, Given.none, put, hz]
    have id : inInt delta = true := inInt_of (by omega) (by omega)
    let g : Given := ⟨put (put (put (fun _ => FieldSet.unset) .wday .set) .relDay .set) .wday .unset, put (put (put (fun _ => (0 : Int)) .wday n) .relDay delta) .wday 0⟩
    have e1 : gWday now (Given.none.add .wday n) = .ok g := by
      have q1 : (Given.none.add .wday n).isSet .wday = true := by simp [Given.isSet, Given.add, put]
      have q2 : (Given.none.add .wday n).isSet .mday = false := by simp [Given.isSet, Given.add, Given.none, put]
      have q3 : (Given.none.add .wday n).tm .wday = n := by simp [Given.add, put]
      have q4 : (Given.none.add .wday n).tm .relDay = 0 := by simp [Given.add, Given.none, put]
      unfold gWday
      rw [q1, q2, q3, if_pos ⟨rfl, rfl⟩, hdelta]
      unfold gAdd
      rw [q4, Int.zero_add, if_pos id]
      rfl
    have gt : ∀ f, g.tm f = if f = .relDay then delta else 0 := by
      intro f
      show put (put (put (fun _ => (0 : Int)) .wday n) .relDay delta) .wday 0 f = _
      cases f <;> simp [put]
    have gs : ∀ f, g.set f = if f = .relDay then .set else .unset := by
      intro f
      show put (put (put (fun _ => FieldSet.unset) .wday .set) .relDay .set) .wday .unset f = _
      cases f <;> simp [put]
    have e2 : gAmpm g = .ok g := by
      unfold gAmpm Given.isSet
      rw [gs]
      simp
    unfold gOut
    rw [hi]
    simp only
    rw [gNow_simple now _ (by intro f; cases f <;> simp [Given.add, Given.none, put]), e1]
    simp only [Except.bind]
    rw [e2]
    have hf : Finest g .mday := by
      refine ⟨by decide, ?_, ?_, ?_⟩
      · intro f hf
        simp [finer] at hf
        rcases hf with rfl | rfl | rfl <;> simp [gs, relField]
      · intro hf
        simp [finer] at hf
      · right
        simp [gs, relField]
    have := rest_finest (fixedZone off) now g .mday r hr hf (by
      rcases round_cases r hr with k | k | k <;> subst k <;> simp only [Fits, base, gs, gt, finer, extra, relField, epochValue, tmField, ne_eq, not_true, if_false, List.mem_cons, List.not_mem_nil,
        or_false, reduceCtorEq, if_true, true_or, or_true, false_or, and_true, true_and, and_self, not_false_eq_true] <;>
        refine ⟨?_, ?_, ?_, ?_, ?_, ?_, ?_, ?_, ?_, ?_⟩ <;> apply inInt_of <;> (try simp) <;> omega)
    simp only [Except.bind] at this
    rw [this]
    have ei : gInstant (fixedZone off) g = (fixedZone off).mktime := by
      funext tm
      unfold gInstant Given.isSet
      rw [gs]
      simp
    rw [ei]
    congr 2
    have ed : (ref + off) / 86400 - ((ref + off) / 86400 - delta) = delta := by omega
    rcases round_cases r hr with k | k | k <;> subst k <;>
      simp [endTm, base, gs, gt, finer, extra, relField, epochValue, tmField, rounded, beginning, ed] <;> omega

theorem fixed_wday (off ref : Int) (n : Nat) (hn : n < 7) (h1 : 8 * 86400 ≤ ref + off) (h0 : 8 * 86400 ≤ ref) (h2 : ref + off < 2 ^ 54) :
    ∃ day : Int, (ref + off) / 86400 - 7 ≤ day ∧ day < (ref + off) / 86400 ∧ (day + 4) % 7 = n ∧ ∀ r, r ≠ .none →
      gOut (fixedZone off) (Given.none.add .wday n) ref r = .ok (endingAt .day (86400 * day) r - off) := by
  obtain ⟨day, a, b, c, _⟩ := out_wday off ref n .down (by decide) hn (by omega) h2
  refine ⟨day, a, b, c, ?_⟩
  intro r hr
  obtain ⟨day', a', b', c', e⟩ := out_wday off ref n r hr hn (by omega) h2
  have : day' = day := by omega
  subst this
  have hb : beginningAt .day (86400 * day') = 86400 * day' := by
    simp only [beginningAt, TimeUnit.size, reduceCtorEq, if_false]
    omega
  rw [e, fixed_mktime off (endingAt .day (86400 * day') r - off)]
  · rfl
  · rw [seconds_from (ref + off) (day' - (ref + off) / 86400 + if r = .up ∨ r = .upInclusive then 1 else 0)]
    · rcases round_cases r hr with k | k | k <;> subst k <;> simp [rounded, beginning, endingAt, hb, TimeUnit.size] <;> omega
    all_goals rcases round_cases r hr with k | k | k <;> subst k <;> simp [rounded, beginning] <;> omega
  · rcases round_cases r hr with k | k | k <;> subst k <;> simp [endingAt, hb, TimeUnit.size] <;> omega

end Notmuch.Time
