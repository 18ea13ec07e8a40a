import Verif.Proofs.TimeThms

/-! # Proofs: how long ago -/

namespace Notmuch.Time

theorem total_none {l : List (Nat × TimeUnit)} {u : TimeUnit} (h : ∀ p ∈ l, p.2 ≠ u) : total l u = 0 := by
  unfold total
  have : l.filter (fun p => p.2 == u) = [] := by
    rw [List.filter_eq_nil_iff]
    intro p hp
    simpa using h p hp
  rw [this]
  rfl

theorem total_finer {l : List (Nat × TimeUnit)} {u v : TimeUnit} (h : FinestUnit l u) (hv : v.rank < u.rank) : total l v = 0 := by
  apply total_none
  intro p hp e
  have := h.2 p hp
  rw [e] at this
  omega

/-- Nothing but amounts. -/
def gAgo (l : List (Nat × TimeUnit)) : Given := addAmounts l Given.none

theorem ago_tm (l : List (Nat × TimeUnit)) (f : Field) : (gAgo l).tm f =
    match f with
    | .relSec => (total l .second : Int)
    | .relMin => total l .minute
    | .relHour => total l .hour
    | .relDay => total l .day
    | .relWeek => total l .week
    | .relMon => total l .month
    | .relYear => total l .year
    | _ => 0 := by
  have h : ∀ u, (gAgo l).tm (unitField u) = total l u := by
    intro u
    unfold gAgo
    rw [addAmounts_tm]
    simp [Given.none]
  cases f
  case relSec => exact h .second
  case relMin => exact h .minute
  case relHour => exact h .hour
  case relDay => exact h .day
  case relWeek => exact h .week
  case relMon => exact h .month
  case relYear => exact h .year
  all_goals
    unfold gAgo
    rw [addAmounts_other l _ (by intro u; cases u <;> simp [unitField])]
    rfl

theorem ago_abs (l : List (Nat × TimeUnit)) (f : Field) (h : ∀ u, f ≠ unitField u) : (gAgo l).set f = .unset := by
  unfold gAgo
  rw [addAmounts_set, if_neg]
  · rfl
  · rw [List.mem_map]
    rintro ⟨p, _, e⟩
    exact h p.2 e.symm

theorem ago_in {l : List (Nat × TimeUnit)} {n : Nat} {u : TimeUnit} (h : (n, u) ∈ l) : (gAgo l).set (unitField u) = .set := by
  unfold gAgo
  rw [addAmounts_set, if_pos]
  rw [List.mem_map]
  exact ⟨(n, u), h, rfl⟩

theorem ago_out {l : List (Nat × TimeUnit)} {u : TimeUnit} (h : ∀ p ∈ l, p.2 ≠ u) : (gAgo l).set (unitField u) = .unset := by
  unfold gAgo
  rw [addAmounts_set, if_neg]
  · rfl
  · rw [List.mem_map]
    rintro ⟨p, hp, e⟩
    exact h p hp (unitField_inj e)

theorem ago_finer {l : List (Nat × TimeUnit)} {u v : TimeUnit} (h : FinestUnit l u) (hv : v.rank < u.rank) : (gAgo l).set (unitField v) = .unset := by
  apply ago_out
  intro p hp e
  have := h.2 p hp
  rw [e] at this
  omega

theorem ago_simple (l : List (Nat × TimeUnit)) : Simple (gAgo l) := by
  constructor
  · intro f
    unfold gAgo
    rw [addAmounts_set]
    split
    · decide
    · simp [Given.none]
  · exact ago_abs l _ (by intro u; cases u <;> simp [unitField])
  · exact ago_abs l _ (by intro u; cases u <;> simp [unitField])

/-- The amounts are not too large, and the time now is one of our times. -/
structure Sane (now : Tm) (l : List (Nat × TimeUnit)) : Prop where
  totals : ∀ u, total l u ≤ 100000000
  range : InRange now
  year : 0 ≤ now.year + 1900 ∧ now.year ≤ 1500000000

theorem mday_le {tm : Tm} (h : InRange tm) : 1 ≤ tm.mday ∧ tm.mday ≤ 31 := by
  have h1 := h.mday
  have h2 := monthLength_pos (isLeap (tm.year + 1900)) tm.mon
  omega

/-- The fields that a unit belongs to. -/
def absField : TimeUnit → Field
  | .second => .sec
  | .minute => .min
  | .hour => .hour
  | .month => .mon
  | .year => .year
  | _ => .mday

theorem ago_finest {l : List (Nat × TimeUnit)} {u : TimeUnit} (h : FinestUnit l u) (hw : u ≠ .week) : Finest (gAgo l) (absField u) := by
  obtain ⟨n, hn⟩ := h.1
  have habs : ∀ f ∈ absFields, (gAgo l).set f = .unset := by
    intro f hf
    apply ago_abs
    intro v e
    rw [e] at hf
    cases v <;> revert hf <;> decide
  refine ⟨by cases u <;> decide, ?_, ?_, ?_⟩
  · intro f hf
    have hf' : f ∈ absFields := by
      have : ∀ u : TimeUnit, ∀ f ∈ finer (absField u), f ∈ absFields := by
        intro u
        cases u <;> decide
      exact this u f hf
    refine ⟨habs f hf', ?_⟩
    cases u <;> simp only [finer, absField, List.mem_cons, List.not_mem_nil, or_false] at hf
    case week => exact absurd rfl hw
    case minute => subst hf; exact ago_finer (v := .second) h (by decide)
    case hour =>
      rcases hf with rfl | rfl
      · exact ago_finer (v := .second) h (by decide)
      · exact ago_finer (v := .minute) h (by decide)
    case day =>
      rcases hf with rfl | rfl | rfl
      · exact ago_finer (v := .second) h (by decide)
      · exact ago_finer (v := .minute) h (by decide)
      · exact ago_finer (v := .hour) h (by decide)
    case month =>
      rcases hf with rfl | rfl | rfl | rfl
      · exact ago_finer (v := .second) h (by decide)
      · exact ago_finer (v := .minute) h (by decide)
      · exact ago_finer (v := .hour) h (by decide)
      · exact ago_finer (v := .day) h (by decide)
    case year =>
      rcases hf with rfl | rfl | rfl | rfl | rfl
      · exact ago_finer (v := .second) h (by decide)
      · exact ago_finer (v := .minute) h (by decide)
      · exact ago_finer (v := .hour) h (by decide)
      · exact ago_finer (v := .day) h (by decide)
      · exact ago_finer (v := .month) h (by decide)
  · intro hm
    cases u
    case week => exact absurd rfl hw
    case month => exact ago_finer (v := .week) h (by decide)
    case year => exact ago_finer (v := .week) h (by decide)
    all_goals exact absurd hm (by decide)
  · right
    have e : relField (absField u) = unitField u := by
      cases u
      case week => exact absurd rfl hw
      all_goals rfl
    rw [e, ago_in hn]
    decide

theorem ago_init (z : Zone) (now : Tm) (ref : Int) (l : List (Nat × TimeUnit)) (hz : z.localtime ref = some now) : gInit z (gAgo l) ref = some now := by
  unfold gInit Given.isSet
  rw [ago_abs l .tz (by intro u; cases u <;> simp [unitField])]
  simpa using hz

theorem ago_instant (z : Zone) (l : List (Nat × TimeUnit)) : gInstant z (gAgo l) = z.mktime := by
  funext tm
  unfold gInstant Given.isSet
  rw [ago_abs l .tz (by intro u; cases u <;> simp [unitField])]
  simp

theorem ago_unset (l : List (Nat × TimeUnit)) (f : Field) (h : f ∈ absFields) : (gAgo l).set f = .unset := by
  apply ago_abs
  intro v e
  rw [e] at h
  cases v <;> revert h <;> decide

theorem out_ago_none (z : Zone) (now : Tm) (ref : Int) (l : List (Nat × TimeUnit)) (hz : z.localtime ref = some now) (hs : Sane now l) :
    gOut z (gAgo l) ref .none = outcome (z.mktime (agoTm now l)) := by
  have a1 := ago_unset l .sec (by decide)
  have a2 := ago_unset l .min (by decide)
  have a3 := ago_unset l .hour (by decide)
  have a4 := ago_unset l .mday (by decide)
  have a5 := ago_unset l .mon (by decide)
  have a6 := ago_unset l .year (by decide)
  have t1 := hs.totals .second
  have t2 := hs.totals .minute
  have t3 := hs.totals .hour
  have t4 := hs.totals .day
  have t5 := hs.totals .week
  have t6 := hs.totals .month
  have t7 := hs.totals .year
  have r := hs.range
  have r1 := r.sec
  have r2 := r.min
  have r3 := r.hour
  have r4 := mday_le r
  have r5 := r.mon
  have r6 := hs.year
  rw [out_none z now ref (gAgo l) (ago_init z now ref l hz) (ago_simple l), ago_instant]
  · unfold plainTm agoTm orNow
    simp only [a1, a2, a3, a4, a5, a6, ago_tm, tmField]
    congr 3 <;> simp <;> omega
  · unfold FitsPlain orNow
    simp only [a1, a2, a3, a4, a5, a6, ago_tm, tmField, ne_eq, not_true, if_false]
    refine ⟨?_, ?_, ?_, ?_, ?_, ?_, ?_, ?_⟩ <;> apply inInt_of <;> omega

theorem out_ago_round (z : Zone) (now : Tm) (ref : Int) (l : List (Nat × TimeUnit)) (u : TimeUnit) (r : Round) (hr : r ≠ .none) (hz : z.localtime ref = some now) (hs : Sane now l) (hu : FinestUnit l u)
    (hw : u ≠ .week) : gOut z (gAgo l) ref r = outcome (z.mktime (rounded u (agoTm now l) r)) := by
  have a1 := ago_unset l .sec (by decide)
  have a2 := ago_unset l .min (by decide)
  have a3 := ago_unset l .hour (by decide)
  have a4 := ago_unset l .mday (by decide)
  have a5 := ago_unset l .mon (by decide)
  have a6 := ago_unset l .year (by decide)
  have t1 := hs.totals .second
  have t2 := hs.totals .minute
  have t3 := hs.totals .hour
  have t4 := hs.totals .day
  have t5 := hs.totals .week
  have t6 := hs.totals .month
  have t7 := hs.totals .year
  have f : ∀ v : TimeUnit, v.rank < u.rank → total l v = 0 := fun v hv => total_finer hu hv
  have f1 := f .second
  have f2 := f .minute
  have f3 := f .hour
  have f4 := f .day
  have f5 := f .week
  have f6 := f .month
  clear f
  have rg := hs.range
  have r1 := rg.sec
  have r2 := rg.min
  have r3 := rg.hour
  have r4 := mday_le rg
  have r5 := rg.mon
  have r6 := hs.year
  rw [out_finest z now ref (gAgo l) (absField u) r (ago_init z now ref l hz) hr (ago_simple l) (ago_finest hu hw), ago_instant]
  · congr 2
    cases u
    case week => exact absurd rfl hw
    all_goals
      simp [TimeUnit.rank] at f1 f2 f3 f4 f5 f6
      rcases round_cases r hr with k | k | k <;> subst k <;>
        simp [endTm, base, a1, a2, a3, a4, a5, a6, ago_tm, tmField, finer, absField, extra, relField, epochValue, rounded, beginning, agoTm, f1, f2, f3, f4, f5, f6] <;> omega
  · cases u
    case week => exact absurd rfl hw
    all_goals
      rcases round_cases r hr with k | k | k <;> subst k <;>
        simp only [Fits, base, a1, a2, a3, a4, a5, a6, ago_tm, tmField, finer, absField, extra, relField, epochValue, ne_eq, not_true, if_false, List.mem_cons, List.not_mem_nil, or_false, reduceCtorEq, if_true, true_or, or_true, false_or, and_true, true_and, and_self, not_false_eq_true] <;>
        refine ⟨?_, ?_, ?_, ?_, ?_, ?_, ?_, ?_, ?_, ?_⟩ <;> apply inInt_of <;> (try simp) <;> omega

/-- Days of which only weeks are said: rounding to weeks. -/
theorem out_ago_week (z : Zone) (now : Tm) (ref : Int) (l : List (Nat × TimeUnit)) (r : Round) (hr : r ≠ .none) (hz : z.localtime ref = some now) (hs : Sane now l) (hu : FinestUnit l .week) :
    gOut z (gAgo l) ref r = outcome ((weekTm z (beginning .day (agoTm now l) 0) r).bind z.mktime) := by
  have t5 := hs.totals .week
  have t6 := hs.totals .month
  have t7 := hs.totals .year
  have f1 := total_finer (v := .second) hu (by decide)
  have f2 := total_finer (v := .minute) hu (by decide)
  have f3 := total_finer (v := .hour) hu (by decide)
  have f4 := total_finer (v := .day) hu (by decide)
  have s1 := ago_finer (v := .second) hu (by decide)
  have s2 := ago_finer (v := .minute) hu (by decide)
  have s3 := ago_finer (v := .hour) hu (by decide)
  have s4 := ago_finer (v := .day) hu (by decide)
  obtain ⟨n, hn⟩ := hu.1
  have s5 := ago_in hn
  simp only [unitField] at s1 s2 s3 s4 s5
  have a1 := ago_unset l .sec (by decide)
  have a2 := ago_unset l .min (by decide)
  have a3 := ago_unset l .hour (by decide)
  have a4 := ago_unset l .mday (by decide)
  have a5 := ago_unset l .mon (by decide)
  have a6 := ago_unset l .year (by decide)
  have rg := hs.range
  have r4 := mday_le rg
  have r5 := rg.mon
  have r6 := hs.year
  have hsm := ago_simple l
  unfold gOut
  rw [ago_init z now ref l hz]
  simp only
  rw [gNow_simple now _ hsm.now]
  have e1 : gWday now (gAgo l) = .ok (gAgo l) := by
    unfold gWday Given.isSet
    rw [hsm.wday]
    simp
  have e2 : gAmpm (gAgo l) = .ok (gAgo l) := by
    unfold gAmpm Given.isSet
    rw [hsm.ampm]
    simp
  rw [e1]
  simp only [Except.bind]
  rw [e2]
  simp only
  have e3 : gRound now absFields (gAgo l) r .none = .ok (fillWith (tmField now) [.mday, .mon, .year] (fillWith epochValue [.sec, .min, .hour] (gAgo l)), r) := by
    have := gRound_finer now r hr [.mday, .mon, .year] [.sec, .min, .hour] (gAgo l) (by decide)
      (by
        intro f hf
        simp at hf
        rcases hf with rfl | rfl | rfl
        · exact ⟨a1, s1, by decide⟩
        · exact ⟨a2, s2, by decide⟩
        · exact ⟨a3, s3, by decide⟩)
      (by intro h; exact absurd h (by decide)) (by decide)
    have e : absFields = [Field.sec, .min, .hour] ++ [.mday, .mon, .year] := rfl
    rw [e, this]
    conv => lhs; unfold gRound
    have q1 : (fillWith epochValue [.sec, .min, .hour] (gAgo l)).isSet .mday = false := by
      unfold Given.isSet
      rw [fillWith_set, a4]
      decide
    have q2 : (fillWith epochValue [.sec, .min, .hour] (gAgo l)).isSet (relField .mday) = false := by
      show (fillWith epochValue [.sec, .min, .hour] (gAgo l)).isSet .relDay = false
      unfold Given.isSet
      rw [fillWith_set, s4]
      decide
    have q3 : (fillWith epochValue [.sec, .min, .hour] (gAgo l)).isSet .relWeek = true := by
      unfold Given.isSet
      rw [fillWith_set, s5]
      decide
    rw [if_neg hr, q1, q2, q3, if_neg (by decide), if_pos ⟨rfl, rfl⟩, gRound_none]
    simp only [fillWith, List.foldl_cons, List.foldl_nil]
  rw [e3]
  simp only
  generalize hg : fillWith (tmField now) [.mday, .mon, .year] (fillWith epochValue [.sec, .min, .hour] (gAgo l)) = g'
  have tmEq : ∀ f, g'.tm f = match f with
      | .sec | .min | .hour => 0
      | .mday => now.mday
      | .mon => now.mon + 1
      | .year => 1900 + now.year
      | _ => (gAgo l).tm f := by
    intro f
    rw [← hg, fillWith_tm, fillWith_set, fillWith_tm]
    cases f <;> simp [a1, a2, a3, a4, a5, a6, epochValue, tmField]
  have stEq : g'.set .tz = .unset := by
    have k : (gAgo l).set .tz = .unset := ago_abs l .tz (by intro u; cases u <;> simp [unitField])
    rw [← hg, fillWith_set, if_neg (fun h => absurd h.1 (by decide)), fillWith_set, if_neg (fun h => absurd h.1 (by decide)), k]
  unfold gEnd
  have hin : gInInt g' = true := by
    unfold gInInt
    simp only [tmEq, ago_tm, f1, f2, f3, f4, Bool.and_eq_true]
    refine ⟨⟨⟨⟨⟨⟨⟨?_, ?_⟩, ?_⟩, ?_⟩, ?_⟩, ?_⟩, ?_⟩, ?_⟩ <;> apply inInt_of <;> omega
  have htm : gTm g' = beginning .day (agoTm now l) 0 := by
    unfold gTm
    simp only [tmEq, ago_tm, f1, f2, f3, f4, beginning, agoTm, Tm.mk.injEq]
    refine ⟨?_, ?_, ?_, ?_, ?_, ?_, ?_⟩ <;> first | omega | exact True.intro
  have hin2 : gInstant z g' = z.mktime := by
    funext tm
    unfold gInstant Given.isSet
    rw [stEq]
    simp
  rw [hin, htm, hin2]
  simp only [Bool.not_true, Bool.false_eq_true, if_false]
  cases (weekTm z (beginning .day (agoTm now l) 0) r).bind z.mktime <;> rfl

end Notmuch.Time
