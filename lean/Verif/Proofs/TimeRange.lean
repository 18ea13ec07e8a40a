import Verif.Proofs.TimeFixed

/-! # Proofs: the range of times that a text stands for -/

namespace Notmuch.Time

theorem parseInput_post : ∀ (n : Nat) (st : State) (s : Str) (st' : State), parseInput n st s = .ok st' → st'.postLen = 0 := by
  intro n
  induction n with
  | zero =>
    intro st s st' h
    cases s with
    | nil => exact parsePostponed_post (by simpa [parseInput] using h)
    | cons c l => simp [parseInput] at h
  | succ n ih =>
    intro st s st' h
    cases s with
    | nil => exact parsePostponed_post (by simpa [parseInput] using h)
    | cons c l =>
      rw [parseInput] at h
      cases e : parseNext st (c :: l) with
      | error x => rw [e] at h; simp [Except.bind] at h
      | ok p => rw [e] at h; exact ih _ _ _ h

/-- Whatever is given, it does not depend on how it is rounded. -/
theorem out_of_text (z : Zone) (s : Str) (ref : Int) : (∃ e, ∀ r, parseTimeString z s ref r = .error e) ∨ ∃ g, ∀ r, parseTimeString z s ref r = gOut z g ref r := by
  unfold parseTimeString
  cases e : parseInput s.length .init s with
  | error x => exact Or.inl ⟨x, fun r => rfl⟩
  | ok st =>
    refine Or.inr ⟨⟨st.set, st.tm⟩, fun r => ?_⟩
    exact createOutput_eq z st _ ref r ⟨⟨rfl, rfl⟩, parseInput_post _ _ _ _ e⟩

theorem gAdd_ok {g g' : Given} {f : Field} {v : Int} (h : gAdd g f v = .ok g') : g' = g.add f (g.tm f + v) := by
  unfold gAdd at h
  split at h
  · exact (Except.ok.inj h).symm
  · cases h

theorem gUp_ok {g g' : Given} {F : Field} {r : Round} (hr : r = .up ∨ r = .upInclusive) (hF : F ≠ .sec) (hrs : relField F ≠ .relSec) (h : gUp g F r = .ok g') :
    (∀ f, g'.tm f = g.tm f + extra r F f) ∧ ∀ f, f ≠ relField F → f ≠ .relSec → g'.set f = g.set f := by
  have hx : ∀ f, extra r F f = (if f = relField F then -1 else 0) + (if f = .relSec ∧ r = .upInclusive then 1 else 0) := by
    intro f
    unfold extra
    rw [if_neg]
    rintro (k | ⟨k1, k2⟩)
    · exact hF k
    · rcases hr with k | k
      · exact k1 k
      · exact k2 k
  unfold gUp at h
  rw [if_pos ⟨hr, hF⟩] at h
  cases h1 : gAdd g (relField F) (-1) with
  | error x => rw [h1] at h; simp [Except.bind] at h
  | ok g1 =>
    rw [h1] at h
    simp only [Except.bind] at h
    have e1 := gAdd_ok h1
    by_cases hu : r = .upInclusive
    · rw [if_pos hu] at h
      have e2 := gAdd_ok h
      have t1 : g1.tm .relSec = g.tm .relSec := by rw [e1]; exact put_other _ _ _ _ hrs.symm
      constructor
      · intro f
        rw [hx, e2, t1, e1]
        show put (put g.tm _ _) .relSec _ f = _
        by_cases a : f = .relSec
        · rw [a, put_same, if_neg hrs.symm, if_pos ⟨rfl, hu⟩]
          omega
        · have hz : (if f = Field.relSec ∧ r = .upInclusive then (1 : Int) else 0) = 0 := if_neg (fun k => a k.1)
          rw [put_other _ _ _ _ a, hz]
          by_cases b : f = relField F
          · rw [b, put_same, if_pos rfl]
            omega
          · rw [put_other _ _ _ _ b, if_neg b]
            omega
      · intro f n1 n2
        rw [e2, e1]
        show put (put g.set _ _) .relSec _ f = _
        rw [put_other _ _ _ _ n2, put_other _ _ _ _ n1]
    · rw [if_neg hu] at h
      have e2 := Except.ok.inj h
      constructor
      · intro f
        have hz : (if f = Field.relSec ∧ r = .upInclusive then (1 : Int) else 0) = 0 := if_neg (fun k => hu k.2)
        rw [hx, hz, ← e2, e1]
        show put g.tm _ _ f = _
        by_cases b : f = relField F
        · rw [b, put_same, if_pos rfl]
          omega
        · rw [put_other _ _ _ _ b, if_neg b]
          omega
      · intro f n1 n2
        rw [← e2, e1]
        exact put_other _ _ _ _ n1

theorem relField_facts : ∀ F ∈ absFields, relField F ∉ absFields ∧ relField F ≠ .tz ∧ (F ≠ .sec → relField F ≠ .relSec) := by decide +kernel

theorem extra_abs (r : Round) (F f : Field) (hF : F ∈ absFields) (hf : f ∈ absFields ∨ f = .tz) : extra r F f = 0 := by
  unfold extra
  split
  · rfl
  · have k1 : f ≠ relField F := by
      intro e
      rw [e] at hf
      rcases hf with k | k
      · exact (relField_facts F hF).1 k
      · exact (relField_facts F hF).2.1 k
    have k2 : f ≠ .relSec := by
      intro e
      rw [e] at hf
      revert hf
      decide
    have hz : (if f = Field.relSec ∧ r = .upInclusive then (1 : Int) else 0) = 0 := if_neg (fun k => k2 k.1)
    rw [if_neg k1, hz]
    rfl

/-- What comes out of rounding down and of rounding up. -/
def Apart (c : Nat × Field) (r : Round) (a b : Given × Round) : Prop :=
  (c.1 = 0 ∧ b.1 = a.1 ∧ a.2 = .none ∧ b.2 = .none) ∨ (c.1 = 1 ∧ b.1 = a.1 ∧ a.2 = .down ∧ b.2 = r) ∨
  (c.1 = 2 ∧ a.2 = .none ∧ b.2 = .none ∧ b.1.set .tz = a.1.set .tz ∧ c.2 ∈ absFields ∧ c.2 ≠ .sec ∧ ∀ f, b.1.tm f = a.1.tm f + extra r c.2 f)

theorem fill_apart (now : Tm) {r : Round} (hr : r = .up ∨ r = .upInclusive) {g g1 : Given} {F : Field} {l : List Field} (hl : ∀ f ∈ F :: l, f ∈ absFields) (hs : F ≠ .sec) (hu : gUp g F r = .ok g1) :
    (fillWith (tmField now) (F :: l) g1).set .tz = (fillWith (tmField now) (F :: l) g).set .tz ∧
    ∀ f, (fillWith (tmField now) (F :: l) g1).tm f = (fillWith (tmField now) (F :: l) g).tm f + extra r F f := by
  have hF := hl F List.mem_cons_self
  have hrs : relField F ≠ .relSec := (relField_facts F hF).2.2 hs
  obtain ⟨u1, u2⟩ := gUp_ok hr hs hrs hu
  have hset : ∀ f, f ∈ absFields ∨ f = .tz → g1.set f = g.set f := by
    intro f hf
    apply u2 f
    · intro e
      rw [e] at hf
      rcases hf with k | k
      · exact (relField_facts F hF).1 k
      · exact (relField_facts F hF).2.1 k
    · intro e
      rw [e] at hf
      revert hf
      decide
  constructor
  · simp only [fillWith_set, hset .tz (Or.inr rfl)]
  · intro f
    simp only [fillWith_tm]
    by_cases hf : f ∈ F :: l
    · have hx := extra_abs r F f hF (Or.inl (hl f hf))
      have hs' := hset f (Or.inl (hl f hf))
      rw [hs', u1, hx, Int.add_zero, Int.add_zero]
    · rw [if_neg (fun k => hf k.1), if_neg (fun k => hf k.1), u1]

theorem gRound_apart (now : Tm) : ∀ (l : List Field) (g : Given), (∀ f ∈ l, f ∈ absFields) → ∃ c : Nat × Field, ∀ (r : Round), r = .up ∨ r = .upInclusive → ∀ a b : Given × Round,
    gRound now l g .down .none = .ok a → gRound now l g r .none = .ok b → Apart c r a b := by
  intro l
  have hn : ∀ r : Round, r = .up ∨ r = .upInclusive → r ≠ .none := by
    intro r hr
    rcases hr with k | k <;> rw [k] <;> decide
  induction l with
  | nil =>
    intro g _
    refine ⟨(0, .sec), ?_⟩
    intro r hr a b ha hb
    unfold gRound at ha hb
    rw [← Except.ok.inj ha, ← Except.ok.inj hb]
    exact Or.inl ⟨rfl, rfl, rfl, rfl⟩
  | cons F l ih =>
    intro g hl
    have hF := hl F List.mem_cons_self
    by_cases h1 : (g.isSet F || g.isSet (relField F)) = true
    · refine ⟨(if F = .sec then 0 else 2, F), ?_⟩
      intro r hr a b ha hb
      unfold gRound at ha hb
      rw [if_neg (by decide), if_pos h1] at ha
      rw [if_neg (hn r hr), if_pos h1] at hb
      have hd : gUp g F .down = .ok g := by unfold gUp; rw [if_neg (by simp)]
      rw [hd] at ha
      cases hu : gUp g F r with
      | error x => rw [hu] at hb; simp [Except.bind] at hb
      | ok g1 =>
        rw [hu] at hb
        simp only [Except.bind, gRound_none] at ha hb
        have ea := Except.ok.inj ha
        have eb := Except.ok.inj hb
        have fw : ∀ g, (fillWith (tmField now) l (gFill g F (tmField now F))) = fillWith (tmField now) (F :: l) g := fun _ => rfl
        by_cases hs : F = .sec
        · left
          have : g1 = g := by
            unfold gUp at hu
            rw [if_neg (fun k => k.2 hs)] at hu
            exact (Except.ok.inj hu).symm
          rw [← ea, ← eb, this]
          exact ⟨if_pos hs, rfl, rfl, rfl⟩
        · right; right
          obtain ⟨f1, f2⟩ := fill_apart now hr hl hs hu
          rw [← ea, ← eb, fw, fw]
          exact ⟨if_neg hs, rfl, rfl, f1, hF, hs, f2⟩
    · by_cases h2 : F = .mday ∧ g.isSet .relWeek = true
      · refine ⟨(1, F), ?_⟩
        intro r hr a b ha hb
        unfold gRound at ha hb
        rw [if_neg (by decide), if_neg h1, if_pos h2, gRound_none] at ha
        rw [if_neg (hn r hr), if_neg h1, if_pos h2, gRound_none] at hb
        right; left
        rw [← Except.ok.inj ha, ← Except.ok.inj hb]
        exact ⟨rfl, rfl, rfl, rfl⟩
      · obtain ⟨c, hc⟩ := ih (gFill (gFill g F (epochValue F)) F (tmField now F)) (fun f hf => hl f (List.mem_cons_of_mem _ hf))
        refine ⟨c, ?_⟩
        intro r hr a b ha hb
        unfold gRound at ha hb
        rw [if_neg (by decide), if_neg h1, if_neg h2] at ha
        rw [if_neg (hn r hr), if_neg h1, if_neg h2] at hb
        exact hc r hr a b ha hb

/-- From the beginning of a unit to the beginning of the next. -/
theorem apart_seconds (r : Round) (hr : r = .up ∨ r = .upInclusive) (a b : Given) (F : Field) (hF : F ∈ absFields) (hs : F ≠ .sec) (h : ∀ f, b.tm f = a.tm f + extra r F f) :
    seconds (gTm a) + 60 ≤ seconds (gTm b) + upSec r ∧ (r = .upInclusive → ∃ c, (gTm b) = { c with sec := c.sec - 1 } ∧ ∀ b', (∀ f, b'.tm f = a.tm f + extra .up F f) → gTm b' = c) := by
  have base : ∀ F ∈ absFields, F ≠ .sec → extra .up F .relSec = 0 ∧ extra .upInclusive F .relSec = 1 ∧ ∀ f, f ≠ .relSec → extra .up F f = extra .upInclusive F f := by
    intro F hF hs
    refine ⟨?_, ?_, ?_⟩
    · revert F; decide +kernel
    · revert F; decide +kernel
    · intro f
      unfold extra
      intro hf
      simp [hf, hs]
  obtain ⟨b1, b2, b3⟩ := base F hF hs
  constructor
  · simp only [absFields, List.mem_cons, List.not_mem_nil, or_false] at hF
    unfold seconds gTm
    simp only [h]
    rcases hF with k | k | k | k | k | k <;> subst k
    · exact absurd rfl hs
    all_goals rcases hr with k | k <;> subst k <;> simp only [extra, relField, reduceCtorEq, or_self, or_true, true_or, ne_eq, not_true, not_false_eq_true, false_and, and_false, if_false, if_true, and_true, true_and, upSec, Int.add_zero, Int.zero_add]
    · omega
    · omega
    · omega
    · omega
    · have e : a.tm .mday - (a.tm .relDay + -1) - 7 * a.tm .relWeek = a.tm .mday - a.tm .relDay - 7 * a.tm .relWeek + 1 := by omega
      rw [e, dayNumber_day]
      omega
    · have e : a.tm .mday - (a.tm .relDay + -1) - 7 * a.tm .relWeek = a.tm .mday - a.tm .relDay - 7 * a.tm .relWeek + 1 := by omega
      rw [e, dayNumber_day]
      omega
    · have e : a.tm .mon - (a.tm .relMon + -1) - 1 = a.tm .mon - a.tm .relMon - 1 + 1 := by omega
      rw [e]
      have := dayNumber_mon_lt (a.tm .year - a.tm .relYear - 1900 + 1900) (a.tm .mon - a.tm .relMon - 1) (a.tm .mday - a.tm .relDay - 7 * a.tm .relWeek)
      omega
    · have e : a.tm .mon - (a.tm .relMon + -1) - 1 = a.tm .mon - a.tm .relMon - 1 + 1 := by omega
      rw [e]
      have := dayNumber_mon_lt (a.tm .year - a.tm .relYear - 1900 + 1900) (a.tm .mon - a.tm .relMon - 1) (a.tm .mday - a.tm .relDay - 7 * a.tm .relWeek)
      omega
    · have e : a.tm .year - (a.tm .relYear + -1) - 1900 + 1900 = a.tm .year - a.tm .relYear - 1900 + 1900 + 1 := by omega
      rw [e]
      have := dayNumber_year_lt (a.tm .year - a.tm .relYear - 1900 + 1900) (a.tm .mon - a.tm .relMon - 1) (a.tm .mday - a.tm .relDay - 7 * a.tm .relWeek)
      omega
    · have e : a.tm .year - (a.tm .relYear + -1) - 1900 + 1900 = a.tm .year - a.tm .relYear - 1900 + 1900 + 1 := by omega
      rw [e]
      have := dayNumber_year_lt (a.tm .year - a.tm .relYear - 1900 + 1900) (a.tm .mon - a.tm .relMon - 1) (a.tm .mday - a.tm .relDay - 7 * a.tm .relWeek)
      omega
  · intro hi
    subst hi
    refine ⟨{ gTm b with sec := (gTm b).sec + 1 }, ?_, ?_⟩
    · have : (gTm b).sec + 1 - 1 = (gTm b).sec := by omega
      simp only [this]
    · intro b' hb'
      unfold gTm
      simp only [h, hb', b1, b2, b3 _ (show Field.sec ≠ .relSec by decide), b3 _ (show Field.min ≠ .relSec by decide), b3 _ (show Field.relMin ≠ .relSec by decide), b3 _ (show Field.hour ≠ .relSec by decide),
        b3 _ (show Field.relHour ≠ .relSec by decide), b3 _ (show Field.mday ≠ .relSec by decide), b3 _ (show Field.relDay ≠ .relSec by decide), b3 _ (show Field.relWeek ≠ .relSec by decide),
        b3 _ (show Field.mon ≠ .relSec by decide), b3 _ (show Field.relMon ≠ .relSec by decide), b3 _ (show Field.year ≠ .relSec by decide), b3 _ (show Field.relYear ≠ .relSec by decide), Tm.mk.injEq, and_true, true_and]
      omega

theorem instant_mono {z : Zone} (hz : z.Mono) {g g' : Given} (h1 : g'.set .tz = g.set .tz) (h2 : g'.tm .tz = g.tm .tz) {tm tm' : Tm} {a b : Int} (h : seconds tm ≤ seconds tm')
    (ha : gInstant z g tm = some a) (hb : gInstant z g' tm' = some b) : a ≤ b := by
  rw [gInstant_tz z g g' h1 h2] at hb
  unfold gInstant at ha hb
  split at ha
  · rename_i hs
    rw [if_pos hs] at hb
    unfold timegm at ha hb
    have e : ∀ tm : Tm, seconds { tm with min := tm.min - g.tm .tz } = seconds tm - 60 * g.tm .tz := by
      intro tm
      unfold seconds
      simp only
      omega
    rw [e] at ha hb
    split at ha
    · cases ha
    · split at hb
      · cases hb
      · rw [← Option.some.inj ha, ← Option.some.inj hb]
        omega
  · rename_i hs
    rw [if_neg hs] at hb
    exact hz _ _ _ _ h ha hb

theorem gEnd_ok {z : Zone} {g : Given} {w : Round} {t : Int} (h : gEnd z g w = .ok t) : ∃ tm, weekTm z (gTm g) w = some tm ∧ gInstant z g tm = some t := by
  unfold gEnd at h
  split at h
  · cases h
  · cases e : weekTm z (gTm g) w with
    | none => rw [e] at h; simp at h
    | some tm =>
      rw [e] at h
      simp only [Option.bind_some] at h
      cases e2 : gInstant z g tm with
      | none => rw [e2] at h; simp at h
      | some t' => rw [e2] at h; exact ⟨tm, rfl, by rw [e2]; congr 1; exact Except.ok.inj h⟩

theorem week_apart (z : Zone) (r : Round) (hr : r = .up ∨ r = .upInclusive) (tm a b : Tm) (ha : weekTm z tm .down = some a) (hb : weekTm z tm r = some b) : seconds a + 604800 = seconds b + upSec r := by
  unfold weekTm at ha hb
  rw [if_neg (by decide)] at ha
  rw [if_neg (by rcases hr with k | k <;> rw [k] <;> decide)] at hb
  cases e : (z.mktime tm).bind z.localtime with
  | none => rw [e] at ha; simp at ha
  | some tm' =>
    rw [e] at ha hb
    have e1 : tm'.mday + (7 - tm'.wday) = tm'.mday - tm'.wday + 7 := by omega
    rcases hr with k | k <;> subst k <;> simp only [reduceCtorEq, if_false, if_true] at ha hb <;> rw [← Option.some.inj ha, ← Option.some.inj hb] <;> unfold seconds <;> simp only [upSec, reduceCtorEq, if_false, if_true] <;>
      rw [e1, dayNumber_day] <;> omega

/-- The cases of what comes out. -/
theorem out_cases {z : Zone} {g : Given} {ref : Int} {r : Round} {t : Int} (h : gOut z g ref r = .ok t) : ∃ now g', gInit z g ref = some now ∧
    ((gWday now (gNow now absFields g)).bind fun g => gAmpm g) = .ok g' ∧ ∃ p, gRound now absFields g' r .none = .ok p ∧ gEnd z p.1 p.2 = .ok t := by
  unfold gOut at h
  cases e : gInit z g ref with
  | none => rw [e] at h; simp at h
  | some now =>
    rw [e] at h
    simp only at h
    refine ⟨now, ?_⟩
    cases e1 : gWday now (gNow now absFields g) with
    | error x => rw [e1] at h; simp [Except.bind] at h
    | ok g1 =>
      rw [e1] at h
      simp only [Except.bind] at h
      cases e2 : gAmpm g1 with
      | error x => rw [e2] at h; simp at h
      | ok g2 =>
        rw [e2] at h
        simp only at h
        cases e3 : gRound now absFields g2 r .none with
        | error x => rw [e3] at h; simp at h
        | ok p => rw [e3] at h; exact ⟨g2, rfl, by simp [Except.bind, e2], p, e3, h⟩

theorem out_range {z : Zone} (hz : z.Mono) {g : Given} {ref : Int} {a b : Int} (ha : gOut z g ref .down = .ok a) (hb : gOut z g ref .upInclusive = .ok b) : a ≤ b := by
  obtain ⟨now, g', i1, i2, p, i3, i4⟩ := out_cases ha
  obtain ⟨now', g'', j1, j2, q, j3, j4⟩ := out_cases hb
  have en : now' = now := by rw [i1] at j1; exact (Option.some.inj j1).symm
  subst en
  have eg : g'' = g' := by rw [i2] at j2; exact (Except.ok.inj j2).symm
  subst eg
  obtain ⟨c, hc⟩ := gRound_apart now' absFields g'' (fun _ h => h)
  have hA := hc .upInclusive (Or.inr rfl) p q i3 j3
  obtain ⟨pg, pw⟩ := p
  obtain ⟨qg, qw⟩ := q
  obtain ⟨ta, wa, ia⟩ := gEnd_ok i4
  obtain ⟨tb, wb, ib⟩ := gEnd_ok j4
  simp only at wa wb ia ib
  have e3 : upSec .upInclusive = 1 := rfl
  rcases hA with ⟨_, h1, h2, h3⟩ | ⟨_, h1, h2, h3⟩ | ⟨_, h1, h2, h3, hF, hs, h4⟩
  · simp only at h1 h2 h3
    subst h1 h2 h3
    rw [wa] at wb
    rw [← Option.some.inj wb, ia] at ib
    have := Option.some.inj ib
    omega
  · simp only at h1 h2 h3
    subst h1 h2 h3
    have := week_apart z .upInclusive (Or.inr rfl) (gTm qg) ta tb wa wb
    exact instant_mono hz rfl rfl (by omega) ia ib
  · simp only at h1 h2 h3 h4
    subst h1 h2
    have e1 : gTm pg = ta := by simpa [weekTm] using wa
    have e2 : gTm qg = tb := by simpa [weekTm] using wb
    have ht : qg.tm .tz = pg.tm .tz := by rw [h4, extra_tz _ c.2 hF]; omega
    have := (apart_seconds .upInclusive (Or.inr rfl) pg qg c.2 hF hs h4).1
    rw [e1, e2] at this
    exact instant_mono hz h3 ht (by omega) ia ib

/-- Instants are local times less the offset. -/
theorem instant_fixed {off : Int} {g : Given} {tm : Tm} {a : Int} (h : gInstant (fixedZone off) g tm = some a) : a = seconds tm - (if g.isSet .tz then 60 * g.tm .tz else off) := by
  unfold gInstant at h
  split at h
  · rename_i hs
    unfold timegm at h
    have e : seconds { tm with min := tm.min - g.tm .tz } = seconds tm - 60 * g.tm .tz := by
      unfold seconds
      simp only
      omega
    rw [e] at h
    rw [if_pos hs]
    split at h
    · cases h
    · exact (Option.some.inj h).symm
  · rename_i hs
    rw [if_neg hs]
    have h' : (if seconds tm - off = -1 then none else some (seconds tm - off)) = some a := h
    split at h'
    · cases h'
    · exact (Option.some.inj h').symm

theorem fixed_mono (off : Int) : (fixedZone off).Mono := by
  intro tm tm' a b h ha hb
  have ha' : (if seconds tm - off = -1 then none else some (seconds tm - off)) = some a := ha
  have hb' : (if seconds tm' - off = -1 then none else some (seconds tm' - off)) = some b := hb
  split at ha'
  · cases ha'
  · split at hb'
    · cases hb'
    · rw [← Option.some.inj ha', ← Option.some.inj hb']
      omega

/-- In a zone that is always the same time ahead, the end is the second after the last one. -/
theorem out_end {off : Int} {g : Given} {ref : Int} {a b c : Int} (ha : gOut (fixedZone off) g ref .down = .ok a) (hb : gOut (fixedZone off) g ref .upInclusive = .ok b)
    (hc : gOut (fixedZone off) g ref .up = .ok c) : (a = b ∧ b = c) ∨ (a < c ∧ b + 1 = c) := by
  obtain ⟨now, g', i1, i2, p, i3, i4⟩ := out_cases ha
  obtain ⟨now', g'', j1, j2, q, j3, j4⟩ := out_cases hb
  obtain ⟨now2, g3, k1, k2, s, k3, k4⟩ := out_cases hc
  have en : now' = now := by rw [i1] at j1; exact (Option.some.inj j1).symm
  subst en
  have en : now2 = now' := by rw [i1] at k1; exact (Option.some.inj k1).symm
  subst en
  have eg : g'' = g' := by rw [i2] at j2; exact (Except.ok.inj j2).symm
  subst eg
  have eg : g3 = g'' := by rw [i2] at k2; exact (Except.ok.inj k2).symm
  subst eg
  obtain ⟨cs, hcs⟩ := gRound_apart now2 absFields g3 (fun _ h => h)
  have hA := hcs .upInclusive (Or.inr rfl) p q i3 j3
  have hB := hcs .up (Or.inl rfl) p s i3 k3
  obtain ⟨pg, pw⟩ := p
  obtain ⟨qg, qw⟩ := q
  obtain ⟨sg, sw⟩ := s
  obtain ⟨ta, wa, ia⟩ := gEnd_ok i4
  obtain ⟨tb, wb, ib⟩ := gEnd_ok j4
  obtain ⟨tc, wc, ic⟩ := gEnd_ok k4
  simp only at wa wb wc ia ib ic
  have e3 : upSec .upInclusive = 1 := rfl
  have e4 : upSec .up = 0 := rfl
  rcases hA with ⟨c1, h1, h2, h3⟩ | ⟨c1, h1, h2, h3⟩ | ⟨c1, h1, h2, h3, hF, hs, h4⟩ <;> rcases hB with ⟨d1, l1, l2, l3⟩ | ⟨d1, l1, l2, l3⟩ | ⟨d1, l1, l2, l3, hF', hs', l4⟩ <;> first | (rw [c1] at d1; cases d1; done) | skip
  · simp only at h1 h2 h3 l1 l2 l3
    subst h1 h2 h3 l1 l3
    rw [wa] at wb wc
    rw [← Option.some.inj wb, ia] at ib
    rw [← Option.some.inj wc, ia] at ic
    exact Or.inl ⟨Option.some.inj ib, (Option.some.inj ib).symm.trans (Option.some.inj ic)⟩
  · simp only at h1 h2 h3 l1 l2 l3
    subst h1 h2 h3 l1 l3
    have w1 := week_apart (fixedZone off) .upInclusive (Or.inr rfl) _ ta tb wa wb
    have w2 := week_apart (fixedZone off) .up (Or.inl rfl) _ ta tc wa wc
    have x1 := instant_fixed ia
    have x2 := instant_fixed ib
    have x3 := instant_fixed ic
    right
    omega
  · simp only at h1 h2 h3 h4 l1 l2 l3 l4
    subst h1 h2 l2
    have f1 : gTm pg = ta := by simpa [weekTm] using wa
    have f2 : gTm qg = tb := by simpa [weekTm] using wb
    have f3 : gTm sg = tc := by simpa [weekTm] using wc
    have ht : qg.tm .tz = pg.tm .tz := by rw [h4, extra_tz _ cs.2 hF]; omega
    have ht' : sg.tm .tz = pg.tm .tz := by rw [l4, extra_tz _ cs.2 hF]; omega
    have w1 := (apart_seconds .up (Or.inl rfl) pg sg cs.2 hF hs l4).1
    obtain ⟨cc, w2, w3⟩ := (apart_seconds .upInclusive (Or.inr rfl) pg qg cs.2 hF hs h4).2 rfl
    have w4 := w3 sg l4
    rw [f1, f3] at w1
    rw [f3] at w4
    rw [f2, ← w4] at w2
    have w5 : seconds tb = seconds tc - 1 := by
      rw [w2]
      unfold seconds
      simp only
      omega
    have x1 := instant_fixed ia
    have x2 := instant_fixed ib
    have x3 := instant_fixed ic
    have y1 : qg.isSet .tz = pg.isSet .tz := by unfold Given.isSet; rw [h3]
    have y2 : sg.isSet .tz = pg.isSet .tz := by unfold Given.isSet; rw [l3]
    rw [y1, ht] at x2
    rw [y2, ht'] at x3
    right
    omega

end Notmuch.Time
