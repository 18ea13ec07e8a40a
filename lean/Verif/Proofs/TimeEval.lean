import Verif.Proofs.TimeOut

/-! # Proofs: the times that dates and amounts stand for -/

namespace Notmuch.Time

/-- A library function may fail. -/
def outcome : Option Int → Except Err Int
  | none => .error .lib
  | some t => .ok t

theorem inInt_of {i : Int} (h1 : -2147483648 ≤ i) (h2 : i < 2147483648) : inInt i = true := by
  simp [inInt]
  omega

theorem inInt_iff {i : Int} : inInt i = true ↔ -2147483648 ≤ i ∧ i < 2147483648 := by
  simp [inInt]

/-! ## Filling in what is not given -/

def fillWith (v : Field → Int) (l : List Field) (g : Given) : Given := l.foldl (fun g f => gFill g f (v f)) g

theorem gFill_set (g : Given) (f h : Field) (v : Int) : (gFill g f v).set h = if h = f ∧ g.set f = .unset then .set else g.set h := by
  unfold gFill
  by_cases h1 : g.set f = .unset
  · rw [if_pos h1]
    by_cases h2 : h = f
    · rw [if_pos ⟨h2, h1⟩, h2]
      exact put_same _ _ _
    · rw [if_neg (fun k => h2 k.1)]
      exact put_other _ _ _ _ h2
  · rw [if_neg h1, if_neg (fun k => h1 k.2)]

theorem gFill_tm (g : Given) (f h : Field) (v : Int) : (gFill g f v).tm h = if h = f ∧ g.set f = .unset then v else g.tm h := by
  unfold gFill
  by_cases h1 : g.set f = .unset
  · rw [if_pos h1]
    by_cases h2 : h = f
    · rw [if_pos ⟨h2, h1⟩, h2]
      exact put_same _ _ _
    · rw [if_neg (fun k => h2 k.1)]
      exact put_other _ _ _ _ h2
  · rw [if_neg h1, if_neg (fun k => h1 k.2)]

theorem fillWith_set (v : Field → Int) (f : Field) : ∀ (l : List Field) (g : Given), (fillWith v l g).set f = if f ∈ l ∧ g.set f = .unset then .set else g.set f := by
  intro l
  induction l with
  | nil => intro g; simp [fillWith]
  | cons x l ih =>
    intro g
    show (fillWith v l (gFill g x (v x))).set f = _
    rw [ih, gFill_set]
    by_cases h1 : f = x
    · subst h1
      by_cases h2 : g.set f = .unset <;> simp [h2]
    · simp [h1]

theorem fillWith_tm (v : Field → Int) (f : Field) : ∀ (l : List Field) (g : Given), (fillWith v l g).tm f = if f ∈ l ∧ g.set f = .unset then v f else g.tm f := by
  intro l
  induction l with
  | nil => intro g; simp [fillWith]
  | cons x l ih =>
    intro g
    show (fillWith v l (gFill g x (v x))).tm f = _
    rw [ih, gFill_set, gFill_tm]
    by_cases h1 : f = x
    · subst h1
      by_cases h2 : g.set f = .unset <;> simp [h2]
    · simp [h1]

theorem gFill_again (g : Given) (f : Field) (v w : Int) : gFill (gFill g f v) f w = gFill g f v := by
  have : (gFill g f v).set f ≠ .unset := (fill_isSet g f v).1
  conv => lhs; unfold gFill
  rw [if_neg]
  · rfl
  · exact this

theorem gRound_none (now : Tm) : ∀ (l : List Field) (g : Given) (week : Round), gRound now l g .none week = .ok (fillWith (tmField now) l g, week) := by
  intro l
  induction l with
  | nil => exact fun g week => rfl
  | cons f l ih =>
    intro g week
    unfold gRound
    rw [if_pos rfl, ih]
    rfl

/-- Nothing is said of the finer fields: they are at their beginning. -/
theorem gRound_finer (now : Tm) (round : Round) (hr : round ≠ .none) (l : List Field) : ∀ (pre : List Field) (g : Given), pre.Nodup →
    (∀ f ∈ pre, g.set f = .unset ∧ g.set (relField f) = .unset ∧ relField f ∉ pre) →
    (.mday ∈ pre → g.set .relWeek = .unset) → .relWeek ∉ pre → gRound now (pre ++ l) g round .none = gRound now l (fillWith epochValue pre g) round .none := by
  intro pre
  induction pre with
  | nil => exact fun g _ _ _ _ => rfl
  | cons f pre ih =>
    intro g hn h1 h2 h3
    obtain ⟨a, b, c⟩ := h1 f List.mem_cons_self
    rw [List.cons_append]
    conv => lhs; unfold gRound
    rw [if_neg hr, if_neg (by simp [Given.isSet, a, b]), if_neg (by
      rintro ⟨e, k⟩
      have := h2 (by rw [e]; exact List.mem_cons_self)
      simp [Given.isSet, this] at k), gFill_again]
    rw [List.nodup_cons] at hn
    apply ih _ hn.2
    · intro x hx
      obtain ⟨a', b', c'⟩ := h1 x (List.mem_cons_of_mem _ hx)
      have n1 : x ≠ f := fun e => hn.1 (e ▸ hx)
      have n2 : relField x ≠ f := fun e => c' (e ▸ List.mem_cons_self)
      rw [gFill_set, gFill_set, if_neg (fun k => n1 k.1), if_neg (fun k => n2 k.1)]
      exact ⟨a', b', fun k => c' (List.mem_cons_of_mem _ k)⟩
    · intro hm
      have n1 : Field.relWeek ≠ f := fun e => h3 (e ▸ List.mem_cons_self)
      rw [gFill_set, if_neg (fun k => n1 k.1)]
      exact h2 (List.mem_cons_of_mem _ hm)
    · exact fun k => h3 (List.mem_cons_of_mem _ k)

/-- The last field before a time changes is said to be `F`: what comes out of rounding. -/
theorem gRound_at (now : Tm) (round : Round) (hr : round ≠ .none) (pre post : List Field) (F : Field) (g : Given) (hn : pre.Nodup)
    (h1 : ∀ f ∈ pre, g.set f = .unset ∧ g.set (relField f) = .unset ∧ relField f ∉ pre) (h2 : .mday ∈ pre → g.set .relWeek = .unset) (h3 : .relWeek ∉ pre)
    (hF : g.set F ≠ .unset ∨ g.set (relField F) ≠ .unset) (hFp : F ∉ pre ∧ relField F ∉ pre) :
    gRound now (pre ++ F :: post) g round .none = (gUp (fillWith epochValue pre g) F round).bind (fun g => .ok (fillWith (tmField now) (F :: post) g, .none)) := by
  rw [gRound_finer now round hr (F :: post) pre g hn h1 h2 h3]
  conv => lhs; unfold gRound
  rw [if_neg hr, if_pos]
  · simp only [gRound_none]
    rfl
  · unfold Given.isSet
    rw [fillWith_set, fillWith_set, if_neg (fun k => hFp.1 k.1), if_neg (fun k => hFp.2 k.1)]
    simp only [Bool.or_eq_true, decide_eq_true_eq]
    exact hF

/-- What is subtracted in addition. -/
def extra (round : Round) (F f : Field) : Int :=
  if F = .sec ∨ (round ≠ .up ∧ round ≠ .upInclusive) then 0 else (if f = relField F then -1 else 0) + (if f = .relSec ∧ round = .upInclusive then 1 else 0)

theorem gUp_at (g : Given) (F : Field) (round : Round) (i1 : inInt (g.tm (relField F) - 1) = true) (i2 : inInt (g.tm .relSec + 1) = true) (hrs : F ≠ .sec → relField F ≠ .relSec) :
    ∃ g', gUp g F round = .ok g' ∧ (∀ f, g'.tm f = g.tm f + extra round F f) ∧ ∀ f, f ≠ relField F → f ≠ .relSec → g'.set f = g.set f := by
  have i1' : inInt (g.tm (relField F) + -1) = true := i1
  by_cases hc : (round = .up ∨ round = .upInclusive) ∧ F ≠ .sec
  · have hx : ∀ f, extra round F f = (if f = relField F then -1 else 0) + (if f = .relSec ∧ round = .upInclusive then 1 else 0) := by
      intro f
      unfold extra
      rw [if_neg]
      rintro (k | ⟨k1, k2⟩)
      · exact hc.2 k
      · rcases hc.1 with k | k
        · exact k1 k
        · exact k2 k
    by_cases hu : round = .upInclusive
    · refine ⟨(g.add (relField F) (g.tm (relField F) + -1)).add .relSec ((g.add (relField F) (g.tm (relField F) + -1)).tm .relSec + 1), ?_, ?_, ?_⟩
      · unfold gUp
        rw [if_pos hc]
        have e1 : gAdd g (relField F) (-1) = .ok (g.add (relField F) (g.tm (relField F) + -1)) := by
          unfold gAdd
          rw [if_pos i1']
        rw [e1]
        simp only [Except.bind]
        rw [if_pos hu]
        unfold gAdd
        rw [if_pos]
        show inInt (put g.tm (relField F) _ .relSec + 1) = true
        rw [put_other _ _ _ _ (hrs hc.2).symm]
        exact i2
      · intro f
        rw [hx]
        show put (put g.tm _ _) .relSec _ f = _
        by_cases e1 : f = .relSec
        · rw [e1, put_same]
          show put g.tm (relField F) _ .relSec + 1 = _
          rw [put_other _ _ _ _ (hrs hc.2).symm, if_neg (hrs hc.2).symm, if_pos ⟨rfl, hu⟩]
          omega
        · have hz : (if f = Field.relSec ∧ round = .upInclusive then (1 : Int) else 0) = 0 := if_neg (fun k => e1 k.1)
          rw [put_other _ _ _ _ e1, hz]
          by_cases e2 : f = relField F
          · rw [e2, put_same, if_pos rfl]
            omega
          · rw [put_other _ _ _ _ e2, if_neg e2]
            omega
      · intro f n1 n2
        show put (put g.set _ _) .relSec _ f = _
        rw [put_other _ _ _ _ n2, put_other _ _ _ _ n1]
    · refine ⟨g.add (relField F) (g.tm (relField F) + -1), ?_, ?_, ?_⟩
      · unfold gUp
        rw [if_pos hc]
        have e1 : gAdd g (relField F) (-1) = .ok (g.add (relField F) (g.tm (relField F) + -1)) := by
          unfold gAdd
          rw [if_pos i1']
        rw [e1]
        simp only [Except.bind]
        rw [if_neg hu]
      · intro f
        have hz : (if f = Field.relSec ∧ round = .upInclusive then (1 : Int) else 0) = 0 := if_neg (fun k => hu k.2)
        rw [hx, hz]
        show put g.tm _ _ f = _
        by_cases e2 : f = relField F
        · rw [e2, put_same, if_pos rfl]
          omega
        · rw [put_other _ _ _ _ e2, if_neg e2]
          omega
      · intro f n1 n2
        show put g.set _ _ f = _
        rw [put_other _ _ _ _ n1]
  · refine ⟨g, ?_, ?_, fun _ _ _ => rfl⟩
    · unfold gUp
      rw [if_neg hc]
    · intro f
      unfold extra
      rw [if_pos]
      · omega
      · by_cases k : F = .sec
        · exact Or.inl k
        · refine Or.inr ⟨fun e => hc ⟨Or.inl e, k⟩, fun e => hc ⟨Or.inr e, k⟩⟩

/-- The fields that are finer than one, and those that are not. -/
def finer : Field → List Field
  | .sec => []
  | .min => [.sec]
  | .hour => [.sec, .min]
  | .mday => [.sec, .min, .hour]
  | .mon => [.sec, .min, .hour, .mday]
  | _ => [.sec, .min, .hour, .mday, .mon]

def coarser : Field → List Field
  | .sec => [.min, .hour, .mday, .mon, .year]
  | .min => [.hour, .mday, .mon, .year]
  | .hour => [.mday, .mon, .year]
  | .mday => [.mon, .year]
  | .mon => [.year]
  | _ => []

/-- `F` is the finest of the fields that something is said of. -/
structure Finest (g : Given) (F : Field) : Prop where
  abs : F ∈ absFields
  unset : ∀ f ∈ finer F, g.set f = .unset ∧ g.set (relField f) = .unset
  week : .mday ∈ finer F → g.set .relWeek = .unset
  set : g.set F ≠ .unset ∨ g.set (relField F) ≠ .unset

/-- The value of a field before anything is subtracted. -/
def base (now : Tm) (g : Given) (F f : Field) : Int := if g.set f ≠ .unset then g.tm f else if f ∈ finer F then epochValue f else tmField now f

theorem gRound_finest (now : Tm) (round : Round) (hr : round ≠ .none) (F : Field) (g : Given) (h : Finest g F) (i1 : inInt (g.tm (relField F) - 1) = true) (i2 : inInt (g.tm .relSec + 1) = true) :
    ∃ g', gRound now absFields g round .none = .ok (g', .none) ∧ (∀ f ∈ absFields, g'.tm f = base now g F f) ∧ (∀ f, f ∉ absFields → g'.tm f = g.tm f + extra round F f) ∧ g'.set .tz = g.set .tz := by
  have hF := h.abs
  have hsplit : absFields = finer F ++ F :: coarser F ∧ (finer F).Nodup ∧ (∀ f ∈ finer F, relField f ∉ finer F) ∧ .relWeek ∉ finer F ∧ F ∉ finer F ∧ relField F ∉ absFields ∧ relField F ∉ finer F ∧
      (F ≠ .sec → relField F ≠ .relSec) ∧ .relSec ∉ finer F ∧ relField F ≠ .tz := by
    have : ∀ F ∈ absFields, absFields = finer F ++ F :: coarser F ∧ (finer F).Nodup ∧ (∀ f ∈ finer F, relField f ∉ finer F) ∧ .relWeek ∉ finer F ∧ F ∉ finer F ∧ relField F ∉ absFields ∧ relField F ∉ finer F ∧
      (F ≠ .sec → relField F ≠ .relSec) ∧ .relSec ∉ finer F ∧ relField F ≠ .tz := by decide +kernel
    exact this F hF
  obtain ⟨e0, e1, e2, e3, e4, e5, e6, e7, e8, e9⟩ := hsplit
  have hg := gRound_at now round hr (finer F) (coarser F) F g e1 (fun f hf => ⟨(h.unset f hf).1, (h.unset f hf).2, e2 f hf⟩) h.week e3 h.set ⟨e4, e6⟩
  rw [← e0] at hg
  have ft : ∀ f, f ∉ finer F → (fillWith epochValue (finer F) g).tm f = g.tm f := by
    intro f hf
    rw [fillWith_tm, if_neg (fun k => hf k.1)]
  obtain ⟨g1, u1, u2, u3⟩ := gUp_at (fillWith epochValue (finer F) g) F round (by rw [ft _ e6]; exact i1) (by rw [ft _ e8]; exact i2) e7
  rw [u1] at hg
  refine ⟨_, hg, ?_, ?_, ?_⟩
  · intro f hf
    have n1 : f ≠ relField F := fun e => e5 (e ▸ hf)
    have n2 : f ≠ .relSec := by
      intro e
      rw [e] at hf
      revert hf
      decide
    have hx : extra round F f = 0 := by
      unfold extra
      split
      · rfl
      · have hz : (if f = Field.relSec ∧ round = .upInclusive then (1 : Int) else 0) = 0 := if_neg (fun k => n2 k.1)
        rw [hz]
        rfl
    rw [fillWith_tm, u3 f n1 n2, u2, hx, fillWith_set, fillWith_tm]
    unfold base
    by_cases a : f ∈ finer F
    · have b := (h.unset f a).1
      have c : ¬(f ∈ F :: coarser F ∧ (if f ∈ finer F ∧ g.set f = FieldSet.unset then FieldSet.set else g.set f) = FieldSet.unset) := by
        rintro ⟨_, k⟩
        rw [if_pos ⟨a, b⟩] at k
        cases k
      rw [if_neg c, if_pos ⟨a, b⟩, if_neg (fun k => k b), if_pos a]
      omega
    · have a' : ¬(f ∈ finer F ∧ g.set f = .unset) := fun k => a k.1
      rw [if_neg a', if_neg a', if_neg a]
      have hc : f ∈ F :: coarser F := by
        rw [e0, List.mem_append] at hf
        rcases hf with k | k
        · exact absurd k a
        · exact k
      by_cases b : g.set f = .unset
      · rw [if_pos ⟨hc, b⟩, if_neg (fun k => k b)]
      · rw [if_neg (fun k => b k.2), if_pos b]
        omega
  · intro f hf
    have n1 : ¬(f ∈ F :: coarser F) := by
      intro k
      apply hf
      rw [e0, List.mem_append]
      exact Or.inr k
    have n2 : f ∉ finer F := by
      intro k
      apply hf
      rw [e0, List.mem_append]
      exact Or.inl k
    rw [fillWith_tm, if_neg (fun k => n1 k.1), u2, ft f n2]
  · have n1 : ¬(Field.tz ∈ F :: coarser F) := by
      intro k
      have : Field.tz ∈ absFields := by rw [e0, List.mem_append]; exact Or.inr k
      revert this
      decide
    have n2 : Field.tz ∉ finer F := by
      intro k
      have : Field.tz ∈ absFields := by rw [e0, List.mem_append]; exact Or.inl k
      revert this
      decide
    rw [fillWith_set, if_neg (fun k => n1 k.1), u3 .tz e9.symm (by decide), fillWith_set, if_neg (fun k => n2 k.1)]

/-- The fields in the end. -/
def endTm (now : Tm) (g : Given) (F : Field) (round : Round) : Tm :=
  let b := base now g F
  let r := fun f => g.tm f + extra round F f
  ⟨b .sec - r .relSec, b .min - r .relMin, b .hour - r .relHour, b .mday - r .relDay - 7 * r .relWeek, b .mon - r .relMon - 1, b .year - r .relYear - 1900, 0⟩

/-- An `int` is enough for all of them. -/
def Fits (now : Tm) (g : Given) (F : Field) (round : Round) : Prop :=
  let b := base now g F
  let r := fun f => g.tm f + extra round F f
  inInt (g.tm (relField F) - 1) = true ∧ inInt (g.tm .relSec + 1) = true ∧ inInt (b .sec - r .relSec) = true ∧ inInt (b .min - r .relMin) = true ∧ inInt (b .hour - r .relHour) = true ∧
    inInt (b .mday - r .relDay) = true ∧ inInt (7 * r .relWeek) = true ∧ inInt (b .mday - r .relDay - 7 * r .relWeek) = true ∧ inInt (b .mon - r .relMon - 1) = true ∧
    inInt (b .year - r .relYear - 1900) = true

/-- No field is as it is now, no weekday, no am or pm. -/
structure Simple (g : Given) : Prop where
  now : ∀ f, g.set f ≠ .now
  wday : g.set .wday = .unset
  ampm : g.set .ampm = .unset

theorem gNow_simple (now : Tm) (g : Given) (h : ∀ f, g.set f ≠ .now) : ∀ l, gNow now l g = g := by
  intro l
  induction l with
  | nil => rfl
  | cons f l ih =>
    unfold gNow
    rw [if_neg (h f)]
    exact ih

theorem gInstant_tz (z : Zone) (g g' : Given) (h1 : g'.set .tz = g.set .tz) (h2 : g'.tm .tz = g.tm .tz) : gInstant z g' = gInstant z g := by
  funext tm
  unfold gInstant Given.isSet
  rw [h1, h2]

theorem extra_tz (round : Round) (F : Field) (h : F ∈ absFields) : extra round F .tz = 0 := by
  have : ∀ F ∈ absFields, Field.tz ≠ relField F := by decide
  unfold extra
  split
  · rfl
  · rw [if_neg (this F h), if_neg (by simp)]
    rfl

/-- After the weekday and am/pm. -/
theorem rest_finest (z : Zone) (now : Tm) (g : Given) (F : Field) (round : Round) (hr : round ≠ .none) (h : Finest g F) (hf : Fits now g F round) :
    ((gRound now absFields g round .none).bind fun p => gEnd z p.1 p.2) = outcome (gInstant z g (endTm now g F round)) := by
  obtain ⟨f1, f2, f3, f4, f5, f6, f7, f8, f9, f10⟩ := hf
  obtain ⟨g', e, t1, t2, t3⟩ := gRound_finest now round hr F g h f1 f2
  rw [e]
  simp only [Except.bind]
  have a1 := t1 .sec (by decide)
  have a2 := t1 .min (by decide)
  have a3 := t1 .hour (by decide)
  have a4 := t1 .mday (by decide)
  have a5 := t1 .mon (by decide)
  have a6 := t1 .year (by decide)
  have b1 := t2 .relSec (by decide)
  have b2 := t2 .relMin (by decide)
  have b3 := t2 .relHour (by decide)
  have b4 := t2 .relDay (by decide)
  have b5 := t2 .relMon (by decide)
  have b6 := t2 .relYear (by decide)
  have b7 := t2 .relWeek (by decide)
  have b8 := t2 .tz (by decide)
  rw [extra_tz round F h.abs, Int.add_zero] at b8
  unfold gEnd
  have hin : gInInt g' = true := by
    unfold gInInt
    rw [a1, a2, a3, a4, a5, a6, b1, b2, b3, b4, b5, b6, b7]
    simp only [Bool.and_eq_true]
    exact ⟨⟨⟨⟨⟨⟨⟨f3, f4⟩, f5⟩, f6⟩, f7⟩, f8⟩, f9⟩, f10⟩
  have htm : gTm g' = endTm now g F round := by
    unfold gTm endTm
    rw [a1, a2, a3, a4, a5, a6, b1, b2, b3, b4, b5, b6, b7]
  rw [hin, htm, gInstant_tz z g g' t3 b8]
  simp only [Bool.not_true, Bool.false_eq_true, if_false, weekTm, if_true, Option.bind_some]
  cases gInstant z g (endTm now g F round) <;> rfl

theorem out_finest (z : Zone) (now : Tm) (ref : Int) (g : Given) (F : Field) (round : Round) (hz : gInit z g ref = some now) (hr : round ≠ .none) (hs : Simple g) (h : Finest g F) (hf : Fits now g F round) :
    gOut z g ref round = outcome (gInstant z g (endTm now g F round)) := by
  unfold gOut
  rw [hz]
  simp only
  rw [gNow_simple now g hs.now]
  have e1 : gWday now g = .ok g := by
    unfold gWday Given.isSet
    rw [hs.wday]
    simp
  have e2 : gAmpm g = .ok g := by
    unfold gAmpm Given.isSet
    rw [hs.ampm]
    simp
  rw [e1]
  simp only [Except.bind]
  rw [e2]
  exact rest_finest z now g F round hr h hf

end Notmuch.Time
