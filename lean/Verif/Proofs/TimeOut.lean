import Verif.Proofs.TimeItems
import Verif.Proofs.Calendar

/-! # Proofs: from the fields to a time -/

namespace Notmuch.Time

/-! ## Without the rest of the state -/

def gAdd (g : Given) (f : Field) (v : Int) : Except Err Given := if inInt (g.tm f + v) then .ok (g.add f (g.tm f + v)) else .error .overflow

def gFill (g : Given) (f : Field) (v : Int) : Given := if g.set f = .unset then g.add f v else g

def Given.isSet (g : Given) (f : Field) : Bool := g.set f ≠ .unset

def gNow (now : Tm) : List Field → Given → Given
  | [], g => g
  | f :: l, g => if g.set f = .now then gNow now l (g.add f (tmField now f)) else gNow now l g

def gWday (now : Tm) (g : Given) : Except Err Given :=
  if g.isSet .wday ∧ !g.isSet .mday then
    (gAdd g .relDay (if now.wday > g.tm .wday then now.wday - g.tm .wday else now.wday + 7 - g.tm .wday)).bind (fun g => .ok ⟨put g.set .wday .unset, put g.tm .wday 0⟩)
  else .ok g

def gAmpm (g : Given) : Except Err Given :=
  if !g.isSet .ampm then .ok g
  else if !g.isSet .hour then .error .timeFormat
  else if !valid12Hour (g.tm .hour) then .error .invalidTime
  else gAdd g .relHour (-(if g.tm .ampm ≠ 0 then (if g.tm .hour ≠ 12 then 12 else 0) else (if g.tm .hour = 12 then -12 else 0)))

def gUp (g : Given) (f : Field) (round : Round) : Except Err Given :=
  if (round = .up ∨ round = .upInclusive) ∧ f ≠ .sec then
    (gAdd g (relField f) (-1)).bind (fun g => if round = .upInclusive then gAdd g .relSec 1 else .ok g)
  else .ok g

def gRound (now : Tm) : List Field → Given → Round → Round → Except Err (Given × Round)
  | [], g, _, week => .ok (g, week)
  | f :: l, g, round, week =>
    if round = .none then gRound now l (gFill g f (tmField now f)) .none week
    else if g.isSet f || g.isSet (relField f) then (gUp g f round).bind (fun g => gRound now l (gFill g f (tmField now f)) .none week)
    else if f = .mday ∧ g.isSet .relWeek then gRound now l (gFill g f (tmField now f)) .none round
    else gRound now l (gFill (gFill g f (epochValue f)) f (tmField now f)) round week

def gTm (g : Given) : Tm :=
  ⟨g.tm .sec - g.tm .relSec, g.tm .min - g.tm .relMin, g.tm .hour - g.tm .relHour, g.tm .mday - g.tm .relDay - 7 * g.tm .relWeek, g.tm .mon - g.tm .relMon - 1,
    g.tm .year - g.tm .relYear - 1900, 0⟩

def gInInt (g : Given) : Bool :=
  inInt (g.tm .sec - g.tm .relSec) && inInt (g.tm .min - g.tm .relMin) && inInt (g.tm .hour - g.tm .relHour) && inInt (g.tm .mday - g.tm .relDay) &&
  inInt (7 * g.tm .relWeek) && inInt (g.tm .mday - g.tm .relDay - 7 * g.tm .relWeek) && inInt (g.tm .mon - g.tm .relMon - 1) && inInt (g.tm .year - g.tm .relYear - 1900)

def gInstant (z : Zone) (g : Given) (tm : Tm) : Option Int := if g.isSet .tz then timegm { tm with min := tm.min - g.tm .tz } else z.mktime tm

/-- The time that there is after all of this. -/
def gEnd (z : Zone) (g : Given) (week : Round) : Except Err Int :=
  if !gInInt g then .error .overflow
  else
    match (weekTm z (gTm g) week).bind (gInstant z g) with
    | none => .error .lib
    | some t => .ok t

def gInit (z : Zone) (g : Given) (ref : Int) : Option Tm := if g.isSet .tz then gmtime (ref + g.tm .tz * 60) else z.localtime ref

def gOut (z : Zone) (g : Given) (ref : Int) (round : Round) : Except Err Int :=
  match gInit z g ref with
  | none => .error .lib
  | some now => (gWday now (gNow now absFields g)).bind fun g => (gAmpm g).bind fun g => (gRound now absFields g round .none).bind fun p => gEnd z p.1 p.2

/-- The state has these fields and no number is postponed. -/
def Clean (st : State) (g : Given) : Prop := Has st g ∧ st.postLen = 0

/-- They come out alike. -/
def Alike (a : Except Err State) (b : Except Err Given) : Prop :=
  match a, b with
  | .ok st, .ok g => Clean st g
  | .error e, .error e' => e = e'
  | _, _ => False

theorem Clean.isSet {st : State} {g : Given} (h : Clean st g) (f : Field) : st.isSet f = g.isSet f := by
  unfold State.isSet Given.isSet
  rw [h.1.1]

theorem Clean.tm {st : State} {g : Given} (h : Clean st g) (f : Field) : st.tm f = g.tm f := by rw [h.1.2]

theorem alike_add {st : State} {g : Given} (h : Clean st g) (f : Field) (v : Int) : Alike (addToField st f v) (gAdd g f v) := by
  unfold addToField gAdd
  have e : parsePostponed { st with set := put st.set f .set } = .ok { st with set := put st.set f .set } := parsePostponed_clean h.2
  rw [e]
  simp only [Except.bind, h.1.2]
  by_cases hi : inInt (g.tm f + v) = true
  · rw [if_pos hi, if_pos hi]
    refine ⟨⟨?_, ?_⟩, h.2⟩
    · simp only [Given.add, h.1.1]
    · simp only [Given.add]
  · rw [if_neg hi, if_neg hi]
    rfl

theorem clean_fill {st : State} {g : Given} (h : Clean st g) (f : Field) (v : Int) : Clean (setIfUnset st f v) (gFill g f v) := by
  unfold setIfUnset gFill
  by_cases hs : g.set f = .unset
  · obtain ⟨st', e, r⟩ := setField_means (f := f) v (h.1.means h.2) hs
    rw [e, if_pos hs]
    exact ⟨r.has, r.post⟩
  · rw [setField_again v (by rw [h.1.1]; exact hs), if_neg hs]
    exact h

theorem alike_bind {a : Except Err State} {b : Except Err Given} {α : Type} {k : State → Except Err α} {l : Given → Except Err α} (h : Alike a b)
    (hk : ∀ st g, Clean st g → k st = l g) : a.bind k = b.bind l := by
  cases a with
  | error e =>
    cases b with
    | error e' =>
      have : e = e' := h
      rw [this]
      rfl
    | ok g => exact absurd h id
  | ok st =>
    cases b with
    | error e' => exact absurd h id
    | ok g => exact hk st g h

theorem alike_then {a : Except Err State} {b : Except Err Given} {k : State → Except Err State} {l : Given → Except Err Given} (h : Alike a b)
    (hk : ∀ st g, Clean st g → Alike (k st) (l g)) : Alike (a.bind k) (b.bind l) := by
  cases a with
  | error e =>
    cases b with
    | error e' => exact h
    | ok g => exact absurd h id
  | ok st =>
    cases b with
    | error e' => exact absurd h id
    | ok g => exact hk st g h

theorem clean_now (now : Tm) : ∀ (l : List Field) {st : State} {g : Given}, Clean st g → Clean (fillNow st now l) (gNow now l g) := by
  intro l
  induction l with
  | nil => exact fun h => h
  | cons f l ih =>
    intro st g h
    unfold fillNow gNow
    rw [h.1.1]
    split
    · apply ih
      refine ⟨⟨?_, ?_⟩, h.2⟩
      · rfl
      · simp only [Given.add, h.1.2]
    · exact ih h

theorem alike_wday (now : Tm) {st : State} {g : Given} (h : Clean st g) : Alike (fixWday st now) (gWday now g) := by
  unfold fixWday gWday
  rw [h.isSet, h.isSet, h.tm]
  split
  · apply alike_then (alike_add h _ _)
    intro st' g' h'
    exact ⟨⟨by simp only [h'.1.1], by simp only [h'.1.2]⟩, h'.2⟩
  · exact h

theorem alike_ampm {st : State} {g : Given} (h : Clean st g) : Alike (fixAmpm st) (gAmpm g) := by
  unfold fixAmpm gAmpm
  rw [h.isSet, h.isSet, h.tm, h.tm]
  split
  · exact h
  · split
    · rfl
    · split
      · rfl
      · exact alike_add h _ _

/-- Likewise with rounding. -/
def Alike2 (a : Except Err (State × Round)) (b : Except Err (Given × Round)) : Prop :=
  match a, b with
  | .ok p, .ok q => Clean p.1 q.1 ∧ p.2 = q.2
  | .error e, .error e' => e = e'
  | _, _ => False

theorem alike_round (now : Tm) : ∀ (l : List Field) {st : State} {g : Given} (round week : Round), Clean st g → Alike2 (roundFields now l st round week) (gRound now l g round week) := by
  intro l
  induction l with
  | nil => exact fun _ _ h => ⟨h, rfl⟩
  | cons f l ih =>
    intro st g round week h
    unfold roundFields gRound
    simp only [h.isSet]
    split
    · exact ih _ _ (clean_fill h _ _)
    · split
      · have hu : Alike (if (round = .up ∨ round = .upInclusive) ∧ f ≠ .sec then (addToField st (relField f) (-1)).bind (fun st => if round = .upInclusive then addToField st .relSec 1 else .ok st) else .ok st)
            (gUp g f round) := by
          unfold gUp
          split
          · apply alike_then (alike_add h _ _)
            intro st' g' h'
            split
            · exact alike_add h' _ _
            · exact h'
          · exact h
        revert hu
        generalize (if (round = .up ∨ round = .upInclusive) ∧ f ≠ .sec then _ else _ : Except Err State) = a
        generalize gUp g f round = b
        intro hu
        cases a with
        | error e =>
          cases b with
          | error e' => exact hu
          | ok g => exact absurd hu id
        | ok st' =>
          cases b with
          | error e' => exact absurd hu id
          | ok g' => exact ih _ _ (clean_fill hu _ _)
      · split
        · exact ih _ _ (clean_fill h _ _)
        · exact ih _ _ (clean_fill (clean_fill h _ _) _ _)

/-! ## All fields are set in the end -/

theorem fill_isSet (g : Given) (f : Field) (v : Int) : (gFill g f v).set f ≠ .unset ∧ ∀ h, g.set h ≠ .unset → (gFill g f v).set h ≠ .unset := by
  unfold gFill
  split
  · refine ⟨by simp [Given.add, put], ?_⟩
    intro h hh
    unfold Given.add put
    simp only
    split
    · decide
    · exact hh
  · rename_i hne
    exact ⟨hne, fun h hh => hh⟩

theorem gAdd_isSet {g g' : Given} {f : Field} {v : Int} (e : gAdd g f v = .ok g') : ∀ h, g.set h ≠ .unset → g'.set h ≠ .unset := by
  unfold gAdd at e
  split at e
  · rw [← Except.ok.inj e]
    intro h hh
    unfold Given.add put
    simp only
    split
    · decide
    · exact hh
  · cases e

theorem gUp_isSet {g g' : Given} {f : Field} {r : Round} (e : gUp g f r = .ok g') : ∀ h, g.set h ≠ .unset → g'.set h ≠ .unset := by
  unfold gUp at e
  split at e
  · cases ha : gAdd g (relField f) (-1) with
    | error x => rw [ha] at e; simp [Except.bind] at e
    | ok g1 =>
      rw [ha] at e
      simp only [Except.bind] at e
      split at e
      · exact fun h hh => gAdd_isSet e h (gAdd_isSet ha h hh)
      · rw [← Except.ok.inj e]
        exact gAdd_isSet ha
  · rw [← Except.ok.inj e]
    exact fun h hh => hh

theorem gRound_isSet (now : Tm) : ∀ (l : List Field) (g : Given) (round week : Round) (p : Given × Round), gRound now l g round week = .ok p →
    (∀ f, g.set f ≠ .unset → p.1.set f ≠ .unset) ∧ ∀ f ∈ l, p.1.set f ≠ .unset := by
  intro l
  induction l with
  | nil =>
    intro g round week p e
    rw [← Except.ok.inj e]
    exact ⟨fun f h => h, fun f h => absurd h (by simp)⟩
  | cons f l ih =>
    intro g round week p e
    unfold gRound at e
    have fin : ∀ g0 round' week', (∀ h, g.set h ≠ .unset → g0.set h ≠ .unset) → gRound now l (gFill g0 f (tmField now f)) round' week' = .ok p →
        (∀ f, g.set f ≠ .unset → p.1.set f ≠ .unset) ∧ ∀ x ∈ f :: l, p.1.set x ≠ .unset := by
      intro g0 round' week' h0 e
      obtain ⟨h1, h2⟩ := ih _ _ _ _ e
      have hf := fill_isSet g0 f (tmField now f)
      refine ⟨fun x hx => h1 x (hf.2 x (h0 x hx)), ?_⟩
      intro x hx
      rcases List.mem_cons.1 hx with hx | hx
      · rw [hx]
        exact h1 f hf.1
      · exact h2 x hx
    split at e
    · exact fin g _ _ (fun _ h => h) e
    · split at e
      · cases hu : gUp g f round with
        | error x => rw [hu] at e; simp [Except.bind] at e
        | ok g1 =>
          rw [hu] at e
          exact fin g1 _ _ (gUp_isSet hu) e
      · split at e
        · exact fin g _ _ (fun _ h => h) e
        · exact fin _ _ _ (fill_isSet g f (epochValue f)).2 e

theorem setIfUnset_set {st : State} {g : Given} (h : Clean st g) {f : Field} (v : Int) (hs : g.set f ≠ .unset) : setIfUnset st f v = st := by
  unfold setIfUnset
  rw [setField_again v (by rw [h.1.1]; exact hs)]

theorem createOutput_eq (z : Zone) (st : State) (g : Given) (ref : Int) (round : Round) (h : Clean st g) : createOutput z st ref round = gOut z g ref round := by
  unfold createOutput gOut
  have hi : initNow z st ref = gInit z g ref := by
    unfold initNow gInit
    rw [h.isSet, h.tm]
  rw [hi]
  cases gInit z g ref with
  | none => rfl
  | some now =>
    simp only
    apply alike_bind (alike_wday now (clean_now now absFields h))
    intro st1 g1 h1
    apply alike_bind (alike_ampm h1)
    intro st2 g2 h2
    have hr := alike_round now absFields round .none h2
    cases ha : roundFields now absFields st2 round .none with
    | error e =>
      cases hb : gRound now absFields g2 round .none with
      | error e' =>
        rw [ha, hb] at hr
        have : e = e' := hr
        rw [this]
        rfl
      | ok q => rw [ha, hb] at hr; exact absurd hr id
    | ok p =>
      cases hb : gRound now absFields g2 round .none with
      | error e' => rw [ha, hb] at hr; exact absurd hr id
      | ok q =>
        rw [ha, hb] at hr
        obtain ⟨st3, w⟩ := p
        obtain ⟨g3, w'⟩ := q
        obtain ⟨hc, hw⟩ := hr
        simp only at hw hc
        subst hw
        have hall := (gRound_isSet now absFields g2 round .none _ hb).2
        have hfw : fillWeek st3 now = st3 := by
          unfold fillWeek
          rw [setIfUnset_set hc _ (hall .sec (by decide)), setIfUnset_set hc _ (hall .min (by decide)), setIfUnset_set hc _ (hall .hour (by decide)), setIfUnset_set hc _ (hall .mday (by decide))]
        simp only [Except.bind]
        rw [hfw]
        have e1 : (if w = Round.none then st3 else st3) = st3 := by split <;> rfl
        rw [e1]
        unfold gEnd
        have e2 : tmInInt st3 = gInInt g3 := by unfold tmInInt gInInt; rw [hc.1.2]
        have e3 : toTm st3 = gTm g3 := by unfold toTm gTm; rw [hc.1.2]
        have e4 : toInstant z st3 = gInstant z g3 := by
          funext tm
          unfold toInstant gInstant
          rw [hc.isSet, hc.tm]
        rw [e2, e3, e4]
        rfl

/-- What comes out for a text. -/
theorem parseTimeString_adds {text : Str} {P : Given → Prop} {U : Given → Given} (h : Adds text P U) (hp : P Given.none) (z : Zone) (ref : Int) (round : Round) :
    parseTimeString z text ref round = gOut z (U Given.none) ref round := by
  obtain ⟨st, e, h1, h2⟩ := h.parse hp
  unfold parseTimeString
  have : parseInput text.length .init text = .ok st := e
  rw [this]
  exact createOutput_eq z st _ ref round ⟨h1, h2⟩

theorem parseTimeString_eq {text : Str} {P : Given → Prop} {U : Given → Given} (h : DoesLast text P U) (hp : P Given.none) (z : Zone) (ref : Int) (round : Round) :
    parseTimeString z text ref round = gOut z (U Given.none) ref round := by
  obtain ⟨st, e, h1, h2⟩ := h.parse hp
  unfold parseTimeString
  have : parseInput text.length .init text = .ok st := e
  rw [this]
  exact createOutput_eq z st _ ref round ⟨h1, h2⟩

end Notmuch.Time
