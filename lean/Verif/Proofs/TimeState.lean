import Verif.Proofs.TimeTokens

/-! # Proofs: the fields of a time that have been given -/

namespace Notmuch.Time

/-- The fields with their values. -/
structure Given where
  set : Field → FieldSet
  tm : Field → Int

/-- One more field. -/
def Given.add (g : Given) (f : Field) (v : Int) : Given := ⟨put g.set f .set, put g.tm f v⟩

def Given.addAll (g : Given) : List (Field × Int) → Given
  | [] => g
  | (f, v) :: l => (g.add f v).addAll l

/-- Nothing is given. -/
def Given.none : Given := ⟨fun _ => .unset, fun _ => 0⟩

/-- The fields of a state; a number may be postponed. -/
def Has (st : State) (g : Given) : Prop := st.set = g.set ∧ st.tm = g.tm

/-- The fields of a state once the postponed number is taken as what it is. -/
def Means (st : State) (g : Given) : Prop := ∃ st', parsePostponed st = .ok st' ∧ Has st' g

theorem put_same {α : Type} (g : Field → α) (f : Field) (v : α) : put g f v f = v := by simp [put]

theorem put_other {α : Type} (g : Field → α) (f h : Field) (v : α) (e : h ≠ f) : put g f v h = g h := by simp [put, e]

theorem put_comm {α : Type} (g : Field → α) (f h : Field) (v w : α) (e : f ≠ h) : put (put g f v) h w = put (put g h w) f v := by
  funext x
  unfold put
  by_cases h1 : x = f
  · by_cases h2 : x = h
    · exact absurd (h1.symm.trans h2) e
    · rw [if_neg h2, if_pos h1, if_pos h1]
  · by_cases h2 : x = h
    · rw [if_pos h2, if_neg h1, if_pos h2]
    · rw [if_neg h2, if_neg h1, if_neg h1, if_neg h2]

/-- The field is marked as set. -/
def mark (st : State) (f : Field) : State := { st with set := put st.set f .set }

/-! ## Setting fields -/

theorem setField0_ok {st st' : State} {f : Field} {v : Int} (h : setField0 st f v = .ok st') :
    st.set f = .unset ∧ st' = { st with set := put st.set f .set, delim := 0, tm := put st.tm f v, last := some f } := by
  unfold setField0 at h
  split at h
  · cases h
  · rename_i hs
    refine ⟨?_, (Except.ok.inj h).symm⟩
    simpa [State.isSet] using hs

theorem setField0_mark {st st' : State} {f h : Field} {v : Int} (hs : setField0 st h v = .ok st') (hf : st'.set f = .unset) : setField0 (mark st f) h v = .ok (mark st' f) := by
  obtain ⟨h1, h2⟩ := setField0_ok hs
  have hne : f ≠ h := by
    intro e
    rw [h2, e] at hf
    simp [put] at hf
  have hn : ¬((mark st f).isSet h = true) := by
    simp [State.isSet, mark, put_other _ _ _ _ hne.symm, h1]
  unfold setField0
  rw [if_neg hn, h2]
  simp only [mark]
  rw [put_comm _ _ _ _ _ hne]

theorem setField0_keeps {st st' : State} {f h : Field} {v : Int} (hs : setField0 st h v = .ok st') (hf : st'.set f = .unset) : st.set f = .unset ∧ st'.tm f = st.tm f := by
  obtain ⟨h1, h2⟩ := setField0_ok hs
  have hne : f ≠ h := by
    intro e
    rw [h2, e] at hf
    simp [put] at hf
  rw [h2] at hf ⊢
  simp only [put_other _ _ _ _ hne] at hf ⊢
  exact ⟨hf, trivial⟩

theorem setAll0_cons {st st' : State} {f : Field} {v : Int} {l : List (Field × Int)} (h : setAll0 st ((f, v) :: l) = .ok st') : ∃ st1, setField0 st f v = .ok st1 ∧ setAll0 st1 l = .ok st' := by
  unfold setAll0 at h
  cases hs : setField0 st f v with
  | error e => rw [hs] at h; simp [Except.bind] at h
  | ok st1 =>
    rw [hs] at h
    exact ⟨st1, rfl, h⟩

theorem setAll0_keeps : ∀ {l : List (Field × Int)} {st st' : State} {f : Field}, setAll0 st l = .ok st' → st'.set f = .unset → st.set f = .unset ∧ st'.tm f = st.tm f := by
  intro l
  induction l with
  | nil =>
    intro st st' f h hf
    have := Except.ok.inj h
    rw [← this] at hf ⊢
    exact ⟨hf, rfl⟩
  | cons x l ih =>
    obtain ⟨g, v⟩ := x
    intro st st' f h hf
    obtain ⟨st1, h1, h2⟩ := setAll0_cons h
    obtain ⟨a, b⟩ := ih h2 hf
    obtain ⟨c, d⟩ := setField0_keeps h1 a
    exact ⟨c, b.trans d⟩

theorem setAll0_mark : ∀ {l : List (Field × Int)} {st st' : State} {f : Field}, setAll0 st l = .ok st' → st'.set f = .unset → setAll0 (mark st f) l = .ok (mark st' f) := by
  intro l
  induction l with
  | nil =>
    intro st st' f h hf
    have := Except.ok.inj h
    rw [← this]
    rfl
  | cons x l ih =>
    obtain ⟨g, v⟩ := x
    intro st st' f h hf
    obtain ⟨st1, h1, h2⟩ := setAll0_cons h
    unfold setAll0
    rw [setField0_mark h1 (setAll0_keeps h2 hf).1]
    exact ih h2 hf

theorem setAll0_post : ∀ {l : List (Field × Int)} {st st' : State}, setAll0 st l = .ok st' → st'.postLen = st.postLen := by
  intro l
  induction l with
  | nil =>
    intro st st' h
    rw [← Except.ok.inj h]
  | cons x l ih =>
    obtain ⟨g, v⟩ := x
    intro st st' h
    obtain ⟨st1, h1, h2⟩ := setAll0_cons h
    rw [ih h2, (setField0_ok h1).2]

theorem setAll0_delim : ∀ {l : List (Field × Int)} {st st' : State}, setAll0 st l = .ok st' → st'.delim = st.delim ∨ st'.delim = 0 := by
  intro l
  induction l with
  | nil =>
    intro st st' h
    left
    rw [← Except.ok.inj h]
  | cons x l ih =>
    obtain ⟨g, v⟩ := x
    intro st st' h
    obtain ⟨st1, h1, h2⟩ := setAll0_cons h
    right
    have e : st1.delim = 0 := by rw [(setField0_ok h1).2]
    rcases ih h2 with k | k
    · rw [k, e]
    · exact k

/-- A postponed number sets some fields. -/
theorem parsePostponed_form {st st' : State} (h : parsePostponed st = .ok st') :
    (st.postLen = 0 ∧ st' = st) ∨ ∃ l, setAll0 st.consume l = .ok st' ∧ ∀ f, st'.set f = .unset → parsePostponed (mark st f) = .ok (mark st' f) := by
  by_cases h0 : st.postLen = 0
  · left
    refine ⟨h0, ?_⟩
    unfold parsePostponed at h
    rw [if_pos h0] at h
    exact (Except.ok.inj h).symm
  · right
    unfold parsePostponed at h
    rw [if_neg h0] at h
    have single : ∀ f v, setField0 st.consume f v = .ok st' → setAll0 st.consume [(f, v)] = .ok st' := by
      intro f v hs
      simp [setAll0, hs, Except.bind]
    have hm : ∀ f, (mark st f).consume = mark st.consume f := fun f => rfl
    have hl : ∀ f, (mark st f).postLen = st.postLen := fun f => rfl
    have hv : ∀ f, (mark st f).postVal = st.postVal := fun f => rfl
    have hd : ∀ f, (mark st f).postDelim = st.postDelim := fun f => rfl
    have hla : ∀ f, (mark st.consume f).last = st.consume.last := fun f => rfl
    simp only at h
    split at h
    · rename_i c1
      split at h
      · rename_i c2
        split at h
        · rename_i c3
          refine ⟨_, single _ _ h, ?_⟩
          intro f hf
          unfold parsePostponed
          simp only [hm, hl, hv, hd, hla]
          rw [if_neg h0, if_pos c1, if_pos c2, if_pos c3]
          exact setField0_mark h hf
        · cases h
      · rename_i c2
        split at h
        · rename_i c3
          cases ht : userTz st.postDelim st.postVal 0 with
          | error e => rw [ht] at h; simp [Except.bind] at h
          | ok tz =>
            rw [ht] at h
            refine ⟨_, single _ _ h, ?_⟩
            intro f hf
            unfold parsePostponed
            simp only [hm, hl, hv, hd, hla]
            rw [if_neg h0, if_pos c1, if_neg c2, if_pos c3, ht]
            exact setField0_mark h hf
        · cases h
    · rename_i c1
      split at h
      · rename_i c2
        split at h
        · rename_i c3
          split at h
          · rename_i c4
            cases ht : userTz st.postDelim (st.postVal / 100) (st.postVal % 100) with
            | error e => rw [ht] at h; simp [Except.bind] at h
            | ok tz =>
              rw [ht] at h
              refine ⟨_, single _ _ h, ?_⟩
              intro f hf
              unfold parsePostponed
              simp only [hm, hl, hv, hd, hla]
              rw [if_neg h0, if_neg c1, if_pos c2, if_pos c3, if_pos c4, ht]
              exact setField0_mark h hf
          · cases h
        · rename_i c3
          refine ⟨_, single _ _ h, ?_⟩
          intro f hf
          unfold parsePostponed
          simp only [hm, hl, hv, hd, hla]
          rw [if_neg h0, if_neg c1, if_pos c2, if_neg c3]
          exact setField0_mark h hf
      · rename_i c2
        split at h
        · rename_i c3
          split at h
          · rename_i c4
            refine ⟨_, h, ?_⟩
            intro f hf
            unfold parsePostponed
            simp only [hm, hl, hv, hd, hla]
            rw [if_neg h0, if_neg c1, if_neg c2, if_pos c3, if_pos c4]
            exact setAll0_mark h hf
          · cases h
        · rename_i c3
          split at h
          · rename_i c5
            split at h
            · rename_i c4
              refine ⟨_, h, ?_⟩
              intro f hf
              unfold parsePostponed
              simp only [hm, hl, hv, hd, hla]
              rw [if_neg h0, if_neg c1, if_neg c2, if_neg c3, if_pos c5, if_pos c4]
              exact setAll0_mark h hf
            · cases h
          · cases h

theorem parsePostponed_clean {st : State} (h : st.postLen = 0) : parsePostponed st = .ok st := by
  unfold parsePostponed
  rw [if_pos h]

theorem parsePostponed_post {st st' : State} (h : parsePostponed st = .ok st') : st'.postLen = 0 := by
  rcases parsePostponed_form h with ⟨h0, rfl⟩ | ⟨l, hl, _⟩
  · exact h0
  · rw [setAll0_post hl]
    rfl

theorem parsePostponed_delim {st st' : State} (h : parsePostponed st = .ok st') (hd : st.delim ≠ 64) : st'.delim ≠ 64 := by
  rcases parsePostponed_form h with ⟨h0, rfl⟩ | ⟨l, hl, _⟩
  · exact hd
  · rcases setAll0_delim hl with k | k
    · rw [k]
      exact hd
    · rw [k]
      decide

theorem parsePostponed_keeps {st st' : State} {f : Field} (h : parsePostponed st = .ok st') (hf : st'.set f = .unset) : st.set f = .unset ∧ st'.tm f = st.tm f := by
  rcases parsePostponed_form h with ⟨h0, rfl⟩ | ⟨l, hl, _⟩
  · exact ⟨hf, rfl⟩
  · have := setAll0_keeps hl hf
    exact this

theorem parsePostponed_mark {st st' : State} {f : Field} (h : parsePostponed st = .ok st') (hf : st'.set f = .unset) : parsePostponed (mark st f) = .ok (mark st' f) := by
  rcases parsePostponed_form h with ⟨h0, rfl⟩ | ⟨l, hl, k⟩
  · exact parsePostponed_clean h0
  · exact k f hf

/-! ## Meaning -/

theorem Has.means {st : State} {g : Given} (h : Has st g) (h0 : st.postLen = 0) : Means st g := ⟨st, parsePostponed_clean h0, h⟩

/-- After a field is set: the state has just the fields, none is postponed. -/
structure Fresh (st : State) (g : Given) (f : Field) : Prop where
  has : Has st g
  post : st.postLen = 0
  delim : st.delim = 0
  last : st.last = some f

theorem Fresh.means {st : State} {g : Given} {f : Field} (h : Fresh st g f) : Means st g := h.has.means h.post

theorem setField_means {st : State} {g : Given} {f : Field} (v : Int) (h : Means st g) (hf : g.set f = .unset) : ∃ st', setField st f v = .ok st' ∧ Fresh st' (g.add f v) f := by
  obtain ⟨s1, h1, h2, h3⟩ := h
  have hu : s1.set f = .unset := by rw [h2]; exact hf
  have hs : ¬(st.isSet f = true) := by simp [State.isSet, (parsePostponed_keeps h1 hu).1]
  have hm : parsePostponed { st with set := put st.set f .set } = .ok (mark s1 f) := parsePostponed_mark h1 hu
  unfold setField
  rw [if_neg hs, hm]
  refine ⟨_, rfl, ⟨⟨?_, ?_⟩, ?_, rfl, rfl⟩⟩
  · show put s1.set f .set = put g.set f .set
    rw [h2]
  · show put s1.tm f v = put g.tm f v
    rw [h3]
  · show s1.postLen = 0
    exact parsePostponed_post h1

/-- A field that has been given already is an error. -/
theorem setField_again {st : State} {f : Field} (v : Int) (hf : st.set f ≠ .unset) : setField st f v = .error .alreadySet := by
  unfold setField
  rw [if_pos (by simp [State.isSet, hf])]

/-- The fields are different and not given. -/
def Free (g : Given) : List (Field × Int) → Prop
  | [] => True
  | (f, v) :: l => g.set f = .unset ∧ Free (g.add f v) l

theorem setAll_means : ∀ (l : List (Field × Int)) {st : State} {g : Given}, Means st g → Free g l → ∃ st', setAll st l = .ok st' ∧ Means st' (g.addAll l) ∧
    ∀ f ∈ l.getLast?.map Prod.fst, Fresh st' (g.addAll l) f := by
  intro l
  induction l with
  | nil =>
    intro st g h _
    exact ⟨st, rfl, h, by simp⟩
  | cons x l ih =>
    obtain ⟨f, v⟩ := x
    intro st g h hf
    obtain ⟨st1, h1, h2⟩ := setField_means v h hf.1
    obtain ⟨st2, h3, h4, h5⟩ := ih h2.means hf.2
    refine ⟨st2, ?_, h4, ?_⟩
    · unfold setAll
      rw [h1]
      exact h3
    · cases l with
      | nil =>
        intro f' hf'
        simp at hf'
        have e : setAll st1 [] = .ok st1 := rfl
        rw [e] at h3
        rw [← Except.ok.inj h3, ← hf']
        exact h2
      | cons y l =>
        intro f' hf'
        apply h5
        simpa using hf'

theorem setField0_clean {st : State} (f : Field) (v : Int) (h : st.postLen = 0) : setField0 st f v = setField st f v := by
  unfold setField0 setField
  split
  · rfl
  · have e : parsePostponed { st with set := put st.set f .set } = .ok { st with set := put st.set f .set } := parsePostponed_clean h
    rw [e]
    rfl

theorem setAll0_clean : ∀ (l : List (Field × Int)) {st : State}, st.postLen = 0 → setAll0 st l = setAll st l := by
  intro l
  induction l with
  | nil => exact fun _ => rfl
  | cons x l ih =>
    obtain ⟨f, v⟩ := x
    intro st h
    unfold setAll0 setAll
    rw [← setField0_clean f v h]
    cases hs : setField0 st f v with
    | error e => rfl
    | ok st' =>
      have := (setField0_ok hs).2
      exact ih (by rw [this]; exact h)

theorem setAll0_means (l : List (Field × Int)) {st : State} {g : Given} (h : Has st g) (h0 : st.postLen = 0) (hl : l ≠ []) (hf : Free g l) : ∃ st', setAll0 st l = .ok st' ∧ Has st' (g.addAll l) := by
  obtain ⟨st', e, _, fr⟩ := setAll_means l (h.means h0) hf
  refine ⟨st', by rw [setAll0_clean l h0]; exact e, ?_⟩
  exact (fr (l.getLast hl).1 (by rw [List.getLast?_eq_some_getLast hl]; simp)).has

theorem postpone_means {st : State} {g : Given} (v n : Int) (h : Means st g) :
    ∃ st', postpone st v n = .ok st' ∧ Has st' g ∧ st'.postLen = n ∧ st'.postVal = v ∧ st'.postDelim = st.delim ∧ (st.postLen = 0 → st'.last = st.last) ∧ (st.delim ≠ 64 → st'.delim ≠ 64) := by
  obtain ⟨s1, h1, h2⟩ := h
  unfold postpone
  rw [h1]
  refine ⟨_, rfl, h2, rfl, rfl, rfl, ?_, fun hd => by
    have := parsePostponed_delim h1 hd
    exact this⟩
  intro h0
  rw [parsePostponed_clean h0] at h1
  rw [Except.ok.inj h1]

theorem Means.delim {st : State} {g : Given} (c : UInt8) (h : Means st g) : Means { st with delim := c } g := by
  obtain ⟨s1, h1, h2⟩ := h
  by_cases h0 : st.postLen = 0
  · rw [parsePostponed_clean h0] at h1
    have e := Except.ok.inj h1
    refine ⟨{ st with delim := c }, parsePostponed_clean h0, ?_⟩
    rw [← e] at h2
    exact h2
  · refine ⟨s1, ?_, h2⟩
    rw [← h1]
    unfold parsePostponed
    rw [if_neg h0, if_neg h0]
    rfl

end Notmuch.Time
