import Verif.Proofs.Draft2

namespace Notmuch.Draft
variable {fold : UInt8 → UInt8} {tags : List Str}

theorem pre_iff : ∀ (p t : Str), pre fold p t = true ↔ ∃ q b, t = q ++ b ∧ Same fold q p := by
  intro p
  induction p with
  | nil =>
    intro t
    rw [pre_nil]
    exact ⟨fun _ => ⟨[], t, rfl, rfl⟩, fun _ => rfl⟩
  | cons x p ih =>
    intro t
    cases t with
    | nil =>
      constructor
      · intro h; cases h
      · rintro ⟨q, b, h1, h2⟩
        have := (List.append_eq_nil_iff.1 h1.symm).1
        subst this
        cases h2
    | cons c t =>
      rw [pre_cons, ih]
      constructor
      · rintro ⟨h1, q, b, h2, h3⟩
        exact ⟨c :: q, b, by rw [h2]; rfl, by unfold Same at *; rw [List.map_cons, List.map_cons, h1, h3]⟩
      · rintro ⟨q, b, h2, h3⟩
        cases q with
        | nil => cases h3
        | cons d q =>
          unfold Same at h3
          rw [List.map_cons, List.map_cons] at h3
          injection h3 with h3 h4
          injection h2 with h5 h6
          exact ⟨by rw [h5, h3], q, b, h6, h4⟩

theorem anywhere_iff (f : Str → Bool) : ∀ t, anywhere f t = true ↔ ∃ a u, t = a ++ u ∧ f u = true := by
  intro t
  induction t with
  | nil =>
    constructor
    · intro h; exact ⟨[], [], rfl, h⟩
    · rintro ⟨a, u, h1, h2⟩
      have := (List.append_eq_nil_iff.1 h1.symm).2
      subst this
      exact h2
  | cons c t ih =>
    unfold anywhere
    rw [Bool.or_eq_true, ih]
    constructor
    · rintro (h | ⟨a, u, h1, h2⟩)
      · exact ⟨[], _, rfl, h⟩
      · exact ⟨c :: a, u, by rw [h1]; rfl, h2⟩
    · rintro ⟨a, u, h1, h2⟩
      cases a with
      | nil => left; rw [h1]; exact h2
      | cons d a => injection h1 with h3 h4; exact .inr ⟨a, u, h4, h2⟩

theorem within_iff (f : Str → Bool) : ∀ t, within f t = true ↔ ∃ a u, t = a ++ u ∧ 10 ∉ a ∧ f u = true := by
  intro t
  induction t with
  | nil =>
    constructor
    · intro h; exact ⟨[], [], rfl, by simp, h⟩
    · rintro ⟨a, u, h1, _, h2⟩
      have := (List.append_eq_nil_iff.1 h1.symm).2
      subst this
      exact h2
  | cons c t ih =>
    unfold within
    rw [Bool.or_eq_true, Bool.and_eq_true, ih]
    constructor
    · rintro (h | ⟨hc, a, u, h1, h3, h2⟩)
      · exact ⟨[], _, rfl, by simp, h⟩
      · refine ⟨c :: a, u, by rw [h1]; rfl, ?_, h2⟩
        intro h
        rcases List.mem_cons.1 h with h | h
        · rw [← h] at hc; exact absurd hc (by decide)
        · exact h3 h
    · rintro ⟨a, u, h1, h3, h2⟩
      cases a with
      | nil => left; rw [h1]; exact h2
      | cons d a =>
        injection h1 with h5 h4
        refine .inr ⟨?_, a, u, h4, fun h => h3 (List.mem_cons_of_mem _ h), h2⟩
        have : c ≠ 10 := fun h => h3 (by rw [← h5, h]; exact List.mem_cons_self)
        simpa using this

theorem same_length {a b : Str} (h : Same fold a b) : a.length = b.length := by
  have := congrArg List.length h
  simpa using this

theorem encTag_iff (t : Str) : encTag fold t = true ↔ WantsEncryption fold t := by
  unfold encTag WantsEncryption
  rw [anywhere_iff]
  constructor
  · rintro ⟨a, u, h1, h2⟩
    rw [Bool.or_eq_true, Bool.and_eq_true] at h2
    rcases h2 with h2 | ⟨h2, h3⟩
    · obtain ⟨p, b, h4, h5⟩ := (pre_iff _ _).1 h2
      exact .inl ⟨a, p, b, by rw [h1, h4, List.append_assoc], h5⟩
    · obtain ⟨p, b0, h4, h5⟩ := (pre_iff _ _).1 h2
      have hl : p.length = 8 := same_length h5
      rw [h4, List.drop_left' hl, within_iff] at h3
      obtain ⟨b, w, h6, h7, h8⟩ := h3
      rw [Bool.and_eq_true] at h8
      obtain ⟨q, b1, h9, h10⟩ := (pre_iff _ _).1 h8.1
      have hl2 : q.length = 5 := same_length h10
      have h11 := h8.2
      rw [h9, List.drop_left' hl2, within_iff] at h11
      obtain ⟨c, x, h12, h13, h14⟩ := h11
      obtain ⟨r, d, h15, h16⟩ := (pre_iff _ _).1 h14
      exact .inr ⟨a, p, b, q, c, r, d, by rw [h1, h4, h6, h9, h12, h15]; simp only [List.append_assoc], h5, h10, h16, h7, h13⟩
  · rintro (⟨a, p, b, h1, h2⟩ | ⟨a, p, b, q, c, r, d, h1, h2, h3, h4, h5, h6⟩)
    · exact ⟨a, p ++ b, by rw [h1, List.append_assoc], by rw [Bool.or_eq_true]; exact .inl ((pre_iff _ _).2 ⟨p, b, rfl, h2⟩)⟩
    · refine ⟨a, p ++ (b ++ (q ++ (c ++ (r ++ d)))), by rw [h1]; simp only [List.append_assoc], ?_⟩
      rw [Bool.or_eq_true, Bool.and_eq_true]
      refine .inr ⟨(pre_iff _ _).2 ⟨p, _, rfl, h2⟩, ?_⟩
      rw [List.drop_left' (show p.length = 8 from same_length h2), within_iff]
      refine ⟨b, _, rfl, h5, ?_⟩
      rw [Bool.and_eq_true]
      refine ⟨(pre_iff _ _).2 ⟨q, _, rfl, h3⟩, ?_⟩
      rw [List.drop_left' (show q.length = 5 from same_length h3), within_iff]
      exact ⟨c, _, rfl, h6, (pre_iff _ _).2 ⟨r, d, rfl, h4⟩⟩

/-- The entries after the draft `c` was marked. -/
theorem mark_append (a b : List Entry) (c : Option Str) : mark ⟨a ++ b, c⟩ = mark ⟨a, c⟩ ++ mark ⟨b, c⟩ := by
  cases c with
  | none => rfl
  | some c => unfold mark; dsimp only; rw [List.map_append]

theorem mark_fresh {a : List Entry} {c : Str} (h : ∀ e ∈ a, e.id ≠ c) : mark ⟨a, some c⟩ = a := by
  unfold mark
  dsimp only
  conv => rhs; rw [← List.map_id a]
  apply List.map_congr_left
  intro e he
  rw [if_neg]
  · rfl
  · simpa using h e he

theorem mark_ids (a : List Entry) (c : Option Str) : (mark ⟨a, c⟩).map (fun e => (e.id, e.msg)) = a.map (fun e => (e.id, e.msg)) := by
  cases c with
  | none => rfl
  | some c =>
    unfold mark
    dsimp only
    rw [List.map_map]
    apply List.map_congr_left
    intro e he
    show ((if e.id == c then { e with deleted := true } else e).id, _) = _
    dsimp only [Function.comp]
    split <;> rfl

theorem mark_mem_id {a : List Entry} {c : Option Str} {e : Entry} (h : e ∈ mark ⟨a, c⟩) : ∃ e' ∈ a, e'.id = e.id := by
  have : (e.id, e.msg) ∈ (mark ⟨a, c⟩).map (fun e => (e.id, e.msg)) := List.mem_map_of_mem h
  rw [mark_ids] at this
  obtain ⟨e', h1, h2⟩ := List.mem_map.1 this
  exact ⟨e', h1, congrArg Prod.fst h2⟩

theorem save_none {s : State} {id date : Str} {m : Msg} {policy : Policy} {ins mk : Bool} (h : ((encTag fold m.body && !policy.allows) || !ins) = true) :
    step fold tags s (.save id date m policy ins mk) = (s, false) := by
  unfold step
  dsimp only
  rw [Bool.or_eq_true] at h
  rcases h with h | h
  · rw [if_pos h]
  · cases encTag fold m.body && !policy.allows with
    | true => rfl
    | false => rw [if_neg (by simp), if_pos h]

theorem save_some {s : State} {id date : Str} {m : Msg} {policy : Policy} {ins mk : Bool} (h : ((encTag fold m.body && !policy.allows) || !ins) = false) :
    step fold tags s (.save id date m policy ins mk) =
      if s.cur.isSome && !mk then ({ s with db := s.db ++ [⟨id, saved fold tags id date m, false⟩] }, false)
      else (⟨mark ⟨s.db ++ [⟨id, saved fold tags id date m, false⟩], s.cur⟩, some id⟩, true) := by
  rw [Bool.or_eq_false_iff] at h
  unfold step
  dsimp only
  rw [if_neg (by rw [h.1]; simp), if_neg (by rw [h.2]; simp)]

/-- What can be in the database after the message was saved some times, whatever failed. -/
theorem history (es : List Event) : ∀ (s : State), NoSend es → ((inserted fold tags es).map Prod.fst).Nodup → (∀ i ∈ (inserted fold tags es).map Prod.fst, (∀ e ∈ s.db, e.id ≠ i) ∧ s.cur ≠ some i) →
    ∃ D : List Entry, ((run fold tags s es).db = s.db ++ D ∨ (run fold tags s es).db = mark s ++ D) ∧ D.map (fun e => (e.id, e.msg)) = inserted fold tags es ∧
      (∀ e, D.getLast? = some e → e.deleted = false) ∧ (inserted fold tags es = [] → run fold tags s es = s) := by
  induction es with
  | nil => intro s _ _ _; exact ⟨[], .inl (by rw [List.append_nil]; rfl), rfl, by simp, fun _ => rfl⟩
  | cons e es ih =>
    intro s hn hnd hfr
    have hn' : NoSend es := fun e he => hn e (List.mem_cons_of_mem _ he)
    cases e with
    | send a b => exact absurd rfl (hn _ List.mem_cons_self a b)
    | save id date m policy ins mk =>
      show ∃ D : List Entry, ((run fold tags (step fold tags s (.save id date m policy ins mk)).1 es).db = s.db ++ D ∨
        (run fold tags (step fold tags s (.save id date m policy ins mk)).1 es).db = mark s ++ D) ∧ _ ∧ _ ∧ (_ → run fold tags (step fold tags s (.save id date m policy ins mk)).1 es = s)
      cases hb : (encTag fold m.body && !policy.allows) || !ins with
      | true =>
        rw [save_none hb]
        unfold inserted at hnd hfr ⊢
        rw [hb] at hnd hfr ⊢
        exact ih s hn' hnd hfr
      | false =>
        rw [save_some hb]
        unfold inserted at hnd hfr ⊢
        rw [hb] at hnd hfr ⊢
        simp only [Bool.false_eq_true, if_false] at hnd hfr ⊢
        rw [List.map_cons, List.nodup_cons] at hnd
        have hid := hfr id (by simp)
        have hrest : ∀ i ∈ (inserted fold tags es).map Prod.fst, i ≠ id := fun i hi h => hnd.1 (h ▸ hi)
        let new : Entry := ⟨id, saved fold tags id date m, false⟩
        have hmn : mark ⟨[new], s.cur⟩ = [new] := by
          cases hc : s.cur with
          | none => rfl
          | some c => exact mark_fresh (by intro e he h; rw [List.mem_singleton.1 he] at h; exact hid.2 (by rw [hc]; exact congrArg some h.symm))
        split
        · -- the old one was not marked
          obtain ⟨D, h1, h2, h3, h4⟩ := ih { s with db := s.db ++ [new] } hn' hnd.2 (by
            intro i hi
            have := hfr i (List.mem_cons_of_mem _ hi)
            refine ⟨?_, this.2⟩
            intro e he
            rcases List.mem_append.1 he with he | he
            · exact this.1 e he
            · rw [List.mem_singleton.1 he]; exact (hrest i hi).symm)
          refine ⟨new :: D, ?_, by rw [List.map_cons, h2], ?_, by intro h; cases h⟩
          · rcases h1 with h1 | h1
            · left; rw [h1]; simp
            · right
              rw [h1]
              show mark ⟨s.db ++ [new], s.cur⟩ ++ D = _
              rw [mark_append, hmn]; simp
          · intro e he
            cases D with
            | nil => cases he; rfl
            | cons d D => exact h3 e (by simpa using he)
        · -- the old one was marked
          have hs1 : mark ⟨s.db ++ [new], s.cur⟩ = mark s ++ [new] := by rw [mark_append, hmn]
          obtain ⟨D, h1, h2, h3, h4⟩ := ih ⟨mark ⟨s.db ++ [new], s.cur⟩, some id⟩ hn' hnd.2 (by
            intro i hi
            have := hfr i (List.mem_cons_of_mem _ hi)
            refine ⟨?_, fun h => hrest i hi (Option.some.inj h).symm⟩
            intro e he
            obtain ⟨e', he', h⟩ := mark_mem_id he
            rw [← h]
            rcases List.mem_append.1 he' with he' | he'
            · exact this.1 e' he'
            · rw [List.mem_singleton.1 he']; exact (hrest i hi).symm)
          have hms : mark ⟨mark s ++ [new], some id⟩ = mark s ++ [{ new with deleted := true }] := by
            rw [mark_append, mark_fresh (a := mark s)]
            · unfold mark; dsimp only; rw [List.map_cons, List.map_nil, if_pos (by simp [new])]
            · intro e he h
              obtain ⟨e', he', h'⟩ := mark_mem_id he
              exact hid.1 e' he' (h'.trans h)
          cases hi : inserted fold tags es with
          | nil =>
            rw [h4 hi]
            refine ⟨[new], .inr hs1, rfl, ?_, by intro h; cases h⟩
            intro e he; cases he; rfl
          | cons i is =>
            have hD : ∃ d D', D = d :: D' := by
              cases D with
              | nil => rw [hi] at h2; cases h2
              | cons d D => exact ⟨d, D, rfl⟩
            obtain ⟨d, D', hD⟩ := hD
            have hlast : ∀ (x : Entry) e, (x :: D).getLast? = some e → e.deleted = false := by
              intro x e he
              apply h3 e
              rw [hD] at he ⊢
              simpa using he
            rcases h1 with h1 | h1
            · refine ⟨new :: D, .inr ?_, by rw [List.map_cons, h2, hi], hlast new, by intro h; cases h⟩
              rw [h1]
              show mark ⟨s.db ++ [new], s.cur⟩ ++ D = _
              rw [hs1]; simp
            · refine ⟨{ new with deleted := true } :: D, .inr ?_, by rw [List.map_cons, h2, hi], hlast _, by intro h; cases h⟩
              rw [h1, hs1, hms]; simp

/-- When no marking fails. -/
theorem history_ok (es : List Event) : ∀ (s : State), NoSend es → (∀ id date m policy ins mk, Event.save id date m policy ins mk ∈ es → mk = true) →
    ((inserted fold tags es).map Prod.fst).Nodup → (∀ i ∈ (inserted fold tags es).map Prod.fst, (∀ e ∈ s.db, e.id ≠ i) ∧ s.cur ≠ some i) → inserted fold tags es ≠ [] →
    run fold tags s es = ⟨mark s ++ ended (inserted fold tags es), (inserted fold tags es).getLast?.map Prod.fst⟩ := by
  induction es with
  | nil => intro s _ _ _ _ h; exact absurd rfl h
  | cons e es ih =>
    intro s hn hok hnd hfr hne
    have hn' : NoSend es := fun e he => hn e (List.mem_cons_of_mem _ he)
    have hok' : ∀ id date m policy ins mk, Event.save id date m policy ins mk ∈ es → mk = true := fun a b c d e f h => hok a b c d e f (List.mem_cons_of_mem _ h)
    cases e with
    | send a b => exact absurd rfl (hn _ List.mem_cons_self a b)
    | save id date m policy ins mk =>
      have hmk : mk = true := hok _ _ _ _ _ _ List.mem_cons_self
      subst hmk
      show run fold tags (step fold tags s (.save id date m policy ins true)).1 es = _
      cases hb : (encTag fold m.body && !policy.allows) || !ins with
      | true =>
        rw [save_none hb]
        unfold inserted at hnd hfr hne ⊢
        rw [hb] at hnd hfr hne ⊢
        exact ih s hn' hok' hnd hfr hne
      | false =>
        rw [save_some hb, if_neg (by simp)]
        unfold inserted at hnd hfr ⊢
        rw [hb] at hnd hfr ⊢
        simp only [Bool.false_eq_true, if_false] at hnd hfr ⊢
        rw [List.map_cons, List.nodup_cons] at hnd
        have hid := hfr id (by simp)
        have hrest : ∀ i ∈ (inserted fold tags es).map Prod.fst, i ≠ id := fun i hi h => hnd.1 (h ▸ hi)
        let new : Entry := ⟨id, saved fold tags id date m, false⟩
        have hmn : mark ⟨[new], s.cur⟩ = [new] := by
          cases hc : s.cur with
          | none => rfl
          | some c => exact mark_fresh (by intro e he h; rw [List.mem_singleton.1 he] at h; exact hid.2 (by rw [hc]; exact congrArg some h.symm))
        have hs1 : mark ⟨s.db ++ [new], s.cur⟩ = mark s ++ [new] := by rw [mark_append, hmn]
        have hms : mark ⟨mark s ++ [new], some id⟩ = mark s ++ [{ new with deleted := true }] := by
          rw [mark_append, mark_fresh (a := mark s)]
          · unfold mark; dsimp only; rw [List.map_cons, List.map_nil, if_pos (by simp [new])]
          · intro e he h
            obtain ⟨e', he', h'⟩ := mark_mem_id he
            exact hid.1 e' he' (h'.trans h)
        have hfr' : ∀ i ∈ (inserted fold tags es).map Prod.fst, (∀ e ∈ (⟨mark s ++ [new], some id⟩ : State).db, e.id ≠ i) ∧ (⟨mark s ++ [new], some id⟩ : State).cur ≠ some i := by
          intro i hi
          have := hfr i (List.mem_cons_of_mem _ hi)
          refine ⟨?_, fun h => hrest i hi (Option.some.inj h).symm⟩
          intro e he
          rcases List.mem_append.1 he with he | he
          · obtain ⟨e', he', h⟩ := mark_mem_id he
            rw [← h]
            exact this.1 e' he'
          · rw [List.mem_singleton.1 he]; exact (hrest i hi).symm
        show run fold tags ⟨mark ⟨s.db ++ [new], s.cur⟩, some id⟩ es = _
        rw [hs1]
        cases hi : inserted fold tags es with
        | nil =>
          obtain ⟨D, _, _, _, h4⟩ := history (fold := fold) (tags := tags) es ⟨mark s ++ [new], some id⟩ hn' hnd.2 hfr'
          rw [h4 hi]
          rfl
        | cons i is =>
          rw [ih _ hn' hok' hnd.2 hfr' (by rw [hi]; simp), hms, hi]
          simp [ended, new]

end Notmuch.Draft
