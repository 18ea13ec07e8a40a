import Verif.Proofs.SexpMeans

namespace Notmuch.Sexp

open Notmuch.StringUtil (stripTrailing)

variable {c : Ctx}

theorem bindParams_iff (e : Env) : ∀ (ps as : List Sexp) (new r : Env), bindParams e ps as new = some r ↔
    ∃ names : List Str, ps = names.map (.atom false) ∧ names.length = as.length ∧ r = (names.zip as).foldl (fun new na => .bind na.1 na.2 e new) new
  | [], [], new, r => by
    simp only [bindParams, Option.some.injEq]
    constructor
    · rintro rfl
      exact ⟨[], rfl, rfl, rfl⟩
    · rintro ⟨names, h1, h2, h3⟩
      cases names with
      | nil => exact h3.symm
      | cons n ns => cases h2
  | [], a :: as, new, r => by
    simp only [bindParams]
    constructor
    · intro h; cases h
    · rintro ⟨names, h1, h2, h3⟩
      cases names with
      | nil => cases h2
      | cons n ns => cases h1
  | p :: ps, as, new, r => by
    cases p with
    | list l =>
      simp only [bindParams]
      constructor
      · intro h; cases h
      · rintro ⟨names, h1, h2, h3⟩
        cases names with
        | nil => cases h1
        | cons n ns => cases h1
    | atom q n =>
      cases q with
      | true =>
        simp only [bindParams]
        constructor
        · intro h; cases h
        · rintro ⟨names, h1, h2, h3⟩
          cases names with
          | nil => cases h1
          | cons n ns => cases h1
      | false =>
        cases as with
        | nil =>
          simp only [bindParams]
          constructor
          · intro h; cases h
          · rintro ⟨names, h1, h2, h3⟩
            cases names with
            | nil => cases h1
            | cons n ns => cases h2
        | cons a as =>
          simp only [bindParams]
          rw [bindParams_iff e ps as]
          constructor
          · rintro ⟨names, h1, h2, h3⟩
            exact ⟨n :: names, by rw [h1]; rfl, by simp [h2], h3⟩
          · rintro ⟨names, h1, h2, h3⟩
            cases names with
            | nil => cases h1
            | cons m ns =>
              simp only [List.map_cons, List.cons.injEq, Sexp.atom.injEq, true_and] at h1
              obtain ⟨rfl, h1⟩ := h1
              exact ⟨ns, h1, by simpa using h2, h3⟩

theorem one_atom {args : List Sexp} (h : (args.length == 1 && args.all isAtom) = true) : ∃ q a, args = [.atom q a] := by
  simp only [Bool.and_eq_true, beq_iff_eq] at h
  match args, h with
  | [.atom q a], _ => exact ⟨q, a, rfl⟩
  | [.list l], h => simp [isAtom] at h

theorem pre_iff {pre t : Str} : pre.isPrefixOf t = true ↔ ∃ s, t = pre ++ s := by
  rw [List.isPrefixOf_iff_prefix]
  constructor
  · rintro ⟨s, rfl⟩; exact ⟨s, rfl⟩
  · rintro ⟨s, rfl⟩; exact ⟨s, rfl⟩

theorem expand_holds (n : Str) (q : Query) (d : Doc) : (queryExpand c n q).holds c d = true ↔
    ∃ t, c.termPrefix n ++ t ∈ d.terms ∧ ∃ d' ∈ c.docs, c.termPrefix n ++ t ∈ d'.terms ∧ q.holds c d' = true := by
  unfold queryExpand
  simp only [Query.holds, List.any_eq_true, List.contains_iff_mem, List.mem_filter, List.mem_flatMap, pre_iff]
  constructor
  · rintro ⟨t, ⟨⟨d', ⟨h1, h2⟩, h3⟩, s, rfl⟩, h4⟩
    exact ⟨s, h4, d', h1, h3, h2⟩
  · rintro ⟨s, h4, d', h1, h3, h2⟩
    exact ⟨_, ⟨⟨d', ⟨h1, h2⟩, h3⟩, s, rfl⟩, h4⟩

theorem anyTerm_holds (n : Str) (f : Str → Bool) (d : Doc) :
    (Query.anyTerm ((allTerms c (c.termPrefix n)).filter (fun t => f (t.drop (c.termPrefix n).length)))).holds c d = true ↔
    ∃ t, c.termPrefix n ++ t ∈ d.terms ∧ f t = true ∧ ∃ d' ∈ c.docs, c.termPrefix n ++ t ∈ d'.terms := by
  unfold allTerms
  simp only [Query.holds, List.any_eq_true, List.contains_iff_mem, List.mem_filter, List.mem_flatMap, pre_iff]
  constructor
  · rintro ⟨t, ⟨⟨⟨d', h1, h2⟩, s, rfl⟩, h3⟩, h4⟩
    exact ⟨s, h4, by simpa using h3, d', h1, h2⟩
  · rintro ⟨s, h4, h3, d', h1, h2⟩
    exact ⟨_, ⟨⟨⟨d', h1, h2⟩, s, rfl⟩, by simpa using h3⟩, h4⟩

theorem findSlot_iff (n : Str) (slot : Slot) : findSlot n = some slot ↔
    (n, slot) ∈ [(bs "from", Slot.sender), (bs "subject", Slot.subject), (bs "mid", Slot.messageId)] := by
  have h1 : bs "subject" ≠ bs "from" := by decide +kernel
  have h2 : bs "mid" ≠ bs "from" := by decide +kernel
  have h3 : bs "mid" ≠ bs "subject" := by decide +kernel
  unfold findSlot
  simp only [List.mem_cons, Prod.mk.injEq, List.not_mem_nil, or_false]
  by_cases ha : n = bs "from"
  · simp [ha, Ne.symm h1, Ne.symm h2, eq_comm]
  by_cases hb : n = bs "subject"
  · simp [hb, h1, Ne.symm h3, eq_comm]
  by_cases hc : n = bs "mid"
  · simp [hc, h2, h3, eq_comm]
  simp [ha, hb, hc]

theorem findSlot_none (n : Str) : findSlot n = none ↔ n ≠ bs "from" ∧ n ≠ bs "subject" ∧ n ≠ bs "mid" := by
  have h1 : bs "subject" ≠ bs "from" := by decide +kernel
  have h2 : bs "mid" ≠ bs "from" := by decide +kernel
  have h3 : bs "mid" ≠ bs "subject" := by decide +kernel
  unfold findSlot
  by_cases ha : n = bs "from"
  · simp [ha]
  by_cases hb : n = bs "subject"
  · simp [hb, h1]
  by_cases hc : n = bs "mid"
  · simp [hc, h2, h3]
  simp [ha, hb, hc]

theorem slot_fields : ∀ p ∈ [(bs "from", Slot.sender), (bs "subject", Slot.subject), (bs "mid", Slot.messageId)], p.1 ∈ regexFields := by decide +kernel

section
variable (f : Option Prefix → Env → Sexp → Option Res)

/-- What `f` makes is right. -/
def Sound (c : Ctx) : Prop := ∀ parent π e sx q, Rel parent π → f parent e sx = some (.ok q) → Means c π e sx (fun d => q.holds c d = true)

variable {f} (hf : Sound f c)
include hf

theorem prefix_sound {parent : Option Prefix} {π : Place} (hr : Rel parent π) {e : Env} {b : Bool} {n : Str} {args : List Sexp} (hb : Builtin c n) {q : Query}
    (h : evalPrefix c f parent e n args = some (.ok q)) : Means c π e (.list (.atom b n :: args)) (fun d => q.holds c d = true) := by
  by_cases hn : n ∈ fields
  · rw [ep_field _ _ _ _ _ hn] at h
    cases hr with
    | top =>
      simp only [Option.isSome_none, Bool.false_eq_true, if_false] at h
      obtain ⟨h1, h2⟩ := (combine_iff _ _ _ _ _).1 h
      have hargs : ∀ x ∈ args, Means c (.field n) e x (fun d => (qOf (f (some (fieldP n)) e) x).holds c d = true) :=
        fun x hx => hf _ _ _ _ _ (.field hn) (h1 x hx)
      rcases fieldP_op n hn with ⟨ho, h3, h4⟩ | ⟨ho, h3, h4⟩
      · rw [h2, h3, initial, h4]
        refine means_congr (.orField hb ho hargs) (fun d => ?_)
        rw [holds_fold_or]
        simp [Query.holds]
      · rw [h2, h3, initial, h4]
        refine means_congr (.andField hb ho hargs) (fun d => ?_)
        rw [holds_fold_and]
        simp [Query.holds]
    | field _ => cases h
    | user => cases h
  · by_cases ho : n ∈ others
    · simp only [others, List.mem_cons, List.not_mem_nil, or_false] at ho
      rcases ho with rfl | rfl | rfl | rfl | rfl | rfl | rfl | ho | ho | rfl | ho | ho
      · rw [ep_and] at h
        obtain ⟨h1, h2⟩ := (combine_iff _ _ _ _ _).1 h
        rw [h2]
        refine means_congr (.and hb (fun x hx => hf _ _ _ _ _ hr (h1 x hx))) (fun d => ?_)
        rw [holds_fold_and]
        simp [Query.holds]
      · rw [ep_or] at h
        obtain ⟨h1, h2⟩ := (combine_iff _ _ _ _ _).1 h
        rw [h2]
        refine means_congr (.or hb (fun x hx => hf _ _ _ _ _ hr (h1 x hx))) (fun d => ?_)
        rw [holds_fold_or]
        simp [Query.holds]
      · rw [ep_not] at h
        obtain ⟨h1, h2⟩ := (combine_iff _ _ _ _ _).1 h
        rw [h2]
        refine means_congr (.not hb (fun x hx => hf _ _ _ _ _ hr (h1 x hx))) (fun d => ?_)
        rw [holds_fold_not]
        simp [Query.holds]
      · rw [ep_date] at h
        cases hr with
        | field _ => cases h
        | user => cases h
        | top =>
          simp only [Option.isSome_none, Bool.false_eq_true, if_false, Option.some.injEq] at h
          unfold parseRange at h
          split at h
          · cases h
            exact means_congr (.anyRange hb (Or.inl rfl)) (fun d => by simp [Query.holds])
          · rename_i q1 a
            rw [rangeQuery, if_pos rfl] at h
            obtain ⟨g1, g2⟩ := date_range (c := c) a a
            exact means_congr (.date1 hb (g1.2 ⟨_, h⟩)) (fun d => (g2 q h d).symm)
          · rename_i q1 a q2 b'
            rw [rangeQuery, if_pos rfl] at h
            obtain ⟨g1, g2⟩ := date_range (c := c) a b'
            exact means_congr (.date hb (g1.2 ⟨_, h⟩)) (fun d => (g2 q h d).symm)
          · cases h
      · rw [ep_lastmod] at h
        have hne : bs "lastmod" ≠ bs "date" := by decide +kernel
        cases hr with
        | field _ => cases h
        | user => cases h
        | top =>
          simp only [Option.isSome_none, Bool.false_eq_true, if_false, Option.some.injEq] at h
          unfold parseRange at h
          split at h
          · cases h
            exact means_congr (.anyRange hb (Or.inr rfl)) (fun d => by simp [Query.holds])
          · rename_i q1 a
            rw [rangeQuery, if_neg hne, if_pos rfl] at h
            obtain ⟨g1, g2⟩ := lastmod_range (c := c) a a
            exact means_congr (.lastmod1 hb (g1.2 ⟨_, h⟩)) (fun d => (g2 q h d).symm)
          · rename_i q1 a q2 b'
            rw [rangeQuery, if_neg hne, if_pos rfl] at h
            obtain ⟨g1, g2⟩ := lastmod_range (c := c) a b'
            exact means_congr (.lastmod hb (g1.2 ⟨_, h⟩)) (fun d => (g2 q h d).symm)
          · cases h
      · rw [ep_infix] at h
        cases hr with
        | field _ => cases h
        | user => cases h
        | top =>
          simp only [Option.isSome_none, Bool.false_eq_true, if_false] at h
          split at h
          · rename_i h1
            obtain ⟨q1, a, rfl⟩ := one_atom h1
            simp only [List.headD_cons, text, infixRes, Option.some.injEq] at h
            split at h
            · rename_i h2
              cases h
              exact means_congr (.infixed hb h2) (fun d => by simp [Query.holds])
            · cases h
            · rename_i h2
              split at h
              · rename_i h3
                cases h
                exact means_congr (.infixFailed hb h2 h3) (fun d => by simp [Query.holds])
              · cases h
          · cases h
      · rw [ep_query] at h
        cases hr with
        | field _ => cases h
        | user => cases h
        | top =>
          simp only [Option.isSome_none, Bool.false_eq_true, if_false] at h
          split at h
          · rename_i h1
            obtain ⟨q1, a, rfl⟩ := one_atom h1
            simp only [List.headD_cons, text, namedRes, Option.some.injEq] at h
            split at h
            · rename_i h2
              cases h
              exact means_congr (.named hb h2) (fun d => by simp [Query.holds])
            · cases h
          · cases h
      · exact rx hr hb (Or.inl ho) h
      · exact rx hr hb (Or.inr ho) h
      · rw [ep_starts] at h
        split at h
        · rename_i h1
          obtain ⟨q1, a, rfl⟩ := one_atom h1
          simp only [List.headD_cons] at h
          split at h
          · cases h
          · rename_i s hs
            simp only [Option.some.injEq] at h
            obtain ⟨g1, g2⟩ := (wildcard_holds hr s q).1 h
            exact means_congr (.startsWith hb ((expandTerm_text _ _ _).1 hs) g1) (fun d => (g2 d).symm)
        · cases h
      · exact mat hr hb (Or.inl ho) h
      · exact mat hr hb (Or.inr ho) h
    · rw [ep_none _ _ _ _ _ hn ho] at h
      cases h
where
  rx {parent : Option Prefix} {π : Place} (hr : Rel parent π) {e : Env} {b : Bool} {n : Str} {args : List Sexp} (hb : Builtin c n) {q : Query}
      (hn : n = bs "regex" ∨ n = bs "rx") (h : evalPrefix c f parent e n args = some (.ok q)) : Means c π e (.list (.atom b n :: args)) (fun d => q.holds c d = true) := by
    rw [ep_rx _ _ _ _ _ hn] at h
    split at h
    · rename_i h1
      obtain ⟨q1, a, rfl⟩ := one_atom h1
      simp only [List.headD_cons, Option.some.injEq] at h
      cases hr with
      | top => cases h
      | user => cases h
      | @field m hm =>
        unfold parseRegex at h
        simp only [(fieldP_flags m hm).2.1, (fieldP_facts m hm).2.1] at h
        split at h
        · rename_i hrf
          have hrf : m ∈ regexFields := by simpa using hrf
          split at h
          · cases h
          · rename_i s hs
            have hs := (expandTerm_text _ _ _).1 hs
            unfold regexToQuery at h
            split at h
            · cases h
            · rename_i g hg
              split at h
              · rename_i slot hslot
                cases h
                refine means_congr (.regexHeader hb hn hs hg ((findSlot_iff m slot).1 hslot)) (fun d => ?_)
                simp [Query.holds, hg]
              · rename_i hslot
                cases h
                obtain ⟨g1, g2, g3⟩ := (findSlot_none m).1 hslot
                exact means_congr (.regexTerm hb hn hs hg hrf g1 g2 g3) (fun d => (anyTerm_holds m g d).symm)
        · cases h
    · cases h
  mat {parent : Option Prefix} {π : Place} (hr : Rel parent π) {e : Env} {b : Bool} {n : Str} {args : List Sexp} (hb : Builtin c n) {q : Query}
      (hn : n = bs "matching" ∨ n = bs "of") (h : evalPrefix c f parent e n args = some (.ok q)) : Means c π e (.list (.atom b n :: args)) (fun d => q.holds c d = true) := by
    rw [ep_matching _ _ _ _ _ hn] at h
    cases hr with
    | top => cases h
    | user => cases h
    | @field m hm =>
      simp only [(fieldP_flags m hm).2.2.1, (fieldP_facts m hm).2.1] at h
      split at h
      · rename_i hx
        have hx : m ∈ expandFields := by simpa using hx
        split at h
        · rename_i q' hq'
          simp only [Option.some.injEq, Res.ok.injEq] at h
          rw [← h]
          obtain ⟨h1, h2⟩ := (combine_iff _ _ _ _ _).1 hq'
          refine means_congr (.matching hb hn hx (fun x hx' => hf _ _ _ _ _ .top (h1 x hx'))) (fun d => ?_)
          rw [expand_holds, h2]
          simp only [holds_fold_and, Query.holds, true_and]
        · rename_i hno
          exact absurd h (hno q)
      · cases h

theorem head_sound {parent : Option Prefix} {π : Place} (hr : Rel parent π) {e : Env} {b : Bool} {n : Str} {args : List Sexp} {q : Query}
    (h : evalHead c f parent e n args = some (.ok q)) : Means c π e (.list (.atom b n :: args)) (fun d => q.holds c d = true) := by
  unfold evalHead at h
  split at h
  · cases h
  · rename_i s hs
    unfold applySaved at h
    split at h
    · cases h
    · cases h
    · rename_i hd rest
      split at h
      · rename_i hm
        simp only [Bool.and_eq_true, decide_eq_true_eq] at hm
        obtain ⟨b', rfl⟩ : ∃ b', hd = .atom b' (bs "macro") := by
          cases hd with
          | atom b' v => exact ⟨b', by rw [show v = bs "macro" from hm.2]⟩
          | list l => cases hm.1
        split at h
        · rename_i params body junk
          split at h
          · cases h
          · rename_i new hnew
            obtain ⟨names, h1, h2, h3⟩ := (bindParams_iff _ _ _ _ _).1 hnew
            refine .macro (names := names) (body := body) (junk := junk) (b := b') (by rw [hs, h1]) h2 ?_
            rw [h3] at h
            exact hf _ _ _ _ _ hr h
        · cases h
      · rename_i hm
        refine .saved hs (fun b' hh => hm ?_) (hf _ _ _ _ _ hr h)
        rw [hh]
        simp [isAtom, text]
  · rename_i hs
    split at h
    · rename_i hu
      cases hr with
      | field _ => cases h
      | user => cases h
      | top =>
        simp only [Option.isSome_none, Bool.false_eq_true, if_false] at h
        obtain ⟨h1, h2⟩ := (combine_iff _ _ _ _ _).1 h
        rw [h2]
        refine means_congr (.userField hs hu (fun x hx => hf _ _ _ _ _ .user (h1 x hx))) (fun d => ?_)
        rw [holds_fold_and]
        simp [Query.holds]
    · rename_i hu
      split at h
      · cases h
      · exact prefix_sound hf hr ⟨hs, by simpa using hu⟩ h

end

/-- A query that is made means the messages it finds. -/
theorem eval_sound : ∀ n, Sound (eval c n) c
  | 0 => by
    intro parent π e sx q _ h
    cases h
  | n + 1 => by
    intro parent π e sx q hr h
    match sx with
    | .atom b v =>
      unfold eval at h
      simp only at h
      split at h
      · rename_i name hp
        split at h
        · cases h
        · rename_i sx' e' hres
          exact .param hp hres (eval_sound n _ _ _ _ _ hr h)
      · rename_i hp
        simp only [Option.some.injEq] at h
        exact atom_sound hr hp h
    | .list [] =>
      unfold eval at h
      cases h
      exact means_congr .everything (fun d => by simp [Query.holds])
    | .list (.list _ :: _) =>
      unfold eval at h
      cases h
    | .list (.atom b name :: args) =>
      unfold eval at h
      exact head_sound (eval_sound n) hr h

end Notmuch.Sexp
