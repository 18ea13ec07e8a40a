import Verif.Proofs.Args

/-! # Proofs: command line options, one after the other (C53) -/

namespace Notmuch.Args

/-- What comes of a value. -/
def finish (e : Entry) (args rest : List Str) (p : Handled × List Write) : Result × List Write :=
  match p.1 with
  | .failed => (.failed, p.2)
  | .overrun => (.overrun, p.2)
  | .giveback => (.rest args, p.2 ++ e.present.toList.map .present)
  | .ok => (.rest rest, p.2 ++ e.present.toList.map .present)

theorem useEntry_given (e : Entry) (c : UInt8) (v : Str) (neg : Bool) (args : List Str) :
    useEntry e (c :: v) neg args = finish e args args (process e .delim v neg) := by
  unfold useEntry
  simp only [reduceCtorEq, false_and, if_false]
  rfl

theorem useEntry_alone (e : Entry) (neg : Bool) (args : List Str) (h : e.kind = .bool ∨ nextArg args = none) :
    useEntry e [] neg args = finish e args args (process e .none [] neg) := by
  unfold useEntry
  have : (if True ∧ e.kind ≠ .bool then nextArg args else none) = none := by
    by_cases hk : e.kind = .bool
    · rw [if_neg (fun hh => hh.2 hk)]
    · rw [if_pos ⟨trivial, hk⟩]
      exact h.resolve_left hk
  simp only [this]
  rfl

theorem useEntry_next (e : Entry) (neg : Bool) {args : List Str} {v : Str} (hk : e.kind ≠ .bool) (h : nextArg args = some v) :
    useEntry e [] neg args = finish e args args.tail (process e .space v neg) := by
  unfold useEntry
  have : (if True ∧ e.kind ≠ .bool then nextArg args else none) = some v := by
    rw [if_pos ⟨trivial, hk⟩]
    exact h
  simp only [this]
  rfl

theorem finish_rest {e : Entry} {args rest r : List Str} {p : Handled × List Write} {w : List Write} (h : finish e args rest p = (.rest r, w)) :
    (∃ ws, p = (.ok, ws) ∧ r = rest ∧ w = ws ++ present e) ∨ (∃ ws, p = (.giveback, ws) ∧ r = args ∧ w = ws ++ present e) := by
  obtain ⟨q, ws⟩ := p
  cases q with
  | failed => injection h with h _; cases h
  | overrun => injection h with h _; cases h
  | giveback =>
    injection h with h1 h2
    injection h1 with h1
    exact Or.inr ⟨ws, rfl, h1.symm, h2.symm⟩
  | ok =>
    injection h with h1 h2
    injection h1 with h1
    exact Or.inl ⟨ws, rfl, h1.symm, h2.symm⟩

theorem nextArg_some {args : List Str} {v : Str} (h : nextArg args = some v) : args = v :: args.tail ∧ ¬bs "--" <+: v := by
  cases args with
  | nil => cases h
  | cons a l =>
    have h : (if bs "--" <+: a then none else some a) = some v := h
    split at h
    · cases h
    · rename_i hn
      injection h with h
      subst h
      exact ⟨rfl, hn⟩

theorem nextArg_cons {args : List Str} {v : Str} (h : ¬bs "--" <+: v) : nextArg (v :: args) = some v := by
  show (if bs "--" <+: v then none else some v) = some v
  rw [if_neg h]

theorem negatable_eq (k : Kind) : canNegate k = k.negatable := by cases k <;> rfl

theorem endsName_cases {after : Str} (h : endsName after = true) : after = [] ∨ ∃ c v, after = c :: v ∧ (c = 61 ∨ c = 58) := by
  cases after with
  | nil => exact Or.inl rfl
  | cons c v =>
    unfold endsName at h
    refine Or.inr ⟨c, v, rfl, ?_⟩
    simpa using h

theorem useEntry_takes {es : List Entry} {e : Entry} {n after : Str} {neg : Bool} {args r : List Str} {w : List Write} (he : e ∈ es) (hn : e.name = some n)
    (hneg : neg = true → e.kind.negatable = true) (hkw : ∀ p ∈ e.kind.keywords, p.1 ≠ []) (hends : endsName after = true)
    (h : useEntry e after neg args = (.rest r, w)) : Takes es ((spelled neg n ++ after) :: args) w r := by
  have back : ∀ {next : Next} {v : Str} {ws : List Write}, process e next v neg = (.giveback, ws) → (∀ a, args.head? = some a → ¬bs "--" <+: a → next = .space ∧ v = a) →
      after = [] → Takes es ((spelled neg n ++ after) :: args) (ws ++ present e) args := by
    intro next v ws hp hv ha
    obtain ⟨h0, k, d, i, h1, h2, h3, h4, rfl⟩ := (process_giveback _ _ _).1 hp
    subst ha
    have hneg : neg = false := by
      cases neg with
      | false => rfl
      | true =>
        have := hneg rfl
        rw [h1] at this
        cases this
    subst hneg
    rw [List.append_nil]
    refine .default he hn h1 h2 h4 ?_
    intro a ha hna j hj
    obtain ⟨g1, g2⟩ := hv a ha hna
    subst g1 g2
    rw [if_neg (by simp), findKeyword_none] at h3
    exact h3 j hj
  rcases endsName_cases hends with rfl | ⟨c, v, rfl, hc⟩
  · by_cases hk : e.kind = .bool
    · rw [useEntry_alone e neg args (Or.inl hk)] at h
      rcases finish_rest h with ⟨ws, hp, rfl, rfl⟩ | ⟨ws, hp, _, _⟩
      · obtain ⟨w, rfl, hw⟩ := (process_none e neg hkw ws).1 hp
        rw [List.append_nil]
        exact .alone he hn hneg hw
      · obtain ⟨_, k, d, i, h1, _⟩ := (process_giveback _ _ _).1 hp
        rw [hk] at h1
        cases h1
    · cases hna : nextArg args with
      | none =>
        rw [useEntry_alone e neg args (Or.inr hna)] at h
        rcases finish_rest h with ⟨ws, hp, rfl, rfl⟩ | ⟨ws, hp, rfl, rfl⟩
        · obtain ⟨w, rfl, hw⟩ := (process_none e neg hkw ws).1 hp
          rw [List.append_nil]
          exact .alone he hn hneg hw
        · refine back hp ?_ rfl
          intro a ha hna'
          cases r with
          | nil => cases ha
          | cons x l =>
            injection ha with ha
            subst ha
            rw [nextArg_cons hna'] at hna
            cases hna
      | some v =>
        rw [useEntry_next e neg hk hna] at h
        obtain ⟨h1, h2⟩ := nextArg_some hna
        rcases finish_rest h with ⟨ws, hp, rfl, rfl⟩ | ⟨ws, hp, rfl, rfl⟩
        · obtain ⟨w, rfl, hw⟩ := (process_ok (by simp) v neg ws).1 hp
          rw [List.append_nil]
          rw [h1]
          exact .next he hn hneg hk h2 hw
        · refine back hp ?_ rfl
          intro a ha _
          rw [h1] at ha
          injection ha with ha
          exact ⟨rfl, ha⟩
  · rw [useEntry_given] at h
    rcases finish_rest h with ⟨ws, hp, rfl, rfl⟩ | ⟨ws, hp, _, _⟩
    · obtain ⟨w, rfl, hw⟩ := (process_ok (by simp) v neg ws).1 hp
      exact .given he hn hneg hc hw
    · obtain ⟨h0, _⟩ := (process_giveback _ _ _).1 hp
      exact absurd rfl h0

/-- The other direction. -/
theorem takes_useEntry {es : List Entry} (hkw : ∀ e ∈ es, ∀ p ∈ e.kind.keywords, p.1 ≠ []) {args r : List Str} {w : List Write} (h : Takes es args w r) :
    ∃ e n neg after args', args = (spelled neg n ++ after) :: args' ∧ e ∈ es ∧ e.name = some n ∧ (neg = true → e.kind.negatable = true) ∧ endsName after = true ∧
      useEntry e after neg args' = (.rest r, w) := by
  cases h with
  | @given e n v c neg w args he hn hneg hc hw =>
    refine ⟨e, n, neg, c :: v, _, rfl, he, hn, hneg, ?_, ?_⟩
    · unfold endsName
      rcases hc with rfl | rfl <;> rfl
    · rw [useEntry_given, (process_ok (by simp) v neg _).2 ⟨w, rfl, hw⟩]
      rfl
  | @alone e n neg w args he hn hneg hw =>
    refine ⟨e, n, neg, [], _, by rw [List.append_nil], he, hn, hneg, rfl, ?_⟩
    rw [useEntry_alone, (process_none e neg (hkw e he) _).2 ⟨w, rfl, hw⟩]
    · rfl
    · cases hw with
      | bool hk => exact Or.inl hk
  | @next e n v neg w args he hn hneg hk hv hw =>
    refine ⟨e, n, neg, [], _, by rw [List.append_nil], he, hn, hneg, rfl, ?_⟩
    rw [useEntry_next e neg hk (nextArg_cons hv), (process_ok (by simp) v neg _).2 ⟨w, rfl, hw⟩]
    rfl
  | @default e n k d i args he hn hk hended hf hv =>
    refine ⟨e, n, false, [], _, by rw [List.append_nil], he, hn, fun h => Bool.noConfusion h, rfl, ?_⟩
    have hkb : e.kind ≠ .bool := by rw [hk]; simp
    cases hna : nextArg r with
    | none =>
      rw [useEntry_alone e false r (Or.inr hna), (process_giveback _ _ [.keyword e.var i]).2 ⟨by simp, k, d, i, hk, hended, ?_, hf, rfl⟩]
      · rfl
      · rw [if_pos rfl, findKeyword_none]
        intro j hj
        exact hkw e he ([], j) (by rw [hk]; exact hj) rfl
    | some v =>
      obtain ⟨h1, h2⟩ := nextArg_some hna
      rw [useEntry_next e false hkb hna, (process_giveback _ _ [.keyword e.var i]).2 ⟨by simp, k, d, i, hk, hended, ?_, hf, rfl⟩]
      · rfl
      · rw [if_neg (by simp), findKeyword_none]
        exact hv v (by rw [h1]; rfl) h2

theorem isPrefixOf_append (a b : Str) : a <+: a ++ b := ⟨b, rfl⟩

theorem drop_append (a b : Str) : (a ++ b).drop a.length = b := by simp

theorem afterName_iff (arg n after : Str) : afterName arg n = some after ↔ arg = n ++ after := by
  unfold afterName
  constructor
  · intro h
    split at h
    · rename_i hp
      obtain ⟨b, rfl⟩ := hp
      rw [drop_append] at h
      injection h with h
      rw [h]
    · cases h
  · rintro rfl
    rw [if_pos (isPrefixOf_append _ _), drop_append]

theorem afterName_none (arg n : Str) : afterName arg n = none ↔ ¬n <+: arg := by
  unfold afterName
  split <;> simp_all

/-- An entry that is tried. -/
theorem tryEntry_some {arg : Str} {args : List Str} {e : Entry} {x : Result × List Write} (h : tryEntry arg args e = some x) :
    ∃ n neg after, e.name = some n ∧ arg = (if neg then bs "no-" else []) ++ n ++ after ∧ (neg = true → e.kind.negatable = true) ∧ endsName after = true ∧
      x = useEntry e after neg args := by
  unfold tryEntry at h
  cases hn : e.name with
  | none =>
    rw [hn] at h
    cases h
  | some n =>
    rw [hn] at h
    have h : (match matchEntry arg e n with
      | none => none
      | some (after, negate) => if endsName after then some (useEntry e after negate args) else none) = some x := h
    cases hm : matchEntry arg e n with
    | none =>
      rw [hm] at h
      cases h
    | some p =>
      obtain ⟨after, neg⟩ := p
      rw [hm] at h
      have h : (if endsName after = true then some (useEntry e after neg args) else none) = some x := h
      split at h
      · rename_i hends
        injection h with h
        refine ⟨n, neg, after, rfl, ?_⟩
        unfold matchEntry at hm
        cases ha : afterName arg n with
        | some r =>
          rw [ha] at hm
          injection hm with hm
          injection hm with h1 h2
          subst h1 h2
          exact ⟨(afterName_iff _ _ _).1 ha, fun h => Bool.noConfusion h, hends, h.symm⟩
        | none =>
          rw [ha] at hm
          have hm : (if arg.length > negativePrefix.length ∧ negativePrefix <+: arg ∧ canNegate e.kind = true then
            (afterName (arg.drop negativePrefix.length) n).map (fun r => (r, true)) else none) = some (after, neg) := hm
          split at hm
          · rename_i hc
            obtain ⟨r, hr, heq⟩ := Option.map_eq_some_iff.1 hm
            injection heq with h1 h2
            subst h1 h2
            obtain ⟨_, ⟨b, hb⟩, hneg⟩ := hc
            rw [← hb, drop_append] at hr
            rw [negatable_eq] at hneg
            refine ⟨?_, fun _ => hneg, hends, h.symm⟩
            rw [← hb, (afterName_iff _ _ _).1 hr, if_pos rfl, List.append_assoc]
            rfl
          · cases hm
      · cases h

theorem tryEntry_pos {es : List Entry} (hg : Good es) {arg : Str} {args : List Str} {e : Entry} (he : e ∈ es) {n after : Str} {neg : Bool} (hn : e.name = some n)
    (harg : arg = (if neg then bs "no-" else []) ++ n ++ after) (hneg : neg = true → e.kind.negatable = true) (hends : endsName after = true) :
    tryEntry arg args e = some (useEntry e after neg args) := by
  have hm : matchEntry arg e n = some (after, neg) := by
    unfold matchEntry
    cases neg with
    | false =>
      rw [show afterName arg n = some after from (afterName_iff _ _ _).2 (by rw [harg]; rfl)]
    | true =>
      have hneg := hneg rfl
      have h1 := (hg.negated e he hneg n (by rw [hn]; rfl)).1
      have h2 : ¬n <+: arg := by
        intro h
        apply h1
        rw [harg] at h
        refine List.prefix_of_prefix_length_le h (List.prefix_append _ _) ?_
        simp
      have hn0 := (hg.names e he n (by rw [hn]; rfl)).1
      rw [(afterName_none _ _).2 h2]
      show (if arg.length > negativePrefix.length ∧ negativePrefix <+: arg ∧ canNegate e.kind = true then
            (afterName (arg.drop negativePrefix.length) n).map (fun r => (r, true)) else none) = some (after, true)
      have harg' : arg = negativePrefix ++ (n ++ after) := by
        rw [harg, if_pos rfl, List.append_assoc]
        rfl
      rw [if_pos]
      · rw [harg', drop_append, (afterName_iff _ _ _).2 rfl]
        rfl
      · refine ⟨?_, ?_, ?_⟩
        · rw [harg', List.length_append, List.length_append]
          have : 0 < n.length := List.length_pos_iff.2 hn0
          omega
        · rw [harg']
          exact isPrefixOf_append _ _
        · rw [negatable_eq]
          exact hneg
  unfold tryEntry
  rw [hn]
  show (match matchEntry arg e n with
      | none => none
      | some (after, negate) => if endsName after then some (useEntry e after negate args) else none) = _
  rw [hm]
  show (if endsName after = true then _ else _) = _
  rw [if_pos hends]

/-- Up to the separator. -/
theorem upto {a b x y : Str} (ha : ∀ c ∈ a, c ≠ 61 ∧ c ≠ 58) (hb : ∀ c ∈ b, c ≠ 61 ∧ c ≠ 58) (hx : endsName x = true) (hy : endsName y = true) (h : a ++ x = b ++ y) : a = b := by
  have key : ∀ {a x : Str}, (∀ c ∈ a, c ≠ 61 ∧ c ≠ 58) → endsName x = true → (a ++ x).takeWhile (fun c => c != 61 && c != 58) = a := by
    intro a x ha hx
    rw [List.takeWhile_append_of_pos]
    · rcases endsName_cases hx with rfl | ⟨c, v, rfl, rfl | rfl⟩ <;> simp
    · intro c hc
      simpa using ha c hc
  rw [← key ha hx, h, key hb hy]

theorem same_name {es : List Entry} (hg : Good es) {arg : Str} {args : List Str} {e f : Entry} (he : e ∈ es) (hf : f ∈ es) {x y : Result × List Write}
    (h1 : tryEntry arg args e = some x) (h2 : tryEntry arg args f = some y) : e.name.isSome ∧ e.name = f.name := by
  obtain ⟨n, neg, after, hn, harg, hneg, hends, _⟩ := tryEntry_some h1
  obtain ⟨n', neg', after', hn', harg', hneg', hends', _⟩ := tryEntry_some h2
  have free : ∀ {e : Entry} (_ : e ∈ es) {n : Str} (_ : e.name = some n) (neg : Bool), ∀ c ∈ (if neg then bs "no-" else []) ++ n, c ≠ 61 ∧ c ≠ 58 := by
    intro e he n hn neg c hc
    have hN := hg.names e he n (by rw [hn]; rfl)
    rcases List.mem_append.1 hc with hc | hc
    · cases neg with
      | false => simp at hc
      | true =>
        rw [if_pos rfl] at hc
        have : ∀ c ∈ bs "no-", c ≠ 61 ∧ c ≠ 58 := by decide +kernel
        exact this c hc
    · exact ⟨fun h => hN.2.1 (h ▸ hc), fun h => hN.2.2.1 (h ▸ hc)⟩
  have heq := upto (free he hn neg) (free hf hn' neg') hends hends' (harg.symm.trans harg')
  refine ⟨by rw [hn]; rfl, ?_⟩
  cases neg with
  | false =>
    cases neg' with
    | false =>
      have heq : n = n' := heq
      rw [hn, hn', heq]
    | true =>
      have heq : n = bs "no-" ++ n' := heq
      exact absurd (hn.trans (by rw [heq])) ((hg.negated f hf (hneg' rfl) n' (by rw [hn']; rfl)).2 e he)
  | true =>
    cases neg' with
    | false =>
      have heq : bs "no-" ++ n = n' := heq
      exact absurd (hn'.trans (by rw [heq])) ((hg.negated e he (hneg rfl) n (by rw [hn]; rfl)).2 f hf)
    | true =>
      have heq := List.append_cancel_left heq
      rw [hn, hn', heq]

/-- One entry at most is taken. -/
theorem one_entry {arg : Str} {args : List Str} : ∀ (l : List Entry), (l.filterMap (·.name)).Nodup →
    (∀ e ∈ l, ∀ f ∈ l, ∀ x y, tryEntry arg args e = some x → tryEntry arg args f = some y → e.name.isSome ∧ e.name = f.name) → ∀ e ∈ l, ∀ x, tryEntry arg args e = some x →
    l.filterMap (tryEntry arg args) = [x]
  | [], _, _, _, he, _, _ => absurd he (by simp)
  | a :: l, hnd, hs, e, he, x, hx => by
    cases ha : tryEntry arg args a with
    | some y =>
      have hnone : ∀ f ∈ l, tryEntry arg args f = none := by
        intro f hf
        cases hfx : tryEntry arg args f with
        | none => rfl
        | some z =>
          obtain ⟨h1, h2⟩ := hs a (by simp) f (by simp [hf]) y z ha hfx
          obtain ⟨n, hn⟩ := Option.isSome_iff_exists.1 h1
          rw [List.filterMap_cons, hn] at hnd
          refine absurd ?_ (List.nodup_cons.1 hnd).1
          rw [List.mem_filterMap]
          exact ⟨f, hf, by rw [← h2, hn]⟩
      have hea : e = a := by
        rcases List.mem_cons.1 he with h | h
        · exact h
        · rw [hnone e h] at hx
          cases hx
      subst hea
      rw [ha] at hx
      rw [List.filterMap_cons, ha, hx]
      show x :: _ = _
      rw [List.filterMap_eq_nil_iff.2 hnone]
    | none =>
      have hel : e ∈ l := by
        rcases List.mem_cons.1 he with h | h
        · subst h
          rw [ha] at hx
          cases hx
        · exact h
      rw [List.filterMap_cons, ha]
      show l.filterMap (tryEntry arg args) = [x]
      refine one_entry l ?_ (fun e he f hf => hs e (by simp [he]) f (by simp [hf])) e hel x hx
      rw [List.filterMap_cons] at hnd
      cases hn : a.name with
      | none => rw [hn] at hnd; exact hnd
      | some n => rw [hn] at hnd; exact (List.nodup_cons.1 hnd).2

mutual
theorem tryOpt_eq (arg : Str) (args : List Str) : ∀ o : Opt,
    ((entriesOf o).filterMap (tryEntry arg args) = [] → tryOpt arg args o = (none, [])) ∧
    (∀ x, (entriesOf o).filterMap (tryEntry arg args) = [x] → tryOpt arg args o = (some x.1, x.2) ∨ (x.1 = .failed ∧ tryOpt arg args o = (none, x.2)))
  | .entry e => by
    rw [entriesOf, tryOpt]
    cases h : tryEntry arg args e with
    | none => simp [h]
    | some y => simp [h]
  | .inherit l => by
    rw [entriesOf, tryOpt]
    have ih := parseOption_eq arg args l
    constructor
    · intro h
      rw [ih.1 h]
    · intro x h
      rw [ih.2 x h]
      obtain ⟨r, w⟩ := x
      cases r with
      | failed => exact Or.inr ⟨rfl, rfl⟩
      | rest _ => exact Or.inl rfl
      | overrun => exact Or.inl rfl
theorem parseOption_eq (arg : Str) (args : List Str) : ∀ l : List Opt,
    ((entries l).filterMap (tryEntry arg args) = [] → parseOption arg args l = (.failed, [])) ∧
    (∀ x, (entries l).filterMap (tryEntry arg args) = [x] → parseOption arg args l = x)
  | [] => by
    rw [entries, parseOption]
    simp
  | o :: l => by
    rw [entries, parseOption, List.filterMap_append]
    have h1 := tryOpt_eq arg args o
    have h2 := parseOption_eq arg args l
    constructor
    · intro h
      obtain ⟨ha, hb⟩ := List.append_eq_nil_iff.1 h
      rw [h1.1 ha, h2.1 hb]
      rfl
    · intro x h
      cases ho : (entriesOf o).filterMap (tryEntry arg args) with
      | nil =>
        rw [ho, List.nil_append] at h
        rw [h1.1 ho, h2.2 x h]
        rfl
      | cons y t =>
        rw [ho] at h
        injection h with hy ht
        obtain ⟨ht1, ht2⟩ := List.append_eq_nil_iff.1 ht
        subst hy ht1
        rcases h1.2 y ho with h3 | ⟨h3, h4⟩
        · rw [h3]
        · rw [h4, h2.1 ht2]
          show (Result.failed, y.2 ++ []) = y
          rw [List.append_nil, ← h3]
end

theorem parseOption_iff {opts : List Opt} (hg : Good (entries opts)) {a : Str} {args : List Str} {w : List Write} {r : List Str} :
    parseOption a args opts = (.rest r, w) ↔ Takes (entries opts) ((bs "--" ++ a) :: args) w r := by
  constructor
  · intro h
    have hex : ∃ e ∈ entries opts, ∃ x, tryEntry a args e = some x := by
      cases hf : (entries opts).filterMap (tryEntry a args) with
      | nil =>
        rw [(parseOption_eq a args opts).1 hf] at h
        injection h with h _
        cases h
      | cons x l =>
        have : x ∈ (entries opts).filterMap (tryEntry a args) := by rw [hf]; simp
        obtain ⟨e, he, hx⟩ := List.mem_filterMap.1 this
        exact ⟨e, he, x, hx⟩
    obtain ⟨e, he, x, hx⟩ := hex
    have h1 := one_entry (entries opts) hg.distinct (fun e he f hf x y => same_name hg he hf) e he x hx
    rw [(parseOption_eq a args opts).2 x h1] at h
    subst h
    obtain ⟨n, neg, after, hn, harg, hneg, hends, hu⟩ := tryEntry_some hx
    have := useEntry_takes he hn hneg (hg.keywords e he) hends hu.symm
    rw [harg]
    unfold spelled at this
    simpa [List.append_assoc] using this
  · intro h
    obtain ⟨e, n, neg, after, args', heq, he, hn, hneg, hends, hu⟩ := takes_useEntry hg.keywords h
    injection heq with heq1 heq2
    subst heq2
    have harg : a = (if neg then bs "no-" else []) ++ n ++ after := by
      unfold spelled at heq1
      rw [List.append_assoc, List.append_assoc] at heq1
      rw [List.append_cancel_left heq1, List.append_assoc]
    have hx := tryEntry_pos hg he hn harg hneg hends (args := args)
    rw [(parseOption_eq a args opts).2 _ (one_entry (entries opts) hg.distinct (fun e he f hf x y => same_name hg he hf) e he _ hx), hu]

theorem positions_eq : ∀ opts : List Opt, positions opts = places opts
  | [] => rfl
  | .entry e :: l => by
    rw [positions, positions_eq l]
    unfold places
    by_cases h : e.kind = .position <;> simp [h]
  | .inherit _ :: l => by
    rw [positions, positions_eq l]
    rfl

theorem takes_shape {es : List Entry} {args r : List Str} {w : List Write} (h : Takes es args w r) :
    (∃ a, args = [a] ++ r) ∨ (∃ a v, args = [a, v] ++ r) := by
  cases h with
  | given => exact Or.inl ⟨_, rfl⟩
  | alone => exact Or.inl ⟨_, rfl⟩
  | next => exact Or.inr ⟨_, _, rfl⟩
  | default => exact Or.inl ⟨_, rfl⟩

theorem takes_first {es : List Entry} (hg : Good es) {args r : List Str} {w : List Write} (h : Takes es args w r) :
    ∃ b l, args = (bs "--" ++ b) :: l ∧ b ≠ [] := by
  obtain ⟨e, n, neg, after, args', h1, he, hn, _⟩ := takes_useEntry hg.keywords h
  refine ⟨(if neg then bs "no-" else []) ++ n ++ after, args', ?_, ?_⟩
  · rw [h1]
    unfold spelled
    simp [List.append_assoc]
  · have := (hg.names e he n (by rw [hn]; rfl)).1
    simp [this]

theorem parses_nil {es ps : List Entry} {w : List Write} {r : List Str} : Parses es ps [] w r ↔ w = [] ∧ r = [] := by
  constructor
  · intro h
    generalize hargs : ([] : List Str) = args at h
    cases h with
    | none => exact ⟨rfl, rfl⟩
    | stop => cases hargs
    | rest _ => cases hargs
    | position _ _ => cases hargs
    | option h _ =>
      subst hargs
      rcases takes_shape h with ⟨a, h⟩ | ⟨a, v, h⟩ <;> cases h
  · rintro ⟨rfl, rfl⟩
    exact .none

theorem parses_dashes {es ps : List Entry} (hg : Good es) {b : Str} {args : List Str} {w : List Write} {r : List Str} :
    Parses es ps ((bs "--" ++ b) :: args) w r ↔
      (b = [] ∧ w = [] ∧ r = args) ∨ (b ≠ [] ∧ ∃ w1 args' w2, Takes es ((bs "--" ++ b) :: args) w1 args' ∧ Parses es ps args' w2 r ∧ w = w1 ++ w2) := by
  constructor
  · intro h
    generalize hargs : (bs "--" ++ b) :: args = args0 at h
    cases h with
    | none => cases hargs
    | stop =>
      injection hargs with h1 h2
      have : b = [] := List.append_cancel_left (h1.trans (List.append_nil _).symm)
      exact Or.inl ⟨this, rfl, h2.symm⟩
    | rest h =>
      injection hargs with h1 h2
      exact absurd (h1 ▸ isPrefixOf_append _ _) h
    | position h _ =>
      injection hargs with h1 h2
      exact absurd (h1 ▸ isPrefixOf_append _ _) h
    | option h1 h2 =>
      refine Or.inr ⟨?_, _, _, _, hargs ▸ h1, h2, rfl⟩
      obtain ⟨b', l, h3, h4⟩ := takes_first hg h1
      rw [← hargs] at h3
      injection h3 with h3 _
      rw [List.append_cancel_left h3]
      exact h4
  · rintro (⟨rfl, rfl, rfl⟩ | ⟨_, w1, args', w2, h1, h2, rfl⟩)
    · exact .stop
    · exact .option h1 h2

theorem parses_word {es ps : List Entry} (hg : Good es) {a : Str} (ha : ¬bs "--" <+: a) {args : List Str} {w : List Write} {r : List Str} :
    Parses es ps (a :: args) w r ↔
      (ps = [] ∧ w = [] ∧ r = a :: args) ∨ (∃ p ps' w', ps = p :: ps' ∧ Parses es ps' args w' r ∧ w = .string p.var a :: present p ++ w') := by
  constructor
  · intro h
    generalize hargs : a :: args = args0 at h
    cases h with
    | none => cases hargs
    | stop =>
      injection hargs with h1 h2
      exact absurd (h1 ▸ List.prefix_rfl) ha
    | rest h => exact Or.inl ⟨rfl, rfl, rfl⟩
    | position h h' =>
      injection hargs with h1 h2
      subst h1 h2
      exact Or.inr ⟨_, _, _, rfl, h', rfl⟩
    | option h1 h2 =>
      obtain ⟨b', l, h3, h4⟩ := takes_first hg h1
      rw [← hargs] at h3
      injection h3 with h3 _
      exact absurd (h3 ▸ isPrefixOf_append _ _) ha
  · rintro (⟨rfl, rfl, rfl⟩ | ⟨p, ps', w', rfl, h, rfl⟩)
    · exact .rest ha
    · exact .position ha h

theorem prod_eq {α β : Type} {a a' : α} {b b' : β} : (a, b) = (a', b') ↔ a = a' ∧ b = b' := by
  constructor
  · intro h
    injection h with h1 h2
    exact ⟨h1, h2⟩
  · rintro ⟨rfl, rfl⟩
    rfl

theorem rest_eq {a b : List Str} : Result.rest a = .rest b ↔ a = b := by
  constructor
  · intro h
    injection h
  · rintro rfl
    rfl

theorem parseArguments_iff {opts : List Opt} (hg : Good (entries opts)) : ∀ (n i : Nat) (args : List Str), args.length ≤ n → ∀ (r : List Str) (w : List Write),
    parseArguments opts n i args = (.rest r, w) ↔ Parses (entries opts) ((places opts).drop i) args w r
  | n, i, [], _, r, w => by
    rw [parseArguments, parses_nil, prod_eq, rest_eq]
    constructor
    · rintro ⟨rfl, rfl⟩
      exact ⟨rfl, rfl⟩
    · rintro ⟨rfl, rfl⟩
      exact ⟨rfl, rfl⟩
  | 0, i, a :: args, hl, r, w => absurd hl (by simp)
  | n + 1, i, a :: args, hl, r, w => by
    have hl : args.length ≤ n := by simpa using hl
    rw [parseArguments]
    by_cases hd : bs "--" <+: a
    · rw [if_pos hd]
      obtain ⟨b, rfl⟩ := hd
      rw [parses_dashes hg]
      have hlen : (bs "--" ++ b).length = 2 ↔ b = [] := by
        rw [List.length_append, show (bs "--").length = 2 from rfl, ← List.length_eq_zero_iff]
        omega
      by_cases hb : b = []
      · rw [if_pos (hlen.2 hb), prod_eq, rest_eq]
        constructor
        · rintro ⟨rfl, rfl⟩
          exact Or.inl ⟨hb, rfl, rfl⟩
        · rintro (⟨_, rfl, rfl⟩ | ⟨h, _⟩)
          · exact ⟨rfl, rfl⟩
          · exact absurd hb h
      · rw [if_neg (fun h => hb (hlen.1 h))]
        have hdrop : (bs "--" ++ b).drop 2 = b := drop_append (bs "--") b
        rw [hdrop]
        constructor
        · intro h
          cases hp : parseOption b args opts with
          | mk q w1 =>
            rw [hp] at h
            cases q with
            | rest args' =>
              have h : ((parseArguments opts n i args').1, w1 ++ (parseArguments opts n i args').2) = (.rest r, w) := h
              obtain ⟨h1, h2⟩ := prod_eq.1 h
              have ht := (parseOption_iff hg).1 hp
              have hlen' : args'.length ≤ n := by
                rcases takes_shape ht with ⟨a, h⟩ | ⟨a, v, h⟩
                · injection h with _ h
                  subst h
                  simpa using hl
                · injection h with _ h
                  subst h
                  simp at hl
                  show args'.length ≤ n
                  omega
              have ih := (parseArguments_iff hg n i args' hlen' r (parseArguments opts n i args').2).1 (prod_eq.2 ⟨h1, rfl⟩)
              exact Or.inr ⟨hb, w1, args', _, ht, ih, h2.symm⟩
            | failed => cases h
            | overrun => cases h
        · rintro (⟨h, _⟩ | ⟨_, w1, args', w2, ht, hp, rfl⟩)
          · exact absurd h hb
          · rw [(parseOption_iff hg).2 ht]
            have hlen' : args'.length ≤ n := by
              rcases takes_shape ht with ⟨a, h⟩ | ⟨a, v, h⟩
              · injection h with _ h
                subst h
                simpa using hl
              · injection h with _ h
                subst h
                simp at hl
                show args'.length ≤ n
                omega
            have ih := (parseArguments_iff hg n i args' hlen' r w2).2 hp
            show ((parseArguments opts n i args').1, w1 ++ (parseArguments opts n i args').2) = _
            rw [ih]
    · rw [if_neg hd, parses_word hg hd]
      unfold positionArg
      rw [positions_eq]
      cases hp : (places opts)[i]? with
      | none =>
        have hdrop : (places opts).drop i = [] := List.drop_eq_nil_iff.2 (List.getElem?_eq_none_iff.1 hp)
        rw [hdrop]
        show (Result.rest (a :: args), []) = _ ↔ _
        rw [prod_eq, rest_eq]
        constructor
        · rintro ⟨rfl, rfl⟩
          exact Or.inl ⟨rfl, rfl, rfl⟩
        · rintro (⟨_, rfl, rfl⟩ | ⟨p, ps', w', h, _⟩)
          · exact ⟨rfl, rfl⟩
          · cases h
      | some e =>
        have hdrop : (places opts).drop i = e :: (places opts).drop (i + 1) := by
          obtain ⟨hi, he⟩ := List.getElem?_eq_some_iff.1 hp
          rw [List.drop_eq_getElem_cons hi, he]
        rw [hdrop]
        show ((parseArguments opts n (i + 1) args).1, (.string e.var a :: present e) ++ (parseArguments opts n (i + 1) args).2) = _ ↔ _
        constructor
        · intro h
          obtain ⟨h1, h2⟩ := prod_eq.1 h
          exact Or.inr ⟨e, _, _, rfl, (parseArguments_iff hg n (i + 1) args hl r _).1 (prod_eq.2 ⟨h1, rfl⟩), h2.symm⟩
        · rintro (⟨h, _⟩ | ⟨p, ps', w', h, h', rfl⟩)
          · cases h
          · injection h with h1 h2
            subst h1 h2
            rw [(parseArguments_iff hg n (i + 1) args hl r w').2 h']

theorem parse_iff {opts : List Opt} (hg : Good (entries opts)) (args r : List Str) (w : List Write) :
    parse opts args = (.rest r, w) ↔ Parses (entries opts) (places opts) args w r :=
  parseArguments_iff hg args.length 0 args (Nat.le_refl _) r w

/-! ## Nothing is read beyond the end -/

theorem process_no_overrun {e : Entry} (hend : ∀ k, (e.kind = .flags k ∨ ∃ d, e.kind = .keyword k d) → k.ended = true) (hp : e.kind ≠ .position) (next : Next) (v : Str) (neg : Bool) :
    (process e next v neg).1 ≠ .overrun := by
  unfold process
  have hkw : ∀ k d f, k.ended = true → (processKeyword k d f e.var next v neg).1 ≠ .overrun := by
    intro k d f hk
    unfold processKeyword
    rw [hk]
    repeat' split
    all_goals simp_all
  cases hk : e.kind with
  | bool =>
    show (processBool e.var next v neg).1 ≠ _
    unfold processBool
    repeat' split
    all_goals simp
  | int =>
    show (processInt e.var next v).1 ≠ _
    unfold processInt
    repeat' split
    all_goals simp
  | string a =>
    show (processString a e.var next v).1 ≠ _
    unfold processString
    repeat' split
    all_goals simp
  | keyword k d => exact hkw k d false (hend k (Or.inr ⟨d, hk⟩))
  | flags k => exact hkw k none true (hend k (Or.inl hk))
  | position => exact absurd hk hp

theorem finish_no_overrun {e : Entry} {args rest : List Str} {p : Handled × List Write} (h : p.1 ≠ .overrun) : (finish e args rest p).1 ≠ .overrun := by
  obtain ⟨q, ws⟩ := p
  cases q with
  | overrun => exact absurd rfl h
  | failed => simp [finish]
  | ok => simp [finish]
  | giveback => simp [finish]

theorem useEntry_no_overrun {e : Entry} (hend : ∀ k, (e.kind = .flags k ∨ ∃ d, e.kind = .keyword k d) → k.ended = true) (hp : e.kind ≠ .position) (after : Str) (neg : Bool)
    (args : List Str) : (useEntry e after neg args).1 ≠ .overrun := by
  have h := process_no_overrun hend hp
  cases after with
  | cons c v =>
    rw [useEntry_given]
    exact finish_no_overrun (h _ _ _)
  | nil =>
    by_cases hk : e.kind = .bool
    · rw [useEntry_alone _ _ _ (Or.inl hk)]
      exact finish_no_overrun (h _ _ _)
    · cases hna : nextArg args with
      | none =>
        rw [useEntry_alone _ _ _ (Or.inr hna)]
        exact finish_no_overrun (h _ _ _)
      | some v =>
        rw [useEntry_next _ _ hk hna]
        exact finish_no_overrun (h _ _ _)

theorem parseOption_no_overrun {opts : List Opt} (hg : Good (entries opts)) (hend : Ended (entries opts)) (a : Str) (args : List Str) : (parseOption a args opts).1 ≠ .overrun := by
  cases hf : (entries opts).filterMap (tryEntry a args) with
  | nil =>
    rw [(parseOption_eq a args opts).1 hf]
    simp
  | cons x l =>
    have : x ∈ (entries opts).filterMap (tryEntry a args) := by rw [hf]; simp
    obtain ⟨e, he, hx⟩ := List.mem_filterMap.1 this
    rw [(parseOption_eq a args opts).2 x (one_entry (entries opts) hg.distinct (fun e he f hf x y => same_name hg he hf) e he x hx)]
    obtain ⟨n, neg, after, hn, _, _, _, rfl⟩ := tryEntry_some hx
    exact useEntry_no_overrun (hend e he) (hg.names e he n (by rw [hn]; rfl)).2.2.2 _ _ _

theorem parseArguments_no_overrun {opts : List Opt} (hg : Good (entries opts)) (hend : Ended (entries opts)) : ∀ (n i : Nat) (args : List Str), (parseArguments opts n i args).1 ≠ .overrun
  | n, i, [] => by
    rw [parseArguments]
    simp
  | 0, i, a :: args => by
    rw [parseArguments]
    simp
    simp
  | n + 1, i, a :: args => by
    rw [parseArguments]
    by_cases hd : bs "--" <+: a
    · rw [if_pos hd]
      by_cases h2 : a.length = 2
      · rw [if_pos h2]
        simp
      · rw [if_neg h2]
        have := parseOption_no_overrun hg hend (a.drop 2) args
        cases hp : parseOption (a.drop 2) args opts with
        | mk q w =>
          rw [hp] at this
          cases q with
          | rest r => exact parseArguments_no_overrun hg hend n i r
          | failed => simp
          | overrun => exact absurd rfl this
    · rw [if_neg hd]
      cases hp : positionArg opts i a with
      | none => simp
      | some w => exact parseArguments_no_overrun hg hend n (i + 1) args

end Notmuch.Args
