import Verif.Proofs.FieldsTotal
import Verif.Props.Time
import Verif.Props.Sexp

/-!
# C57: the fields of infix queries

`queryString` is what `notmuch_query_create` makes of a text (Model/Fields.lean), and `Finds` what notmuch-search-terms(7) says that it means (Spec/Fields.lean).
-/

namespace Notmuch.Props

open Notmuch.Fields
open Notmuch.Sexp (Ctx Doc Query Res Sexp Slot Means Builtin Acyclic)

variable {c : Ctx} {p : Parser}

/-- A query is accepted if and only if the manual gives it a meaning, and then finds the messages that it means. -/
theorem C57_meaning (hp : KnownFields p) (s : Str) (S : Doc → Prop) : (∃ n q, queryString c p n s = some (.ok q) ∧ ∀ d, q.holds c d = true ↔ S d) ↔ Finds c p s S := query_finds hp s S

/-- It has one meaning. -/
theorem C57_one_meaning (hp : KnownFields p) (s : Str) : (∀ S S', Finds c p s S → Finds c p s S' → ∀ d, S d ↔ S' d) ∧ ∀ n m r, queryString c p n s = some r → queryString c p (n + m) s = some r := by
  refine ⟨?_, fun n m r h => query_mono (Nat.le_add_right n m) h⟩
  intro S S' h h' d
  obtain ⟨n, q, h1, h2⟩ := (query_finds hp s S).2 h
  obtain ⟨m, q', h3, h4⟩ := (query_finds hp s S').2 h'
  have a := query_mono (c := c) (p := p) (Nat.le_add_right n m) h1
  have b := query_mono (c := c) (p := p) (Nat.le_add_left m n) h3
  rw [a] at b
  cases b
  rw [← h2, ← h4]

/-- If no saved query uses itself, directly or through others, and what is in braces is smaller than the text around it, all queries are made or rejected in finite time. -/
theorem C57_terminates (hp : KnownFields p) (ha : Acyclic c) (rank : Str → Nat) (hr : ∀ s t, p.parse s = some t → ∀ u ∈ uses c t, rank u < rank s) (s : Str) : ∃ n r, queryString c p n s = some r := by
  unfold queryString
  split
  · exact ⟨0, _, rfl⟩
  · exact parse_ends (fun sx => C52_terminates c ha sx) hp rank hr (rank s + 1) s (Nat.lt_succ_self _)

/-- Nothing crashes without `thread:""`, if the s-expressions do not. -/
theorem C57_no_crash (hp : KnownFields p) (hc : ∀ s t, p.parse s = some t → Calm c p t) (n : Nat) (s : Str) : queryString c p n s ≠ some .crash := by
  unfold queryString
  split
  · simp
  · exact parse_crash hp hc n s

/-- So then a query is rejected if and only if it has no meaning, and always with the same status: no part of a query is ever left out. -/
theorem C57_answer (hp : KnownFields p) (ha : Acyclic c) (rank : Str → Nat) (hr : ∀ s t, p.parse s = some t → ∀ u ∈ uses c t, rank u < rank s)
    (hc : ∀ s t, p.parse s = some t → Calm c p t) (s : Str) : (∃ n, queryString c p n s = some (.err .xapianException)) ↔ ¬ ∃ S, Finds c p s S := by
  constructor
  · rintro ⟨n, h⟩ ⟨S, hS⟩
    obtain ⟨m, q, h1, _⟩ := (query_finds hp s S).2 hS
    have a := query_mono (c := c) (p := p) (Nat.le_add_right n m) h
    have b := query_mono (c := c) (p := p) (Nat.le_add_left m n) h1
    rw [a] at b
    cases b
  · intro hn
    obtain ⟨n, r, h⟩ := C57_terminates hp ha rank hr s
    cases r with
    | ok q => exact absurd ⟨_, (query_finds hp s _).1 ⟨n, q, h, fun d => Iff.rfl⟩⟩ hn
    | err e => exact ⟨n, by rw [h, query_err h]⟩
    | crash => exact absurd h (C57_no_crash hp hc n s)

theorem C57_status (n : Nat) (s : Str) (e : Sexp.Status) (h : queryString c p n s = some (.err e)) : e = .xapianException := query_err h

/-- What has no meaning: a regular expression that does not end, or does not compile, a brace that is not closed, a date or revision that is not understood, and all that has these in it. -/
theorem C57_errors : (∀ n v S, (n ∈ Fields.termFields ∨ n ∈ headerFields) → v.getLast? ≠ some 47 → ¬ Says c p (.field n (bs "/" ++ v)) S) ∧
    (∀ n v S, (n ∈ Fields.termFields ∨ n ∈ headerFields) → c.regex v = none → ¬ Says c p (.field n (bs "/" ++ v ++ bs "/")) S) ∧
    (∀ v S, v.getLast? ≠ some 125 → ¬ Says c p (.field (bs "thread") (bs "{" ++ v)) S) ∧
    (∀ v S, c.date v false = none → ¬ Says c p (.field (bs "date") v) S) ∧
    (∀ op l r, (¬ (∃ S, Says c p l S) ∨ ¬ (∃ S, Says c p r S)) → ∀ S, ¬ Says c p (.comb op l r) S) ∧
    (∀ t, ¬ (∃ S, Says c p t S) → ∀ S, ¬ Says c p (.not t) S) := by
  refine ⟨?_, ?_, ?_, ?_, ?_, ?_⟩
  · intro n v S hn hv h
    obtain ⟨k, q, h1, _⟩ := build_complete h
    have : build c p k (parseQuery c p k) (.field n (bs "/" ++ v)) = some (regexpField c p n (headerFields.contains n) (bs "/" ++ v)) := fq_regexp _ hn
    rw [this, rf_unmatched _ _ _ hv] at h1
    cases h1
  · intro n v S hn hv h
    obtain ⟨k, q, h1, _⟩ := build_complete h
    have : build c p k (parseQuery c p k) (.field n (bs "/" ++ v ++ bs "/")) = some (regexpField c p n (headerFields.contains n) (bs "/" ++ v ++ bs "/")) := fq_regexp _ hn
    rw [this, rf_regex, Sexp.regexToQuery, hv] at h1
    cases h1
  · intro v S hv h
    obtain ⟨k, q, h1, _⟩ := build_complete h
    have : build c p k (parseQuery c p k) (.field (bs "thread") (bs "{" ++ v)) = some thrown := fq_unclosed v hv
    rw [this] at h1
    cases h1
  · intro v S hv h
    obtain ⟨k, q, h1, _⟩ := build_complete h
    have : build c p k (parseQuery c p k) (.field (bs "date") v) = some (Fields.dateField c v) := fq_date v
    rw [this, Fields.dateField, hv] at h1
    cases h1
  · intro op l r hlr S h
    cases h with
    | and h1 h2 => exact hlr.elim (fun hn => hn ⟨_, h1⟩) (fun hn => hn ⟨_, h2⟩)
    | or h1 h2 => exact hlr.elim (fun hn => hn ⟨_, h1⟩) (fun hn => hn ⟨_, h2⟩)
    | andNot h1 h2 => exact hlr.elim (fun hn => hn ⟨_, h1⟩) (fun hn => hn ⟨_, h2⟩)
    | xor h1 h2 => exact hlr.elim (fun hn => hn ⟨_, h1⟩) (fun hn => hn ⟨_, h2⟩)
  · intro t ht S h
    cases h with
    | not h1 => exact ht ⟨_, h1⟩

/-! ## The same query as an s-expression -/

/-- `tag:x` is `(tag "x")`, and so for the other fields with terms. -/
theorem C57_same_as_sexp {n v : Str} (hb : Builtin c n) (hn : n ∈ plainFields ∨ n ∈ Fields.termFields ∨ (n = bs "thread" ∧ v ≠ [] ∧ v.head? ≠ some 123)) (h1 : v.head? ≠ some 47)
    (h2 : v.getLast? ≠ some 47) : ∃ S, Says c p (.field n v) S ∧ Means c .top .nil (.list [.atom false n, .atom true v]) S := by
  refine ⟨fun d => c.termPrefix n ++ v ∈ d.terms, ?_, ?_⟩
  · rcases hn with hn | hn | ⟨rfl, h3, h4⟩
    · exact .plain hn
    · exact .term hn h1 h2
    · exact .thread h3 h4
  · have hm : n ∈ Sexp.termFields ∧ (n ∈ Sexp.andFields ∨ n ∈ Sexp.orFields) := by
      have hl : ∀ n ∈ plainFields ++ Fields.termFields ++ [bs "thread"], n ∈ Sexp.termFields ∧ (n ∈ Sexp.andFields ∨ n ∈ Sexp.orFields) := by decide +kernel
      refine hl n ?_
      rcases hn with hn | hn | ⟨rfl, _⟩
      · simp [hn]
      · simp [hn]
      · simp
    have hs : (if n = bs "folder" ∨ n = bs "path" then StringUtil.stripTrailing v 47 else v) = v := by
      split
      · have hv : ∀ v : Str, v.getLast? ≠ some 47 → StringUtil.stripTrailing v 47 = v := by
          intro v h
          unfold StringUtil.stripTrailing
          cases hv : v.reverse with
          | nil => simp at hv; simp [hv]
          | cons x l =>
            have e : v = (x :: l).reverse := by rw [← hv, List.reverse_reverse]
            have hx : x ≠ 47 := by
              intro hx
              apply h
              rw [e, hx]
              simp
            rw [List.dropWhile_cons, if_neg (by simp [hx]), e]
        exact hv v h2
      · rfl
    have key := Means.exact (c := c) (e := .nil) (n := n) (v := v) (q := true) rfl (Or.inl rfl) hm.1
    rw [hs] at key
    rcases hm.2 with h3 | h3
    · exact Sexp.means_congr (Means.andField (F := fun _ d => c.termPrefix n ++ v ∈ d.terms) hb h3 (by intro x hx; simp at hx; subst hx; exact key)) (by simp)
    · exact Sexp.means_congr (Means.orField (F := fun _ d => c.termPrefix n ++ v ∈ d.terms) hb h3 (by intro x hx; simp at hx; subst hx; exact key)) (by simp)

/-- `tag:/x/` is `(tag (rx "x"))`. -/
theorem C57_regex_as_sexp {n v : Str} {f : Str → Bool} (hb : Builtin c n) (hb2 : Builtin c (bs "rx")) (hn : n ∈ Fields.termFields ∨ n ∈ headerFields) (hr : c.regex v = some f) :
    ∃ S, Says c p (.field n (bs "/" ++ v ++ bs "/")) S ∧ Means c .top .nil (.list [.atom false n, .list [.atom false (bs "rx"), .atom true v]]) S := by
  obtain ⟨S, h1, h2⟩ : ∃ S, Says c p (.field n (bs "/" ++ v ++ bs "/")) S ∧ Means c (.field n) .nil (.list [.atom false (bs "rx"), .atom true v]) S := by
    cases hs : Sexp.findSlot n with
    | none =>
      have h1 : n ∈ Fields.termFields := by
        rcases hn with hn | hn
        · exact hn
        · obtain ⟨s, h'⟩ := header_slot (Or.inl hn)
          rw [h'] at hs; cases hs
      have h2 := (Sexp.findSlot_none n).1 hs
      have h3 : n ∈ Sexp.regexFields := by
        have : ∀ n ∈ Fields.termFields, n ∈ Sexp.regexFields := by decide +kernel
        exact this n h1
      exact ⟨_, .regexTerm h1 h2.2.2 hr, .regexTerm hb2 (Or.inr rfl) (.atom rfl) hr h3 h2.1 h2.2.1 h2.2.2⟩
    | some slot =>
      have h1 := (Sexp.findSlot_iff n slot).1 hs
      exact ⟨_, .regexHeader h1 hr, .regexHeader hb2 (Or.inr rfl) (.atom rfl) hr h1⟩
  have h3 : n ∈ Sexp.andFields ∨ n ∈ Sexp.orFields := by
    have hl : ∀ n ∈ Fields.termFields ++ headerFields, n ∈ Sexp.andFields ∨ n ∈ Sexp.orFields := by decide +kernel
    exact hl n (List.mem_append.2 hn)
  refine ⟨S, h1, ?_⟩
  rcases h3 with h3 | h3
  · exact Sexp.means_congr (Means.andField (F := fun _ => S) hb h3 (by intro x hx; simp at hx; subst hx; exact h2)) (by simp)
  · exact Sexp.means_congr (Means.orField (F := fun _ => S) hb h3 (by intro x hx; simp at hx; subst hx; exact h2)) (by simp)

/-! ## Dates -/

/-- The clock of the process: the zone and the time now (C54). -/
def clock (z : Time.Zone) (now : Int) (s : Str) (up : Bool) : Option Int := (Time.parseTimeString z s now (if up then .upInclusive else .down)).toOption

/-- `date:X` and `date:X..Y` find the messages whose time is in what C54 says that this is. -/
theorem C57_dates {z : Time.Zone} {now : Int} (hc : c.date = clock z now) : (∀ s r, Time.dateField z now s = .ok r → Says c p (.field (bs "date") s) (fun d => r.has d.timestamp = true)) ∧
    ∀ a b r, Time.dateStrings z now a b = .ok r → Says c p (.range (bs "date") a b) (fun d => r.has d.timestamp = true) := by
  have ok : ∀ {α : Type} {x : Except Time.Err Int} {f : Int → Except Time.Err α} {r : α}, x.bind f = .ok r → ∃ t, x = .ok t ∧ f t = .ok r := by
    intro α x f r h
    cases x with
    | error e => cases h
    | ok t => exact ⟨t, rfl, h⟩
  constructor
  · intro s r h
    obtain ⟨lo, h1, h⟩ := ok h
    obtain ⟨hi, h2, h⟩ := ok h
    cases h
    refine says_congr (.date (l := lo) (h := hi) ?_ ?_) (fun d => ?_)
    · rw [hc]; simp [clock, h1, Except.toOption]
    · rw [hc]; simp [clock, h2, Except.toOption]
    · simp [Time.Range.has]
  · intro a b r h
    unfold Time.dateStrings at h
    have hlo : (a = [] ∧ r.lo = none) ∨ (a ≠ [] ∧ ∃ t, c.date a false = some t ∧ r.lo = some t) := by
      by_cases ha : a = []
      · rw [if_pos ha] at h
        left
        refine ⟨ha, ?_⟩
        by_cases hb : b = []
        · rw [if_pos hb] at h; cases h; rfl
        · rw [if_neg hb] at h
          cases hx : Time.parseTimeString z (if b = bs "!" ∧ a ≠ [] then a else b) now .upInclusive with
          | error e => rw [hx] at h; cases h
          | ok t => rw [hx] at h; cases h; rfl
      · rw [if_neg ha] at h
        right
        refine ⟨ha, ?_⟩
        cases hy : Time.parseTimeString z a now .down with
        | error e => rw [hy] at h; cases h
        | ok u =>
          rw [hy] at h
          refine ⟨u, by rw [hc]; simp [clock, hy, Except.toOption], ?_⟩
          by_cases hb : b = []
          · rw [if_pos hb] at h; cases h; rfl
          · rw [if_neg hb] at h
            cases hx : Time.parseTimeString z (if b = bs "!" ∧ a ≠ [] then a else b) now .upInclusive with
            | error e => rw [hx] at h; cases h
            | ok t => rw [hx] at h; cases h; rfl
    have hhi : (b = [] ∧ r.hi = none) ∨ (b ≠ [] ∧ ∃ t, c.date (if b = bs "!" ∧ a ≠ [] then a else b) true = some t ∧ r.hi = some t) := by
      have : ∃ lo : Option Int, ((if b = [] then .ok none else (Time.parseTimeString z (if b = bs "!" ∧ a ≠ [] then a else b) now .upInclusive).bind (fun t => .ok (some t)) : Except Time.Err (Option Int)).bind
          fun hi => .ok (⟨lo, hi⟩ : Time.Range)) = .ok r := by
        by_cases ha : a = []
        · rw [if_pos ha] at h; exact ⟨_, h⟩
        · rw [if_neg ha] at h
          cases hy : Time.parseTimeString z a now .down with
          | error e => rw [hy] at h; cases h
          | ok u => rw [hy] at h; exact ⟨_, h⟩
      obtain ⟨lo, h⟩ := this
      by_cases hb : b = []
      · rw [if_pos hb] at h; cases h; exact Or.inl ⟨hb, rfl⟩
      · rw [if_neg hb] at h
        cases hx : Time.parseTimeString z (if b = bs "!" ∧ a ≠ [] then a else b) now .upInclusive with
        | error e => rw [hx] at h; cases h
        | ok t =>
          rw [hx] at h
          cases h
          exact Or.inr ⟨hb, t, by rw [hc]; simp only [clock, if_true, hx, Except.toOption], rfl⟩
    refine says_congr (.dates ⟨?_, ?_⟩) (fun d => ?_)
    · intro ha
      rcases hlo with ⟨h1, _⟩ | ⟨_, t, h1, _⟩
      · exact absurd h1 ha
      · exact ⟨t, h1⟩
    · intro hb
      rcases hhi with ⟨h1, _⟩ | ⟨_, t, h1, _⟩
      · exact absurd h1 hb
      · exact ⟨t, h1⟩
    · unfold Fields.Between Time.Range.has
      rw [Bool.and_eq_true]
      refine and_congr ?_ ?_
      · rcases hlo with ⟨h1, h2⟩ | ⟨h0, t, h1, h2⟩
        · simp [h1, h2]
        · simp [h0, h1, h2]
      · rcases hhi with ⟨h1, h2⟩ | ⟨h0, t, h1, h2⟩
        · simp [h1, h2]
        · rw [h1, h2]; simp [h0]

/-- `date:today` finds the messages of today. -/
theorem C57_today {off now : Int} (ho : Time.IsOffset off) (hn : Time.IsNow now) (hc : c.date = clock (Time.fixedZone off) now) :
    Says c p (.field (bs "date") (bs "today")) (fun d => Time.localDay off d.timestamp = Time.localDay off now) := by
  obtain ⟨r, h1, h2⟩ := C54_today ho hn (s := bs "today") (by decide +kernel)
  exact says_congr ((C57_dates hc).1 _ r h1) (fun d => h2 d.timestamp)

/-! ## The documents of a regular expression on a header -/

/-- In whatever order the source is called: `next` gives the first matching document after the present one, and `skip_to` the first that is neither before it nor before the one asked for. -/
theorem C57_source (re : Str → Bool) (values : List (Nat × Str)) (hv : Sorted values) (calls : List Call) (k did : Nat) (hk : (after re values calls).docid = some k) :
    (calls ≠ [] → (after re values (calls ++ [.next])).docid = first re values (fun i => decide (k < i))) ∧
    (after re values (calls ++ [.skipTo did])).docid = first re values (fun i => decide (k ≤ i) && decide (did ≤ i)) := by
  have hsuf := after_suffix re values calls
  have e : ∀ x, after re values (calls ++ [x]) = x.does re (after re values calls) := by intro x; simp [after]
  have hstarted : calls ≠ [] → (after re values calls).started = true := by
    intro hne
    have hl : calls = calls.dropLast ++ [calls.getLast hne] := (List.dropLast_concat_getLast hne).symm
    rw [hl]
    simp only [after, List.foldl_append, List.foldl_cons, List.foldl_nil]
    cases calls.getLast hne <;> rfl
  generalize after re values calls = s at *
  obtain ⟨rest, started⟩ := s
  cases rest with
  | nil => cases hk
  | cons v l =>
    simp only [Source.docid, List.head?_cons, Option.map_some, Option.some.injEq] at hk
    obtain ⟨f1, f2⟩ := suffix_filter hv hsuf rfl
    refine ⟨?_, ?_⟩
    · intro hst
      rw [e]
      have hst := hstarted hst
      simp only at hst
      subst hst
      show (Source.mk (seek re l) true).docid = _
      rw [docid_seek, first, f2, List.filter_filter, hk]
      congr 3
      funext x
      rw [Bool.and_comm]
    · rw [e]
      show (Source.mk (seek re ((v :: l).dropWhile (fun v => v.1 < did))) true).docid = _
      rw [docid_seek, first, dropWhile_filter (List.Pairwise.sublist hsuf.sublist hv), f1, List.filter_filter, List.filter_filter, hk]
      congr 3
      funext x
      cases re x.2 <;> simp [Bool.and_comm]

/-- The first call gives the first matching document; `check` is true of exactly the documents that match, if it is asked for what is not behind it. -/
theorem C57_source_check (re : Str → Bool) (values : List (Nat × Str)) (hv : Sorted values) (did : Nat) :
    (after re values [.next]).docid = first re values (fun _ => true) ∧
    ∀ calls, (∀ k, (after re values calls).docid = some k → k ≤ did) → (after re values calls).docid ≠ none → ∀ s : Str, (did, s) ∈ values → ((after re values calls).check re did).2 = re s := by
  refine ⟨?_, ?_⟩
  · show (Source.mk (seek re values) true).docid = _
    rw [docid_seek, first]
    simp
  · intro calls hk hne s hs
    have hsuf := after_suffix re values calls
    generalize after re values calls = st at *
    obtain ⟨rest, started⟩ := st
    cases rest with
    | nil => exact absurd rfl hne
    | cons v l =>
      have hk' : v.1 ≤ did := hk v.1 rfl
      obtain ⟨f1, f2⟩ := suffix_filter hv hsuf rfl
      have hmem : (did, s) ∈ v :: l := by show (did, s) ∈ (Source.mk (v :: l) started).rest; rw [f1]; simp [hs, hk']
      have hsort := List.Pairwise.sublist hsuf.sublist hv
      have hd : ∀ l : List (Nat × Str), Sorted l → (did, s) ∈ l → ∃ l', l.dropWhile (fun v => v.1 < did) = (did, s) :: l' := by
        intro l
        induction l with
        | nil => intro _ h; cases h
        | cons x l ih =>
          intro hx hm
          have hx' := List.pairwise_cons.1 hx
          rcases List.mem_cons.1 hm with rfl | hm
          · exact ⟨l, by simp [List.dropWhile_cons]⟩
          · have := hx'.1 _ hm
            simp only at this
            rw [List.dropWhile_cons, if_pos (by simpa using this)]
            exact ih hx'.2 hm
      obtain ⟨l', h'⟩ := hd _ hsort hmem
      unfold Source.check
      simp only [h']

/-- Calling `next` until the end gives exactly the documents that match, in order. -/
theorem C57_source_all (re : Str → Bool) (values : List (Nat × Str)) (k : Nat) : (after re values (List.replicate (k + 1) .next)).docid = ((values.filter (fun v => re v.2)).map (·.1))[k]? := by
  have key : ∀ (k : Nat) (l : List (Nat × Str)), ((List.replicate k Call.next).foldl (Call.does re) ⟨seek re l, true⟩).docid = ((l.filter (fun v => re v.2)).map (·.1))[k]? := by
    intro k
    induction k with
    | zero => intro l; show (Source.mk _ _).docid = _; rw [docid_seek, List.head?_eq_getElem?]
    | succ k ih =>
      intro l
      show ((List.replicate k Call.next).foldl (Call.does re) ⟨seek re (seek re l).tail, true⟩).docid = _
      rw [ih]
      have : ∀ l : List (Nat × Str), (seek re l).tail.filter (fun v => re v.2) = (l.filter (fun v => re v.2)).tail := by
        intro l
        induction l with
        | nil => rfl
        | cons v l ih =>
          simp only [seek, List.filter_cons]
          split
          · rfl
          · exact ih
      rw [this, List.map_tail, List.getElem?_tail]
  exact key k values

/-! ## Examples -/

/-- A parser of some texts. -/
def exParser : Parser where
  parse s :=
    if s = bs "tag:inbox and not query:mine" then some (.comb .and (.field (bs "tag") (bs "inbox")) (.not (.field (bs "query") (bs "mine"))))
    else if s = bs "from:/bob/ xor thread:{tag:a}" then some (.comb .xor (.field (bs "from") (bs "/bob/")) (.field (bs "thread") (bs "{tag:a}")))
    else if s = bs "tag:a" then some (.field (bs "tag") (bs "a"))
    else if s = bs "tag:a/" then some (.field (bs "tag") (bs "a/"))
    else if s = bs "tag:/a" then some (.field (bs "tag") (bs "/a"))
    else if s = bs "thread:\"\"" then some (.field (bs "thread") [])
    else if s = bs "path:a//" then some (.field (bs "path") (bs "a//"))
    else if s = bs "query:me" then some (.field (bs "query") (bs "me"))
    else if s = bs "query:none" then some (.field (bs "query") (bs "none"))
    else if s = [] then some (.words .nothing)
    else none
  parseIn _ _ := none
  readSexp _ := none

/-- With saved queries. -/
def exFields (docs : List Doc) : Ctx := { exCtx docs with named := fun n => if n = bs "mine" then bs "tag:a" else if n = bs "me" then bs "query:me" else [] }

theorem exParser_known : KnownFields exParser := by
  intro s t h
  simp only [exParser] at h
  repeat' split at h
  all_goals first
    | (cases h; decide +kernel)
    | cases h

/-- Whether a query finds a message. -/
def found (docs : List Doc) (s : Str) (d : Doc) : Option Bool :=
  match queryString (exFields docs) exParser 9 s with
  | some (.ok q) => some (q.holds (exFields docs) d)
  | _ => none

example : found [] (bs "tag:inbox and not query:mine") (exDoc [bs "Kinbox"]) = some true ∧ found [] (bs "tag:inbox and not query:mine") (exDoc [bs "Kinbox", bs "Ka"]) = some false ∧
    found [exDoc [bs "Ka", bs "Gt1"]] (bs "from:/bob/ xor thread:{tag:a}") (exDoc [bs "Gt1"]) = some true ∧
    found [exDoc [bs "Ka", bs "Gt1"]] (bs "from:/bob/ xor thread:{tag:a}") (exDoc [bs "Gt2"]) = some false ∧
    found [exDoc [bs "Ka", bs "Gt1"]] (bs "from:/bob/ xor thread:{tag:a}") { exDoc [bs "Gt1"] with value := fun _ => bs "bob" } = some false ∧
    found [] [] (exDoc []) = some true := by
  refine ⟨?_, ?_, ?_, ?_, ?_, ?_⟩ <;> decide +kernel

example : Finds (exFields []) exParser (bs "tag:inbox and not query:mine") (fun d => bs "Kinbox" ∈ d.terms ∧ ¬ bs "Ka" ∈ d.terms) := by
  refine Or.inr ⟨by decide, by decide, _, rfl, .and (says_congr (.term (by decide +kernel) (by decide +kernel) (by decide +kernel)) (fun d => ?_)) (.not (.saved rfl (says_congr (.term (by decide +kernel) (by decide +kernel) (by decide +kernel)) (fun d => ?_))))⟩ <;> exact Iff.rfl

example : let values := [(2, bs "bob"), (5, bs "alice"), (7, bs "bob")]
    let re := fun s => s == bs "bob"
    Sorted values ∧ (after re values [.next, .next]).docid = some 7 ∧ (after re values [.skipTo 3]).docid = some 7 ∧ ((after re values [.next]).check re 5).2 = false := by
  refine ⟨by simp [Sorted], ?_, ?_, ?_⟩ <;> decide +kernel

/-! ## Where the manual is not followed, or a user would be surprised -/

/-- `tag:a/` finds messages with the tag `a`, and not those with `a/`; and there is no way to ask for a tag that begins with a slash. -/
theorem C57_counterexample_tag_slash : found [] (bs "tag:a/") (exDoc [bs "Ka"]) = some true ∧ found [] (bs "tag:a/") (exDoc [bs "Ka/"]) = some false ∧
    queryString (exFields [exDoc [bs "K/a"]]) exParser 9 (bs "tag:/a") = some (.err .xapianException) := by
  refine ⟨?_, ?_, ?_⟩
  · decide +kernel
  · decide +kernel
  · rfl

/-- `thread:""` is a crash, where `tag:""` finds nothing. -/
theorem C57_counterexample_empty_thread : queryString (exFields []) exParser 9 (bs "thread:\"\"") = some .crash := rfl

/-- A saved query that uses itself has no end. -/
theorem C57_counterexample_recursion (n : Nat) : queryString (exFields []) exParser n (bs "query:me") = none := by
  have h1 : ¬ (bs "query:me" = [] ∨ bs "query:me" = bs "*") := by decide +kernel
  unfold queryString
  rw [if_neg h1]
  induction n with
  | zero => rfl
  | succ n ih =>
    have e : parseQuery (exFields []) exParser (n + 1) (bs "query:me") = parseQuery (exFields []) exParser n (bs "query:me") := rfl
    rw [e, ih]

/-- A saved query that does not exist, or is empty, finds nothing, while an empty query finds everything. -/
theorem C57_counterexample_no_query : found [] (bs "query:none") (exDoc []) = some false ∧ (exFields []).named (bs "none") = [] ∧ found [] [] (exDoc []) = some true := by
  refine ⟨?_, ?_, ?_⟩ <;> decide +kernel

/-- Of several slashes at the end of a path one is removed, where an s-expression has all of them removed. -/
theorem C57_counterexample_slashes : found [] (bs "path:a//") (exDoc [bs "Xpath:a"]) = some false ∧
    finds (exCtx []) 9 (li (bs "path") [.atom true (bs "a//")]) (exDoc [bs "Xpath:a"]) = some true := by
  constructor <;> decide +kernel

end Notmuch.Props
