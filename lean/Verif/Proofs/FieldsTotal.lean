import Verif.Proofs.Fields

namespace Notmuch.Fields

open Notmuch.Sexp

variable {c : Ctx} {p : Parser}

/-! ## Errors -/

theorem field_err {k : Nat} {f : Str → Option Res} (hf : ∀ s e, f s = some (.err e) → e = .xapianException) {n v : Str} {e : Status} (h : fieldQuery c p k f n v = some (.err e)) : e = .xapianException := by
  have hre : ∀ r, rethrow r = .err e → e = .xapianException := by
    intro r hr
    cases r <;> simp [rethrow, thrown] at hr
    exact hr.symm
  have ht : thrown = .err e → e = .xapianException := fun h => by simp [thrown] at h; exact h.symm
  unfold fieldQuery at h
  split at h
  · cases h
  · split at h
    · split at h
      · simp only [Option.some.injEq, dateField] at h
        split at h
        · cases h
        · exact ht h
      · exact hf _ _ h
      · split at h
        · cases h
        · split at h
          · rw [Option.map_eq_some_iff] at h
            obtain ⟨r, h1, h2⟩ := h
            cases r with
            | ok q => cases h2
            | err s => exact hre _ h2
            | crash => exact hre _ h2
          · simp only [Option.some.injEq] at h; exact ht h
        · cases h
      · split at h
        · simp only [Option.some.injEq] at h; exact ht h
        · rw [Option.map_eq_some_iff] at h
          obtain ⟨r, h1, h2⟩ := h
          exact hre _ h2
      · simp only [Option.some.injEq, regexpField] at h
        split at h
        · split at h <;> cases h
        · split at h
          · split at h
            · exact hre _ h
            · exact ht h
          · split at h
            · split at h
              · cases h
              · exact ht h
            · cases h
    · cases h

theorem build_err {k : Nat} {f : Str → Option Res} (hf : ∀ s e, f s = some (.err e) → e = .xapianException) : ∀ (t : Tree) (e : Status), build c p k f t = some (.err e) → e = .xapianException := by
  intro t
  induction t with
  | words q => intro e h; cases h
  | field n v => intro e h; exact field_err hf h
  | range n a b =>
    intro e h
    simp only [build, Option.some.injEq, rangeField] at h
    split at h
    · revert h; cases dateRange c a b <;> simp [rethrow, thrown, eq_comm]
    · split at h
      · revert h; cases lastmodRange c a b <;> simp [rethrow, thrown, eq_comm]
      · simp [thrown] at h; exact h.symm
  | comb op l r ihl ihr =>
    intro e h
    simp only [build, Option.bind_eq_some_iff, Option.map_eq_some_iff] at h
    obtain ⟨a, h1, b, h2, h3⟩ := h
    cases a with
    | ok q =>
      cases b with
      | ok q' => cases h3
      | err s => cases h3; exact ihr _ h2
      | crash => cases h3
    | err s => cases b <;> cases h3 <;> exact ihl _ h1
    | crash => cases b <;> cases h3
  | not t ih =>
    intro e h
    simp only [build, Option.map_eq_some_iff] at h
    obtain ⟨a, h1, h2⟩ := h
    cases a with
    | ok q => cases h2
    | err s => cases h2; exact ih _ h1
    | crash => cases h2

theorem parse_err : ∀ (n : Nat) (s : Str) (e : Status), parseQuery c p n s = some (.err e) → e = .xapianException
  | 0, s, e, h => by cases h
  | n + 1, s, e, h => by
    simp only [parseQuery] at h
    cases ht : p.parse s with
    | none => rw [ht] at h; simp [thrown] at h; exact h.symm
    | some t => rw [ht] at h; exact build_err (parse_err n) t e h

theorem query_err {n : Nat} {s : Str} {e : Status} (h : queryString c p n s = some (.err e)) : e = .xapianException := by
  unfold queryString at h
  split at h
  · cases h
  · exact parse_err n s e h

/-! ## Crashes -/

theorem rethrow_crash {r : Res} : rethrow r = .crash ↔ r = .crash := by cases r <;> simp [rethrow, thrown]

theorem dateRange_crash (a b : Str) : dateRange c a b ≠ .crash := by
  unfold dateRange
  split <;> simp

theorem lastmodRange_crash (a b : Str) : lastmodRange c a b ≠ .crash := by
  unfold lastmodRange
  split <;> simp

theorem regexToQuery_crash (n w : Str) : regexToQuery c n w ≠ .crash := by
  unfold regexToQuery
  split
  · simp
  · split <;> simp

theorem field_crash {k : Nat} {f : Str → Option Res} (hf : ∀ s, f s ≠ some .crash) {n v : Str} (hc : Calm c p (.field n v)) (hk : known (.field n v) = true) : fieldQuery c p k f n v ≠ some .crash := by
  rcases known_field hk with hn | hn | hn | rfl | rfl | rfl | rfl
  · rw [fq_plain v hn]; simp
  · rw [fq_regexp v (Or.inl hn)]
    intro h
    simp only [Option.some.injEq, regexpField] at h
    split at h
    · split at h <;> cases h
    · split at h
      · split at h
        · exact regexToQuery_crash _ _ (rethrow_crash.1 h)
        · cases h
      · split at h
        · split at h <;> cases h
        · cases h
  · rw [fq_regexp v (Or.inr hn)]
    intro h
    simp only [Option.some.injEq, regexpField] at h
    split at h
    · split at h <;> cases h
    · split at h
      · split at h
        · exact regexToQuery_crash _ _ (rethrow_crash.1 h)
        · cases h
      · split at h
        · split at h <;> cases h
        · cases h
  · have h0 := hc.1 rfl
    by_cases h1 : v.head? = some 123
    · obtain ⟨s, rfl⟩ : ∃ s, v = bs "{" ++ s := by
        cases v with
        | nil => exact absurd rfl h0
        | cons x l =>
          simp only [List.head?_cons, Option.some.injEq] at h1
          rw [h1]
          exact ⟨l, rfl⟩
      by_cases h2 : s.getLast? = some 125
      · obtain ⟨w, rfl⟩ := List.getLast?_eq_some_iff.1 h2
        have e : bs "{" ++ (w ++ [125]) = bs "{" ++ w ++ bs "}" := rfl
        rw [e, fq_braces]
        intro h
        rw [Option.map_eq_some_iff] at h
        obtain ⟨r, h3, h4⟩ := h
        cases r with
        | ok q => cases h4
        | err s => cases h4
        | crash =>
          split at h3
          · cases h3
          · exact hf _ h3
      · rw [fq_unclosed s h2]; simp [thrown]
    · rw [fq_thread v h0 h1]; simp
  · rw [fq_query]; exact hf _
  · rw [fq_sexp]
    cases hr : p.readSexp v with
    | none => simp [thrown]
    | some sx =>
      intro h
      rw [Option.map_eq_some_iff] at h
      obtain ⟨r, h1, h2⟩ := h
      rw [rethrow_crash] at h2
      subst h2
      exact hc.2 rfl sx hr k h1
  · rw [fq_date]
    intro h
    simp only [Option.some.injEq, dateField] at h
    split at h <;> cases h

theorem build_crash {k : Nat} {f : Str → Option Res} (hf : ∀ s, f s ≠ some .crash) : ∀ (t : Tree), Calm c p t → known t = true → build c p k f t ≠ some .crash := by
  intro t
  induction t with
  | words q => intro _ _ h; cases h
  | field n v => intro hc hk; exact field_crash hf hc hk
  | range n a b =>
    intro _ _ h
    simp only [build, Option.some.injEq, rangeField] at h
    split at h
    · exact dateRange_crash _ _ (rethrow_crash.1 h)
    · split at h
      · exact lastmodRange_crash _ _ (rethrow_crash.1 h)
      · cases h
  | comb op l r ihl ihr =>
    intro hc hk h
    simp only [known, Bool.and_eq_true] at hk
    simp only [build, Option.bind_eq_some_iff, Option.map_eq_some_iff] at h
    obtain ⟨a, h1, b, h2, h3⟩ := h
    cases a with
    | ok q =>
      cases b with
      | ok q' => cases h3
      | err s => cases h3
      | crash => exact ihr hc.2 hk.2 h2
    | err s => cases b <;> cases h3
    | crash => exact ihl hc.1 hk.1 h1
  | not t ih =>
    intro hc hk h
    simp only [build, Option.map_eq_some_iff] at h
    obtain ⟨a, h1, h2⟩ := h
    cases a with
    | ok q => cases h2
    | err s => cases h2
    | crash => exact ih hc hk h1

theorem parse_crash (hp : KnownFields p) (hc : ∀ s t, p.parse s = some t → Calm c p t) : ∀ (n : Nat) (s : Str), parseQuery c p n s ≠ some .crash
  | 0, s, h => by cases h
  | n + 1, s, h => by
    simp only [parseQuery] at h
    cases ht : p.parse s with
    | none => rw [ht] at h; cases h
    | some t => rw [ht] at h; exact build_crash (parse_crash hp hc n) t (hc s t ht) (hp s t ht) h

/-! ## An end -/

theorem field_ends {n v : Str} (hs : ∀ sx, ∃ k r, Sexp.query c k sx = some r) (hk : known (.field n v) = true) (hu : ∀ u ∈ uses c (.field n v), ∃ k r, parseQuery c p k u = some r) :
    ∃ k r, fieldQuery c p k (parseQuery c p k) n v = some r := by
  rcases known_field hk with hn | hn | hn | rfl | rfl | rfl | rfl
  · exact ⟨0, _, fq_plain v hn⟩
  · exact ⟨0, _, fq_regexp v (Or.inl hn)⟩
  · exact ⟨0, _, fq_regexp v (Or.inr hn)⟩
  · by_cases h0 : v = []
    · rw [h0]; exact ⟨0, _, fq_threadEmpty⟩
    by_cases h1 : v.head? = some 123
    · obtain ⟨s, rfl⟩ : ∃ s, v = bs "{" ++ s := by
        cases v with
        | nil => exact absurd rfl h0
        | cons x l =>
          simp only [List.head?_cons, Option.some.injEq] at h1
          rw [h1]
          exact ⟨l, rfl⟩
      by_cases h2 : s.getLast? = some 125
      · obtain ⟨w, rfl⟩ := List.getLast?_eq_some_iff.1 h2
        have e : bs "{" ++ (w ++ [125]) = bs "{" ++ w ++ bs "}" := rfl
        rw [e]
        have hw : w ∈ uses c (.field (bs "thread") (bs "{" ++ (w ++ [125]))) := by
          have hne : bs "thread" ≠ bs "query" := by decide +kernel
          have e2 : bs "{" ++ (w ++ [125]) = 123 :: (w ++ [125]) := rfl
          simp only [uses, if_neg hne]
          rw [e2, last_cons]
          simp
        obtain ⟨k, r, hr⟩ := hu w hw
        refine ⟨k, ?_⟩
        rw [fq_braces]
        split
        · exact ⟨_, rfl⟩
        · rw [hr]; exact ⟨_, rfl⟩
      · exact ⟨0, _, fq_unclosed s h2⟩
    · exact ⟨0, _, fq_thread v h0 h1⟩
  · obtain ⟨k, r, hr⟩ := hu (c.named v) (by simp [uses])
    exact ⟨k, r, by rw [fq_query]; exact hr⟩
  · cases hr : p.readSexp v with
    | none => exact ⟨0, thrown, by rw [fq_sexp, hr]⟩
    | some sx =>
      obtain ⟨k, r, h1⟩ := hs sx
      exact ⟨k, rethrow r, by rw [fq_sexp, hr]; simp only [h1, Option.map_some]⟩
  · exact ⟨0, _, fq_date v⟩

theorem build_ends (hs : ∀ sx, ∃ k r, Sexp.query c k sx = some r) : ∀ t, known t = true → (∀ u ∈ uses c t, ∃ k r, parseQuery c p k u = some r) →
    ∃ k r, build c p k (parseQuery c p k) t = some r := by
  intro t
  induction t with
  | words q => intro _ _; exact ⟨0, _, rfl⟩
  | field n v => intro hk hu; exact field_ends hs hk hu
  | range n a b => intro _ _; exact ⟨0, _, rfl⟩
  | comb op l r ihl ihr =>
    intro hk hu
    simp only [known, Bool.and_eq_true] at hk
    obtain ⟨n, a, h1⟩ := ihl hk.1 (fun u h => hu u (List.mem_append.2 (Or.inl h)))
    obtain ⟨m, b, h2⟩ := ihr hk.2 (fun u h => hu u (List.mem_append.2 (Or.inr h)))
    refine ⟨n + m, both op a b, ?_⟩
    have h1' := build_mono (c := c) (p := p) (Nat.le_add_right n m) (fun s r => parse_mono (Nat.le_add_right n m)) l _ h1
    have h2' := build_mono (c := c) (p := p) (Nat.le_add_left m n) (fun s r => parse_mono (Nat.le_add_left m n)) r _ h2
    simp only [build, h1', h2', Option.bind_some, Option.map_some]
  | not t ih =>
    intro hk hu
    obtain ⟨n, a, h1⟩ := ih hk hu
    exact ⟨n, negate a, by simp only [build, h1, Option.map_some]⟩

theorem parse_ends (hs : ∀ sx, ∃ k r, Sexp.query c k sx = some r) (hp : KnownFields p) (rank : Str → Nat) (hr : ∀ s t, p.parse s = some t → ∀ u ∈ uses c t, rank u < rank s) :
    ∀ (m : Nat) (s : Str), rank s < m → ∃ k r, parseQuery c p k s = some r := by
  intro m
  induction m with
  | zero => intro s h; exact absurd h (Nat.not_lt_zero _)
  | succ m ih =>
    intro s h
    cases ht : p.parse s with
    | none => exact ⟨1, thrown, by simp only [parseQuery, ht]⟩
    | some t =>
      obtain ⟨k, r, h1⟩ := build_ends hs t (hp s t ht) (fun u hu => ih u (by have := hr s t ht u hu; omega))
      exact ⟨k + 1, r, by simp only [parseQuery, ht, h1]⟩

/-! ## The source -/

theorem seek_first (re : Str → Bool) (l : List (Nat × Str)) : (seek re l).head? = (l.filter (fun v => re v.2)).head? := by
  induction l with
  | nil => rfl
  | cons v l ih =>
    simp only [seek, List.filter_cons]
    split
    · rfl
    · exact ih

theorem seek_suffix (re : Str → Bool) (l : List (Nat × Str)) : seek re l <:+ l := by
  induction l with
  | nil => exact List.suffix_refl _
  | cons v l ih =>
    simp only [seek]
    split
    · exact List.suffix_refl _
    · exact ih.trans (List.suffix_cons _ _)

theorem call_suffix (re : Str → Bool) (s : Source) (x : Call) : (x.does re s).rest <:+ s.rest := by
  cases x with
  | next =>
    refine (seek_suffix re _).trans ?_
    split
    · exact List.tail_suffix _
    · exact List.suffix_refl _
  | skipTo did => exact (seek_suffix re _).trans (List.dropWhile_suffix _)
  | check did => exact List.dropWhile_suffix _

theorem after_suffix (re : Str → Bool) (values : List (Nat × Str)) (calls : List Call) : (after re values calls).rest <:+ values := by
  have : ∀ (calls : List Call) (s : Source), (calls.foldl (Call.does re) s).rest <:+ s.rest := by
    intro calls
    induction calls with
    | nil => intro s; exact List.suffix_refl _
    | cons x l ih => intro s; exact (ih _).trans (call_suffix re s x)
  exact this calls _

/-- The numbers grow. -/
def Sorted (values : List (Nat × Str)) : Prop := values.Pairwise (fun a b => a.1 < b.1)

theorem dropWhile_filter {l : List (Nat × Str)} (h : Sorted l) (did : Nat) : l.dropWhile (fun v => v.1 < did) = l.filter (fun v => did ≤ v.1) := by
  induction l with
  | nil => rfl
  | cons v l ih =>
    have h' := List.pairwise_cons.1 h
    simp only [List.dropWhile_cons, List.filter_cons]
    by_cases hv : v.1 < did
    · simp only [hv, decide_true, if_true]
      rw [if_neg (by simp; exact hv)]
      exact ih h'.2
    · simp only [hv, decide_false, Bool.false_eq_true, if_false]
      rw [if_pos (by simp; omega)]
      congr 1
      refine (List.filter_eq_self.2 ?_).symm
      intro a ha
      have := h'.1 a ha
      simp; omega

/-- What is left of sorted values is what is not before its first one. -/
theorem suffix_filter {l values : List (Nat × Str)} (h : Sorted values) (hs : l <:+ values) {v : Nat × Str} {l' : List (Nat × Str)} (e : l = v :: l') :
    l = values.filter (fun x => v.1 ≤ x.1) ∧ l' = values.filter (fun x => v.1 < x.1) := by
  obtain ⟨pre, rfl⟩ := hs
  subst e
  have hp := List.pairwise_append.1 h
  have hv := List.pairwise_cons.1 hp.2.1
  have e1 : pre.filter (fun x => v.1 ≤ x.1) = [] := by
    rw [List.filter_eq_nil_iff]
    intro a ha
    have := hp.2.2 a ha v (by simp)
    simp; omega
  have e2 : pre.filter (fun x => v.1 < x.1) = [] := by
    rw [List.filter_eq_nil_iff]
    intro a ha
    have := hp.2.2 a ha v (by simp)
    simp; omega
  constructor
  · rw [List.filter_append, e1, List.nil_append]
    refine (List.filter_eq_self.2 ?_).symm
    intro a ha
    rcases List.mem_cons.1 ha with rfl | ha
    · simp
    · have := hv.1 a ha
      simp; omega
  · rw [List.filter_append, e2, List.nil_append, List.filter_cons, if_neg (by simp)]
    refine (List.filter_eq_self.2 ?_).symm
    intro a ha
    have := hv.1 a ha
    simp; omega

theorem docid_seek (re : Str → Bool) (l : List (Nat × Str)) (b : Bool) : (Source.mk (seek re l) b).docid = ((l.filter (fun v => re v.2)).map (·.1)).head? := by
  unfold Source.docid
  rw [seek_first, List.head?_map]

end Notmuch.Fields
