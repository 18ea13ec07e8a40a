import Verif.Proofs.ArgsParse
import Verif.Model.ArgTables

/-! # C53: command line options -/

namespace Notmuch.Props

open Notmuch.Args

instance (es : List Entry) : Decidable (Good es) :=
  decidable_of_iff ((∀ e ∈ es, ∀ n ∈ e.name, n ≠ [] ∧ (61 : UInt8) ∉ n ∧ (58 : UInt8) ∉ n ∧ e.kind ≠ .position) ∧ (es.filterMap (·.name)).Nodup ∧
    (∀ e ∈ es, e.kind.negatable = true → ∀ n ∈ e.name, ¬n <+: bs "no-" ++ n ∧ ∀ f ∈ es, f.name ≠ some (bs "no-" ++ n)) ∧ (∀ e ∈ es, ∀ p ∈ e.kind.keywords, p.1 ≠ []))
    ⟨fun ⟨a, b, c, d⟩ => ⟨a, b, c, d⟩, fun ⟨a, b, c, d⟩ => ⟨a, b, c, d⟩⟩

/-- A command line is understood as `Parses` says. -/
theorem C53_meaning {opts : List Opt} (hg : Good (entries opts)) (args rest : List Str) (w : List Write) :
    parse opts args = (.rest rest, w) ↔ Parses (entries opts) (places opts) args w rest := parse_iff hg args rest w

/-- In one way. -/
theorem C53_one_meaning {opts : List Opt} (hg : Good (entries opts)) {args r r' : List Str} {w w' : List Write} (h : Parses (entries opts) (places opts) args w r)
    (h' : Parses (entries opts) (places opts) args w' r') : w = w' ∧ r = r' := by
  have h1 := (parse_iff hg _ _ _).2 h
  have h2 := (parse_iff hg _ _ _).2 h'
  rw [h1] at h2
  injection h2 with h3 h4
  injection h3 with h3
  exact ⟨h4, h3⟩

/-- What is not understood is an error, and nothing is read beyond the end of an array, if every array of keywords has an end. -/
theorem C53_error {opts : List Opt} (hg : Good (entries opts)) (he : Ended (entries opts)) (args : List Str) :
    (parse opts args).1 = .failed ↔ ¬∃ w rest, Parses (entries opts) (places opts) args w rest := by
  have h := parseArguments_no_overrun hg he args.length 0 args
  constructor
  · rintro hf ⟨w, r, hp⟩
    rw [(parse_iff hg _ _ _).2 hp] at hf
    cases hf
  · intro hn
    cases hp : parse opts args with
    | mk q w =>
      cases q with
      | rest r => exact absurd ⟨w, r, (parse_iff hg _ _ _).1 hp⟩ hn
      | failed => rfl
      | overrun =>
        have : (parse opts args).1 ≠ .overrun := h
        rw [hp] at this
        exact absurd rfl this

theorem ended_of {es : List Entry} (h : ∀ e ∈ es, (match e.kind with | .flags k => k.ended | .keyword k _ => k.ended | _ => true) = true) : Ended es := by
  intro e he k hk
  have := h e he
  rcases hk with hk | ⟨d, hk⟩ <;> rw [hk] at this <;> exact this

/-- The tables of the commands are such. -/
theorem C53_tables : (∀ t ∈ tables, Good (entries t)) ∧ (∀ t ∈ soundTables, Ended (entries t)) ∧ (∀ t ∈ tables, places t = []) := by
  refine ⟨?_, ?_, ?_⟩
  · unfold tables
    decide +kernel
  · intro t ht
    apply ended_of
    revert t
    decide +kernel
  · intro t ht
    simp only [tables, soundTables, List.cons_append, List.nil_append, List.mem_cons, List.not_mem_nil, or_false] at ht
    rcases ht with rfl | rfl | rfl | rfl | rfl | rfl | rfl | rfl | rfl | rfl | rfl | rfl | rfl | rfl <;> rfl

/-- For example. -/
example : Parses (entries showOptions) (places showOptions) [bs "--format:json", bs "--limit", bs "10", bs "--no-exclude", bs "--decrypt", bs "tag:inbox", bs "--part=3"]
    [.keyword 11 1, .int 23 10, .bool 13 false, .keyword 18 3] [bs "tag:inbox", bs "--part=3"] :=
  (C53_meaning (C53_tables.1 _ (by simp [tables, soundTables])) _ _ _).1 (by decide +kernel)

theorem parseOption_name {opts : List Opt} (hg : Good (entries opts)) {e : Entry} {n : Str} {neg : Bool} (he : e ∈ entries opts) (hn : e.name = some n)
    (hneg : neg = true → e.kind.negatable = true) {after : Str} (ha : endsName after = true) (args : List Str) :
    parseOption ((if neg then bs "no-" else []) ++ n ++ after) args opts = useEntry e after neg args :=
  (parseOption_eq _ args opts).2 _ (one_entry (entries opts) hg.distinct (fun _ he _ hf _ _ => same_name hg he hf) e he _ (tryEntry_pos hg he hn rfl hneg ha))

theorem spelled_eq (neg : Bool) (n after : Str) : spelled neg n ++ after = bs "--" ++ ((if neg then bs "no-" else []) ++ n ++ after) := by
  unfold spelled
  simp [List.append_assoc]

theorem parse_spelled (opts : List Opt) {neg : Bool} {n after : Str} (hn : n ≠ []) (args : List Str) :
    parse opts ((spelled neg n ++ after) :: args) =
      (match parseOption ((if neg then bs "no-" else []) ++ n ++ after) args opts with
        | (.rest r, w) => ((parseArguments opts args.length 0 r).1, w ++ (parseArguments opts args.length 0 r).2)
        | (r, w) => (r, w)) := by
  show parseArguments opts (args.length + 1) 0 _ = _
  rw [spelled_eq, parseArguments, if_pos (isPrefixOf_append _ _), if_neg]
  · rw [show (bs "--" ++ ((if neg then bs "no-" else []) ++ n ++ after)).drop 2 = _ from drop_append (bs "--") _]
    cases parseOption ((if neg then bs "no-" else []) ++ n ++ after) args opts with
    | mk q w => cases q <;> rfl
  · rw [List.length_append, List.length_append, List.length_append]
    have : 0 < n.length := List.length_pos_iff.2 hn
    have : (bs "--").length = 2 := rfl
    omega

/-- `=` and `:` are the same.  A space is the same as well, where a value is taken that does not begin with `--`, unless the option is boolean. -/
theorem C53_separator {opts : List Opt} (hg : Good (entries opts)) {e : Entry} {n : Str} {neg : Bool} (he : e ∈ entries opts) (hn : e.name = some n)
    (hneg : neg = true → e.kind.negatable = true) (v : Str) (args : List Str) :
    parse opts ((spelled neg n ++ bs "=" ++ v) :: args) = parse opts ((spelled neg n ++ bs ":" ++ v) :: args) ∧
    (e.kind ≠ .bool → ¬bs "--" <+: v → ∀ r w, parse opts ((spelled neg n ++ bs "=" ++ v) :: args) = (.rest r, w) → parse opts (spelled neg n :: v :: args) = (.rest r, w)) := by
  have hn0 := (hg.names e he n (by rw [hn]; rfl)).1
  have e1 : ∀ c : UInt8, (c = 61 ∨ c = 58) → parseOption ((if neg then bs "no-" else []) ++ n ++ c :: v) args opts = finish e args args (process e .delim v neg) := by
    intro c hc
    rw [parseOption_name hg he hn hneg (by unfold endsName; rcases hc with rfl | rfl <;> rfl), useEntry_given]
  rw [List.append_assoc, List.append_assoc]
  refine ⟨?_, ?_⟩
  · rw [show bs "=" ++ v = 61 :: v from rfl, show bs ":" ++ v = 58 :: v from rfl, parse_spelled opts hn0, parse_spelled opts hn0, e1 61 (Or.inl rfl), e1 58 (Or.inr rfl)]
  · intro hk hv r w h
    rw [parse_iff hg] at h ⊢
    rw [show bs "=" ++ v = 61 :: v from rfl, spelled_eq, parses_dashes hg] at h
    rcases h with ⟨h, _⟩ | ⟨_, w1, args', w2, ht, hp, rfl⟩
    · simp [hn0] at h
    · rw [← parseOption_iff hg, e1 61 (Or.inl rfl)] at ht
      rcases finish_rest ht with ⟨ws, hpr, rfl, rfl⟩ | ⟨ws, hpr, _, _⟩
      · obtain ⟨w, rfl, hw⟩ := (process_ok (by simp) v neg ws).1 hpr
        exact .option (.next he hn hneg hk hv hw) hp
      · exact absurd rfl ((process_giveback _ _ _).1 hpr).1

/-- An option that is set, and how. -/
structure Setting where
  entry : Entry
  neg : Bool
  name : Str
  value : Str
  write : Write

/-- Whatever can be set can be written down, with any arguments after it. -/
theorem C53_render {opts : List Opt} (hg : Good (entries opts)) (l : List Setting)
    (hl : ∀ s ∈ l, s.entry ∈ entries opts ∧ s.entry.name = some s.name ∧ (s.neg = true → s.entry.kind.negatable = true) ∧ Sets s.entry s.neg (some s.value) s.write) (rest : List Str) :
    parse opts (l.map (fun s => spelled s.neg s.name ++ bs "=" ++ s.value) ++ bs "--" :: rest) = (.rest rest, l.flatMap (fun s => s.write :: present s.entry)) := by
  rw [parse_iff hg]
  induction l with
  | nil => exact .stop
  | cons s l ih =>
    obtain ⟨h1, h2, h3, h4⟩ := hl s (by simp)
    rw [List.map_cons, List.flatMap_cons, List.cons_append]
    refine .option ?_ (ih (fun s hs => hl s (by simp [hs])))
    rw [List.append_assoc]
    exact .given h1 h2 h3 (Or.inl rfl) h4

/-- What is left are the last of the arguments, and what is before them are options, `--` and arguments for positions. -/
theorem C53_rest {opts : List Opt} (hg : Good (entries opts)) {args rest : List Str} {w : List Write} (h : parse opts args = (.rest rest, w)) :
    ∃ used, args = used ++ rest ∧ (places opts = [] → rest ≠ [] → used.getLast? = some (bs "--") ∨ ∀ a, rest.head? = some a → ¬bs "--" <+: a) := by
  rw [parse_iff hg] at h
  generalize places opts = ps at h
  induction h with
  | none => exact ⟨[], rfl, fun _ h => absurd rfl h⟩
  | stop => exact ⟨[bs "--"], rfl, fun _ _ => Or.inl rfl⟩
  | rest ha =>
    refine ⟨[], rfl, fun _ _ => Or.inr ?_⟩
    intro b hb
    injection hb with hb
    exact hb ▸ ha
  | position ha _ ih =>
    obtain ⟨u, h1, h2⟩ := ih
    exact ⟨_ :: u, by rw [h1]; rfl, fun h => by cases h⟩
  | option ht _ ih =>
    obtain ⟨u, h1, h2⟩ := ih
    have last : ∀ (a : Str) {u : List Str}, u.getLast? = some (bs "--") → (a :: u).getLast? = some (bs "--") := by
      intro a u hu
      cases u with
      | nil => cases hu
      | cons x u => rw [List.getLast?_cons_cons]; exact hu
    rcases takes_shape ht with ⟨a, h⟩ | ⟨a, v, h⟩
    · refine ⟨a :: u, by rw [h, h1]; rfl, fun hp hr => ?_⟩
      exact (h2 hp hr).imp (last a) id
    · refine ⟨a :: v :: u, by rw [h, h1]; rfl, fun hp hr => ?_⟩
      exact (h2 hp hr).imp (fun hu => last a (last v hu)) id

theorem number_unique {s : Str} {i j : Int} (h : Number s i) (h' : Number s j) : i = j := by
  rw [number_iff] at h h'
  rw [h.2.2, h'.2.2]

theorem number_dec (n : Nat) (h : n < 2 ^ 31) : Number (dec n) n := by
  refine ⟨[], [], dec n, rfl, by simp, by simp, dec_ne_nil n, dec_digits n, by omega, by omega, _, rfl, ?_⟩
  rw [decVal_dec, if_neg (by decide +kernel)]
  have : max (-2 ^ 63 : Int) (min (2 ^ 63 - 1) (n : Int)) = n := by omega
  rw [this, Int.sub_self]
  exact Int.dvd_zero _

theorem number_neg_dec (n : Nat) (h : n ≤ 2 ^ 31) : Number (bs "-" ++ dec n) (-n) := by
  refine ⟨[], bs "-", dec n, rfl, by simp, by simp, dec_ne_nil n, dec_digits n, by omega, by omega, _, rfl, ?_⟩
  rw [decVal_dec, if_pos rfl]
  have : max (-2 ^ 63 : Int) (min (2 ^ 63 - 1) (-(n : Int))) = -n := by omega
  rw [this, Int.sub_self]
  exact Int.dvd_zero _

/-- The numbers of an `int` are taken for what they are. -/
theorem C53_number (n : Nat) :
    (n < 2 ^ 31 → parse searchOptions [bs "--limit=" ++ dec n] = (.rest [], [.int 16 n])) ∧
    (n ≤ 2 ^ 31 → parse searchOptions [bs "--limit=-" ++ dec n] = (.rest [], [.int 16 (-n)])) := by
  have hg : Good (entries searchOptions) := C53_tables.1 _ (by simp [tables, soundTables])
  have he : (⟨.int, some (bs "limit"), 16, none⟩ : Entry) ∈ entries searchOptions := by decide +kernel
  refine ⟨fun h => ?_, fun h => ?_⟩
  · rw [parse_iff hg]
    have h1 : Takes (entries searchOptions) [bs "--limit=" ++ dec n] [.int 16 n] [] := .given (c := 61) (neg := false) he rfl (fun h => by cases h) (Or.inl rfl) (.int rfl (number_dec n h))
    exact .option h1 .none
  · rw [parse_iff hg]
    have h1 : Takes (entries searchOptions) [bs "--limit=-" ++ dec n] [.int 16 (-n)] [] :=
      .given (c := 61) (neg := false) (v := bs "-" ++ dec n) he rfl (fun h => by cases h) (Or.inl rfl) (.int rfl (number_neg_dec n h))
    exact .option h1 .none

/-- Others are not: 4294967296 is 0, and 99999999999999999999 is -1, that is, no limit. -/
theorem C53_counterexample_number : parse searchOptions [bs "--limit=4294967297"] = (.rest [], [.int 16 1]) ∧
    parse searchOptions [bs "--limit=99999999999999999999"] = (.rest [], [.int 16 (-1)]) := by
  refine ⟨?_, ?_⟩ <;> decide +kernel

/-- A keyword of `--include` that is not known makes dump and restore read beyond the end of an array. -/
theorem C53_counterexample_include : (parse dumpOptions [bs "--include=everything"]).1 = .overrun ∧ (parse restoreOptions [bs "--include", bs "tag:inbox"]).1 = .overrun ∧
    (parse dumpOptions [bs "--include"]).1 = .overrun := by
  refine ⟨?_, ?_, ?_⟩ <;> decide +kernel

/-- The value of a boolean option is not the next argument; it is then the first of the query. -/
theorem C53_counterexample_space : parse showOptions [bs "--exclude", bs "false", bs "tag:inbox"] = (.rest [bs "false", bs "tag:inbox"], [.bool 13 true]) := by decide +kernel

/-- `--no-exclude` is an option of show and count, but not of search and address. -/
theorem C53_counterexample_no_exclude : (parse showOptions [bs "--no-exclude"]).1 = .rest [] ∧ (parse countOptions [bs "--no-exclude"]).1 = .rest [] ∧
    (parse searchOptions [bs "--no-exclude"]).1 = .failed ∧ (parse addressOptions [bs "--no-exclude"]).1 = .failed := by
  refine ⟨?_, ?_, ?_, ?_⟩ <;> decide +kernel

end Notmuch.Props
