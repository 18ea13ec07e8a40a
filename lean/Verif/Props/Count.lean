import Verif.Proofs.Count

/-! # C58: `notmuch count` -/

namespace Notmuch.Props

open Notmuch.Count Notmuch.Query Notmuch.QuerySpec Notmuch.Cli Notmuch.Args
open Notmuch.Sprinter (printInt)

/-- **C58 (number).**  What is printed for a query is the number of records that `notmuch search --format=text0` prints for it with the same `--output` and
`--exclude`, in whatever order, then with `--lastmod` the UUID and the revision of the database, and a newline. -/
theorem C58_number (E : Env) (ho : Orders E.ord) (hdb : GoodDb E.db) (hlen : E.db.length ≤ 2147483646)
    (sexp : Bool) (hs : sexp = true → E.haveSexp = true) (exclude : Bool) (out : Count.Output) (lastmod : Bool) (text : Str) (x : XQuery) (hx : E.parse sexp text = some x)
    (hfiles : (E.db.flatMap E.filenames).length ≤ 2147483647)
    (sortTags : List Str → List Str) (rel : Int → Str) (allterms : List Str) (star : Bool) (sort : SortOrder) (version : Nat) :
    ∃ cs, Search.search E.ord sortTags rel E.filenames allterms star true E.db x E.excludes (searchOpts out exclude sort version) = some cs ∧
      printCount E sexp (if exclude then E.excludes else []) out lastmod text = some (true, printInt (Search.records 0 (Search.textRun 0 cs)).length ++
        (if lastmod then bs "\t" ++ E.uuid ++ bs "\t" ++ printInt E.revision else []) ++ bs "\n") := by
  have hfits : Search.Fits E.db (searchOpts out exclude sort version) := ⟨by show (-2147483648 : Int) ≤ 0; decide, by omega, Or.inl (by show (-1 : Int) < 0; decide)⟩
  have hq : Search.theQuery x E.excludes (searchOpts out exclude sort version) = build x (if exclude then E.excludes else []) .yes sort := by
    unfold Search.theQuery Search.excluded searchOpts
    cases exclude <;> simp
  have hq' : (if exclude then E.excludes else []).foldl (fun q t => (addTagExclude q t).2) (mkQuery x) = build x (if exclude then E.excludes else []) .yes .newestFirst := by
    unfold build
    have hfold : ∀ (l : List Str) (q : Query), q.omitExcluded = .yes → q.sort = .newestFirst →
        l.foldl (fun q t => (addTagExclude q t).2) q = { l.foldl (fun q t => (addTagExclude q t).2) q with omitExcluded := .yes, sort := .newestFirst } := by
      intro l
      induction l with
      | nil =>
        intro q h1 h2
        obtain ⟨_, _, _, _, _⟩ := q
        simp only at h1 h2
        subst h1 h2
        rfl
      | cons t l ih =>
        intro q h1 h2
        rw [List.foldl_cons]
        refine ih _ ?_ ?_
        · unfold addTagExclude; simp only; split <;> exact h1
        · unfold addTagExclude; simp only; split <;> exact h2
    exact hfold _ _ rfl rfl
  have hnum : ∀ n : Nat, number E (build x (if exclude then E.excludes else []) .yes .newestFirst) out = some n →
      printCount E sexp (if exclude then E.excludes else []) out lastmod text = some (true, printInt n ++
        (if lastmod then bs "\t" ++ E.uuid ++ bs "\t" ++ printInt E.revision else []) ++ bs "\n") := by
    intro n hn
    have hne : (sexp && !E.haveSexp) = false := by
      cases sexp with
      | false => rfl
      | true => rw [hs rfl]; rfl
    unfold printCount
    rw [hne]
    simp only [Bool.false_eq_true, if_false]
    rw [hx]
    simp only
    rw [hq', hn]
    simp only [Count.tail]
    cases lastmod <;> simp
  have hcs : ∀ (p : Str) (h : (0 : UInt8) ∉ p) (i : Str), (0 : UInt8) ∉ p ++ Sprinter.cstr (some i) := by
    intro p h i hm
    rcases List.mem_append.1 hm with hm | hm
    · exact h hm
    · exact zero_not_mem_cstr _ hm
  cases out with
  | threads =>
    obtain ⟨ths, cs, st, h1, h2, _, _, h3⟩ := C46_threads ho sortTags rel E.filenames allterms star true 0 E.db hdb x E.excludes (searchOpts .threads exclude sort version) rfl rfl hfits
    refine ⟨cs, h2, ?_⟩
    rw [h3 (by
      intro r hr
      obtain ⟨th, _, rfl⟩ := List.mem_map.1 hr
      exact hcs _ (by decide +kernel) _)]
    refine hnum _ ?_
    obtain ⟨ths', h4, h5⟩ := C25_count_threads ho E.db hdb x (if exclude then E.excludes else []) .yes sort .newestFirst
    rw [hq, h4] at h1
    obtain rfl := Option.some.inj h1
    show countThreads _ _ _ = _
    rw [h5, List.length_map]
    show _ = some (Search.window 0 (-1) _).length
    rw [window_all]
  | messages =>
    obtain ⟨ms, cs, st, l, h1, h2, hl, _, _, h3⟩ := C46_messages ho sortTags rel E.filenames allterms star true 0 E.db hdb x E.excludes (searchOpts .messages exclude sort version) rfl hfits
    refine ⟨cs, h2, ?_⟩
    rw [h3 (by
      intro r hr
      exact hcs _ (by decide +kernel) _)]
    refine hnum _ ?_
    obtain ⟨res, h4, h5⟩ := C25_count ho E.db hdb x (if exclude then E.excludes else []) .newestFirst sort .yes .yes (Or.inl rfl)
    rw [hq, h4] at h1
    obtain rfl := Option.some.inj h1
    show some (countMessages _ _) = _
    rw [h5, List.length_map, hl, List.length_map]
    have : (searchOpts Count.Output.messages exclude sort version).dupe ≤ 1 := by show (-1 : Int) ≤ 1; decide
    have hf : ∀ l : List (Doc × Bool), l.filter (fun m => decide ((searchOpts Count.Output.messages exclude sort version).dupe ≤ 1 ∨
        (searchOpts Count.Output.messages exclude sort version).dupe ≤ (E.filenames m.1).length)) = l := by
      intro l
      rw [List.filter_eq_self]
      intro m _
      simp [this]
    rw [hf]
    show _ = some (Search.window 0 (-1) _).length
    rw [window_all]
  | files =>
    obtain ⟨ms, cs, st, l, h1, h2, hl, _, _, h3⟩ := C46_files ho sortTags rel E.filenames allterms star true 0 E.db hdb x E.excludes (searchOpts .files exclude sort version) rfl hfits
    refine ⟨cs, h2, ?_⟩
    rw [h3 (Or.inl rfl)]
    refine hnum _ ?_
    rw [List.length_map, hl]
    show countFiles _ _ = some ((Search.window 0 (-1) ms).flatMap (fun m => Search.selectFiles (-1) (E.filenames m.1))).length
    rw [window_all]
    have hsel : ∀ f, Search.selectFiles (-1) f = f := fun f => rfl
    simp only [hsel]
    rw [hq] at h1
    obtain ⟨f, g1, g2, g3⟩ := searchMessages_spec ho hdb x (if exclude then E.excludes else []) .yes sort
    obtain ⟨f', g1', g2', g3'⟩ := searchMessages_spec ho hdb x (if exclude then E.excludes else []) .yes .newestFirst
    unfold countFiles
    rw [g1']
    rw [g1] at h1
    obtain rfl := Option.some.inj h1
    simp only
    obtain ⟨n, n1, n2⟩ := hits_files ho E.db x (if exclude then E.excludes else []) E.filenames
    have hmap : ∀ (l : List Doc) (f : Doc → Bool), (l.map (fun d => (d, f d))).flatMap (fun m => E.filenames m.1) = l.flatMap E.filenames := by
      intro l f
      rw [List.flatMap_map]
    rw [countMessagesFiles_eq _ _ _ (by rw [hmap, n2]; omega), hmap, hmap, n2, n2, Nat.zero_add]

variable (X : Sys) (E : Env) (s : Shared) (name : Str)

/-- **C58 (words).**  The words after the options are the query, with single blanks between them. -/
theorem C58_words (args words : List Str) (w : List Write) (hp : parse countOptions args = (.rest words, w)) (hg : GoesOn (w.foldl Shared.write s) E.uuid)
    (hb : (optsOf w).batch = false) (hi : (optsOf w).input = none) :
    countCommand X E s name args =
      ended (printCount E (w.foldl Shared.write s).sexp (if (optsOf w).exclude then E.excludes else []) (optsOf w).output (optsOf w).lastmod ((bs " ").intercalate words)) := by
  unfold countCommand
  rw [hp]
  simp only
  rw [goesOn hg, hi, hb, queryString_eq]
  rfl

/-- What an option writes. -/
def settingWrite : CountSetting → Write
  | .output .threads => .keyword 10 0
  | .output .messages => .keyword 10 1
  | .output .files => .keyword 10 2
  | .exclude b => .bool 11 b
  | .lastmod b => .bool 12 b
  | .sexp true => .keyword 4 1
  | .sexp false => .keyword 4 0

theorem good_count : Good (entries countOptions) := C53_tables.1 countOptions (by simp [tables, soundTables])
theorem places_count : places countOptions = [] := C53_tables.2.2 countOptions (by simp [tables, soundTables])

theorem setting_takes (x : CountSetting) (args : List Str) : Takes (entries countOptions) (x.text :: args) [settingWrite x] args := by
  have ek : ∀ (n : Str) (l : List (String × Int)) (v : Nat) (k : Str) (i : Int), (⟨.keyword (kw l) none, some n, v, none⟩ : Entry) ∈ entries countOptions → First (kw l).list k i →
      Takes (entries countOptions) ((spelled false n ++ 61 :: k) :: args) [.keyword v i] args := by
    intro n l v k i h1 h2
    exact .given (e := ⟨.keyword (kw l) none, some n, v, none⟩) h1 rfl (by intro h; cases h) (Or.inl rfl) (.keyword rfl h2)
  have h10 : (⟨.keyword (kw [("threads", 0), ("messages", 1), ("files", 2)]) none, some (bs "output"), 10, none⟩ : Entry) ∈ entries countOptions := by decide +kernel
  have h11 : (⟨.bool, some (bs "exclude"), 11, none⟩ : Entry) ∈ entries countOptions := by decide +kernel
  have h12 : (⟨.bool, some (bs "lastmod"), 12, none⟩ : Entry) ∈ entries countOptions := by decide +kernel
  have h4 : (⟨.keyword (kw [("infix", 0), ("sexp", 1)]) none, some (bs "query"), 4, none⟩ : Entry) ∈ entries countOptions := by decide +kernel
  rcases x with (_ | _ | _) | (_ | _) | (_ | _) | (_ | _)
  · exact ek _ _ _ (bs "threads") 0 h10 ⟨[], _, rfl, by simp⟩
  · exact ek _ _ _ (bs "messages") 1 h10 ⟨[(bs "threads", 0)], _, rfl, by decide +kernel⟩
  · exact ek _ _ _ (bs "files") 2 h10 ⟨[(bs "threads", 0), (bs "messages", 1)], _, rfl, by decide +kernel⟩
  · exact Takes.given (n := bs "exclude") (v := bs "false") (neg := false) h11 rfl (by intro h; cases h) (Or.inl rfl) (.isFalse rfl)
  · exact Takes.given (n := bs "exclude") (v := bs "true") (neg := false) h11 rfl (by intro h; cases h) (Or.inl rfl) (.isTrue rfl)
  · exact Takes.alone (n := bs "lastmod") (neg := true) h12 rfl (fun _ => rfl) (.bool rfl)
  · exact Takes.alone (n := bs "lastmod") (neg := false) h12 rfl (by intro h; cases h) (.bool rfl)
  · exact ek _ _ _ (bs "infix") 0 h4 ⟨[], _, rfl, by simp⟩
  · exact ek _ _ _ (bs "sexp") 1 h4 ⟨[(bs "infix", 0)], _, rfl, by decide +kernel⟩

theorem setting_parses (l : List CountSetting) (words : List Str) (hw : ∀ a, words.head? = some a → ¬bs "--" <+: a) :
    parse countOptions (l.map CountSetting.text ++ words) = (.rest words, l.map settingWrite) := by
  rw [parse_iff good_count, places_count]
  induction l with
  | nil =>
    cases words with
    | nil => exact .none
    | cons a r => exact .rest (hw a rfl)
  | cons x l ih => exact .option (setting_takes x _) ih

theorem setting_fold (l : List CountSetting) : ∀ (c : Chosen) (o : Int), c.output = outputOf o →
    outputOf ((l.map settingWrite).foldl (fun b x => match x with | .keyword v' b' => if v' = 10 then b' else b | _ => b) o) = (l.foldl Chosen.set c).output := by
  induction l with
  | nil => intro c o h; exact h.symm
  | cons x l ih =>
    intro c o h
    rw [List.map_cons, List.foldl_cons, List.foldl_cons]
    apply ih
    rcases x with (_ | _ | _) | _ | _ | (_ | _) <;> first | rfl | exact h

theorem setting_exclude (l : List CountSetting) : ∀ (c : Chosen) (b : Bool), c.exclude = b → boolVar 11 b (l.map settingWrite) = (l.foldl Chosen.set c).exclude := by
  unfold boolVar
  induction l with
  | nil => intro c o h; exact h.symm
  | cons x l ih =>
    intro c o h
    rw [List.map_cons, List.foldl_cons, List.foldl_cons]
    apply ih
    rcases x with (_ | _ | _) | _ | _ | (_ | _) <;> first | rfl | exact h

theorem setting_lastmod (l : List CountSetting) : ∀ (c : Chosen) (b : Bool), c.lastmod = b → boolVar 12 b (l.map settingWrite) = (l.foldl Chosen.set c).lastmod := by
  unfold boolVar
  induction l with
  | nil => intro c o h; exact h.symm
  | cons x l ih =>
    intro c o h
    rw [List.map_cons, List.foldl_cons, List.foldl_cons]
    apply ih
    rcases x with (_ | _ | _) | _ | _ | (_ | _) <;> first | rfl | exact h

theorem setting_shared (l : List CountSetting) : ∀ (c : Chosen) (s : Shared), s = ⟨false, false, none, c.sexp⟩ →
    (l.map settingWrite).foldl Shared.write s = ⟨false, false, none, (l.foldl Chosen.set c).sexp⟩ := by
  induction l with
  | nil => intro c o h; exact h
  | cons x l ih =>
    intro c o h
    subst h
    rw [List.map_cons, List.foldl_cons, List.foldl_cons]
    apply ih
    rcases x with (_ | _ | _) | _ | _ | (_ | _) <;> rfl

theorem setting_batch (l : List CountSetting) : boolVar 13 false (l.map settingWrite) = false ∧ stringVar 14 (l.map settingWrite) = none := by
  unfold boolVar stringVar
  constructor
  · induction l with
    | nil => rfl
    | cons x l ih =>
      rw [List.map_cons, List.foldl_cons]
      rcases x with (_ | _ | _) | _ | _ | (_ | _) <;> exact ih
  · induction l with
    | nil => rfl
    | cons x l ih =>
      rw [List.map_cons, List.foldl_cons]
      rcases x with (_ | _ | _) | _ | _ | (_ | _) <;> exact ih

/-- **C58 (options).**  What the options are for: the last of each counts, and if there is none the default. -/
theorem C58_options (X : Sys) (E : Env) (name : Str) (l : List CountSetting) (words : List Str) (hw : ∀ a, words.head? = some a → ¬bs "--" <+: a) :
    countCommand X E .init name (l.map CountSetting.text ++ words) =
      ended (printCount E (chosen l).sexp (if (chosen l).exclude then E.excludes else []) (chosen l).output (chosen l).lastmod ((bs " ").intercalate words)) := by
  have hs := setting_shared l ⟨.messages, true, false, false⟩ .init rfl
  rw [C58_words (hp := setting_parses l words hw) (hg := by rw [hs]; exact ⟨rfl, rfl, by intro u h; cases h⟩) (hb := (setting_batch l).1) (hi := (setting_batch l).2)]
  have h1 : (optsOf (l.map settingWrite)).output = (chosen l).output := setting_fold l ⟨.messages, true, false, false⟩ 1 rfl
  have h2 : (optsOf (l.map settingWrite)).exclude = (chosen l).exclude := setting_exclude l ⟨.messages, true, false, false⟩ true rfl
  have h3 : (optsOf (l.map settingWrite)).lastmod = (chosen l).lastmod := setting_lastmod l ⟨.messages, true, false, false⟩ false rfl
  rw [hs, h1, h2, h3]
  rfl

/-- A text that is no query: the status is 1 and nothing is printed. -/
theorem C58_no_query (sexp : Bool) (hs : sexp = true → E.haveSexp = true) (ex : List Str) (out : Count.Output) (lastmod : Bool) (text : Str) (hx : E.parse sexp text = none) :
    ended (printCount E sexp ex out lastmod text) = .exit 1 [] := by
  have hne : (sexp && !E.haveSexp) = false := by
    cases sexp with
    | false => rfl
    | true => rw [hs rfl]; rfl
  unfold printCount
  rw [hne]
  simp only [Bool.false_eq_true, if_false]
  rw [hx]
  rfl

/-- **C58 (batch).**  With `--batch` the command does for the lines of its input what it does for them as queries, one after another until one is no
query. -/
theorem C58_batch (opts : List Str) (w : List Write) (hp : parse countOptions opts = (.rest [], w)) (hd : bs "--" ∉ opts) (hg : GoesOn (w.foldl Shared.write s) E.uuid)
    (hb : (optsOf w).batch = false) (hi : (optsOf w).input = none) (c : Str) (ts : List Str) (hl : Lines c ts) :
    countCommand X { E with stdin := c } s name (opts ++ [bs "--batch"]) = oneAfterAnother (ts.map (fun t => countCommand X E s name (opts ++ [bs "--", t]))) := by
  have h1 : parse countOptions (opts ++ [bs "--batch"]) = (.rest [], w ++ [.bool 13 true]) :=
    parse_append hp hd _ (by decide +kernel) [] (by decide +kernel)
  have h2 : ∀ t, parse countOptions (opts ++ [bs "--", t]) = (.rest [t], w ++ []) := by
    intro t
    refine parse_append hp hd _ (by decide +kernel) [t] ?_
    rw [parse_iff good_count]
    exact .stop
  have e1 : (w ++ [Write.bool 13 true]).foldl Shared.write s = w.foldl Shared.write s := by rw [List.foldl_append]; rfl
  have e2 : optsOf (w ++ [Write.bool 13 true]) = { optsOf w with batch := true } := by
    simp [optsOf, keywordVar, boolVar, stringVar, List.foldl_append]
  have hs : ∀ t, countCommand X E s name (opts ++ [bs "--", t]) =
      ended (printCount E (w.foldl Shared.write s).sexp (if (optsOf w).exclude then E.excludes else []) (optsOf w).output (optsOf w).lastmod t) := by
    intro t
    have := C58_words X E s name _ [t] w (by rw [h2, List.append_nil]) hg hb hi
    rw [this]
    simp
  have hm : (fun t => countCommand X E s name (opts ++ [bs "--", t])) = (fun t => ended (printCount E (w.foldl Shared.write s).sexp (if (optsOf w).exclude then E.excludes else []) (optsOf w).output (optsOf w).lastmod t)) := funext hs
  rw [hm, ← countLines_eq _ _ _ _ _ _ _ (lines_split hl)]
  unfold countCommand
  rw [h1]
  simp only
  rw [e1, goesOn hg, e2]
  simp only [hi, if_true]
  show ended (countLines { E with stdin := c } _ _ _ _ _) = _
  rw [countLines_stdin]

/-- The same with the lines of a file. -/
theorem C58_batch_file (opts : List Str) (w : List Write) (hp : parse countOptions opts = (.rest [], w)) (hd : bs "--" ∉ opts) (hg : GoesOn (w.foldl Shared.write s) E.uuid)
    (hb : (optsOf w).batch = false) (hi : (optsOf w).input = none) (f : Str) (hne : f ≠ []) (c : Str) (ts : List Str) (hl : Lines c ts) (hf : E.file f = some c) :
    countCommand X E s name (opts ++ [bs "--input=" ++ f]) = oneAfterAnother (ts.map (fun t => countCommand X E s name (opts ++ [bs "--", t]))) := by
  have h1 : parse countOptions (opts ++ [bs "--input=" ++ f]) = (.rest [], w ++ [.string 14 f]) := by
    refine parse_append hp hd _ ⟨bs "input=" ++ f, rfl⟩ [] ?_
    rw [parse_iff good_count]
    refine Parses.option (w := [.string 14 f]) (w' := []) (args' := []) ?_ .none
    show Takes _ [spelled false (bs "input") ++ 61 :: f] _ _
    exact Takes.given (e := ⟨.string false, some (bs "input"), 14, none⟩) (by simp [countOptions, entries, entriesOf, stringOpt]) rfl (by intro h; cases h) (Or.inl rfl) (.string rfl (Or.inr hne))
  have h2 : ∀ t, parse countOptions (opts ++ [bs "--", t]) = (.rest [t], w ++ []) := by
    intro t
    refine parse_append hp hd _ (by decide +kernel) [t] ?_
    rw [parse_iff good_count]
    exact .stop
  have e1 : (w ++ [Write.string 14 f]).foldl Shared.write s = w.foldl Shared.write s := by rw [List.foldl_append]; rfl
  have e2 : optsOf (w ++ [Write.string 14 f]) = { optsOf w with input := some f } := by
    simp [optsOf, keywordVar, boolVar, stringVar, List.foldl_append]
  have hs : ∀ t, countCommand X E s name (opts ++ [bs "--", t]) =
      ended (printCount E (w.foldl Shared.write s).sexp (if (optsOf w).exclude then E.excludes else []) (optsOf w).output (optsOf w).lastmod t) := by
    intro t
    have := C58_words X E s name _ [t] w (by rw [h2, List.append_nil]) hg hb hi
    rw [this]
    simp
  have hm : (fun t => countCommand X E s name (opts ++ [bs "--", t])) = (fun t => ended (printCount E (w.foldl Shared.write s).sexp (if (optsOf w).exclude then E.excludes else []) (optsOf w).output (optsOf w).lastmod t)) := funext hs
  rw [hm, ← countLines_eq _ _ _ _ _ _ _ (lines_split hl)]
  unfold countCommand
  rw [h1]
  simp only
  rw [e1, goesOn hg, e2]
  simp only [hf, if_true]
  rfl

/-- **C58 (UUID).**  With the UUID of another database, nothing is counted: the status is 1. -/
theorem C58_uuid (args words : List Str) (w : List Write) (hp : parse countOptions args = (.rest words, w)) (hv : (w.foldl Shared.write s).version = false)
    (hh : (w.foldl Shared.write s).help = false) (u : Str) (hu : (w.foldl Shared.write s).uuid = some u) (hne : u ≠ E.uuid) : countCommand X E s name args = .exit 1 [] := by
  unfold countCommand
  rw [hp]
  simp only
  unfold processShared
  rw [hv, hh, hu]
  simp only [Bool.false_eq_true, if_false]
  rw [if_neg hne]

/-- Batches and words do not go together: the status is 1 and nothing is printed. -/
theorem C58_batch_words (args words : List Str) (w : List Write) (hp : parse countOptions args = (.rest words, w)) (hw : words ≠ [])
    (hg : GoesOn (w.foldl Shared.write s) E.uuid) (hb : (optsOf w).batch = true ∨ (optsOf w).input ≠ none) : countCommand X E s name args = .exit 1 [] := by
  unfold countCommand
  rw [hp]
  simp only
  rw [goesOn hg]
  simp only
  cases hi : (optsOf w).input with
  | some f =>
    simp only
    cases E.file f with
    | none => rfl
    | some i => simp [hw]
  | none =>
    have hb' : (optsOf w).batch = true := by
      rcases hb with h | h
      · exact h
      · exact absurd hi h
    simp [hb', hw]

/-- **Counterexample.**  If notmuch was built without s-expressions, `--query=sexp` destroys a query that was not made. -/
theorem C58_counterexample_no_sexp (hs : E.haveSexp = false) (ex : List Str) (out : Count.Output) (lastmod : Bool) (text : Str) :
    ended (printCount E true ex out lastmod text) = .crash := by
  unfold printCount
  rw [hs]
  rfl

/-- **Counterexample.**  In a batch, a line that begins with NUL makes the command read before the beginning of the line. -/
theorem C58_counterexample_nul (sexp : Bool) (ex : List Str) (out : Count.Output) (lastmod : Bool) (l : Str) (ls : List Str) :
    ended (countLines E sexp ex out lastmod ((0 :: l) :: ls)) = .crash := rfl

/-! ## An example -/

def cEnv : Env where
  haveSexp := true
  parse := fun _ t => if t = bs "*" ∨ t = [] then some (.leaf (fun _ => true)) else if t = bs "tag:spam" then some (.term (tagTerm (bs "spam"))) else none
  ord := fun _ l => l
  filenames := fun d => if d.id = 2 then [bs "a", bs "b"] else [bs "c"]
  db := qDb
  uuid := bs "u"
  revision := 12
  excludes := [bs "spam"]
  stdin := bs "*\ntag:spam\n"
  file := fun _ => none

def cSys : Sys := ⟨bs "0", [], fun _ => .missing⟩

theorem C58_example :
    countCommand cSys cEnv .init (bs "count") [bs "--batch", bs "--output=files"] = .exit 0 (bs "3\n1\n") ∧
    countCommand cSys cEnv .init (bs "count") [bs "--output=files", bs "--exclude=false", bs "--lastmod", bs "--", bs "*"] = .exit 0 (bs "4\tu\t12\n") ∧
    countCommand cSys cEnv .init (bs "count") [bs "*"] = .exit 0 (bs "2\n") ∧
    countCommand cSys cEnv .init (bs "count") [bs "--output=threads", bs "tag:spam"] = .exit 0 (bs "1\n") ∧
    countCommand cSys cEnv .init (bs "count") [bs "*", bs "*"] = .exit 1 [] ∧
    countCommand cSys { cEnv with stdin := bs "*\n* *\n*" } .init (bs "count") [bs "--batch"] = .exit 1 (bs "2\n") ∧
    countCommand cSys cEnv .init (bs "count") [bs "--uuid=v", bs "*"] = .exit 1 [] := by
  refine ⟨?_, ?_, ?_, ?_, ?_, ?_, ?_⟩ <;> decide +kernel

example : Lines cEnv.stdin [bs "*", bs "tag:spam"] := ⟨by decide +kernel, Or.inl (by decide +kernel)⟩

end Notmuch.Props
