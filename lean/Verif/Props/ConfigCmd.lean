import Verif.Proofs.ConfigChange
import Verif.Proofs.Utf8
import Verif.Props.Config

/-!
# C61: `notmuch config`

`conf W s arg file` (Spec/ConfigCmd.lean) is the configuration of a user whose files and databases are `s`: what is in the file, else what is in the
database, else the defaults; `s` is what a command finds, and the state that it leaves is what the next one finds.
-/

namespace Notmuch.Props

open Notmuch.ConfigCmd Notmuch.Config Notmuch.Cli Notmuch.Args
open Notmuch.StringMap (Pair Map Iter iterPair iterNext iterCreate cmppair)
open Notmuch.StringMapSpec (LexLe PairLe walk QSort)

variable {qs : List Pair → List Pair}

/-- There is a configuration file, and nothing is wrong with it. -/
structure Fine (W : ConfigCmd.World) (s : ConfigCmd.State) (arg : Option Str) (sh : Shared) (p : Str) (f : KeyFile) (file : List (Str × Str × Str)) : Prop where
  path : configPath W s arg = some p
  there : s.files p = some f
  loads : Loads W s arg file
  dbs : GoodDbs s
  plain : sh.version = false ∧ sh.help = false

private theorem theFile_eq {W : ConfigCmd.World} {s : ConfigCmd.State} {arg : Option Str} {p : Str} {f : KeyFile} (hp : configPath W s arg = some p) (hf : s.files p = some f) : theFile W s arg = f := by
  unfold theFile
  rw [hp]
  show (s.files p).getD [] = f
  rw [hf]
  rfl

private theorem run_fine (hq : QSort cmppair qs) {W : ConfigCmd.World} {s : ConfigCmd.State} {arg : Option Str} {sh : Shared} {p : Str} {f : KeyFile} {file : List (Str × Str × Str)}
    (h : Fine W s arg sh p f file) : ∃ m, Rep m (conf W s arg file) ∧ ∀ c rest, ¬(bs "--" <+: c) → notmuchConfig qs W s arg sh (c :: rest) =
      if c = bs "get" then
        match rest with
        | [item] => (s, getCommand qs W m item)
        | _ => (s, .exit 1 [])
      else if c = bs "set" then setCommand W s (some p) (xapianAt W (place W f)) rest
      else if c = bs "list" then (s, listCommand qs W m)
      else (s, .exit 1 []) := by
  obtain ⟨m, e, hr⟩ := load_spec hq W s arg h.dbs file h.loads
  refine ⟨m, hr, ?_⟩
  intro c rest hc
  unfold notmuchConfig
  rw [e, h.path]
  simp only [Option.isSome_some, Option.bind_some, h.there, Option.isNone_some, Bool.and_false, Bool.false_eq_true, if_false]
  rw [theFile_eq h.path h.there]
  have : ∀ x, configCommand qs W s sh (some p) m x (c :: rest) =
      if c = bs "get" then
        match rest with
        | [item] => (s, getCommand qs W m item)
        | _ => (s, .exit 1 [])
      else if c = bs "set" then setCommand W s (some p) x rest
      else if c = bs "list" then (s, listCommand qs W m)
      else (s, .exit 1 []) := by
    intro x
    unfold configCommand
    rw [minimal_command W sh h.plain c rest hc]
    rfl
  cases (xapianAt W (place W f)).isSome <;> exact this _

private theorem get_eq (hq : QSort cmppair qs) (W : ConfigCmd.World) {m : Map} {c : Str → Option Str} (h : Rep m c) (item : Str) (hb : ¬(bs "built_with." <+: item)) :
    getCommand qs W m item = .exit 0 (match c item with | none => [] | some v => eachLine (items v)) := by
  obtain ⟨m', e, _⟩ := rep_get hq h item
  unfold getCommand
  rw [if_neg (by simpa using hb), e]
  cases c item with
  | none => rfl
  | some v =>
    show End.exit 0 (putsAll (values v)) = _
    rw [values_eq]
    rfl

/-- `config get` prints the items of the value that the key has, each on a line; nothing if it has none. -/
theorem C61_get (hq : QSort cmppair qs) {W : ConfigCmd.World} {s : ConfigCmd.State} {arg : Option Str} {sh : Shared} {p : Str} {f : KeyFile} {file : List (Str × Str × Str)}
    (h : Fine W s arg sh p f file) (item : Str) (hb : ¬(bs "built_with." <+: item)) :
    notmuchConfig qs W s arg sh [bs "get", item] = (s, .exit 0 (match conf W s arg file item with | none => [] | some v => eachLine (items v))) := by
  obtain ⟨m, hr, e⟩ := run_fine hq h
  rw [e _ _ (by decide +kernel), if_pos rfl]
  show (s, getCommand qs W m item) = _
  rw [get_eq hq W hr item hb]

/-- `config get built_with.` tells whether the library was built with something; and `config get` takes one key. -/
theorem C61_get_other (hq : QSort cmppair qs) {W : ConfigCmd.World} {s : ConfigCmd.State} {arg : Option Str} {sh : Shared} {p : Str} {f : KeyFile} {file : List (Str × Str × Str)}
    (h : Fine W s arg sh p f file) :
    (∀ name, notmuchConfig qs W s arg sh [bs "get", bs "built_with." ++ name] = (s, .exit 0 (if W.builtWith name then bs "true\n" else bs "false\n"))) ∧
    (∀ rest, rest.length ≠ 1 → notmuchConfig qs W s arg sh (bs "get" :: rest) = (s, .exit 1 [])) ∧
    (∀ c rest, ¬(bs "--" <+: c) → c ∉ [bs "get", bs "set", bs "list"] → notmuchConfig qs W s arg sh (c :: rest) = (s, .exit 1 [])) := by
  obtain ⟨m, hr, e⟩ := run_fine hq h
  refine ⟨?_, ?_, ?_⟩
  · intro name
    rw [e _ _ (by decide +kernel), if_pos rfl]
    show (s, getCommand qs W m (bs "built_with." ++ name)) = _
    unfold getCommand
    rw [if_pos (by simp)]
    rfl
  · intro rest hr
    rw [e _ _ (by decide +kernel), if_pos rfl]
    match rest, hr with
    | [], _ => rfl
    | _ :: _ :: _, _ => rfl
  · intro c rest hc hn
    simp only [List.mem_cons, List.not_mem_nil, or_false, not_or] at hn
    rw [e _ _ hc, if_neg hn.1, if_neg hn.2.1, if_neg hn.2.2]

private theorem set_args (W : ConfigCmd.World) (s : ConfigCmd.State) (path x : Option Str) (item : Str) (vs : List Str) (hi : ¬(bs "--" <+: item)) (hb : ¬(bs "built_with." <+: item))
    (hv : validItem W item = true) : setCommand W s path x (item :: vs) = setFileCommand W s path item vs := by
  unfold setCommand
  rw [parse_command configOptions item vs hi rfl]
  simp only
  rw [if_neg (by simpa using hb), hv]
  rfl

private theorem set_db_args (W : ConfigCmd.World) (s : ConfigCmd.State) (path x : Option Str) (item : Str) (vs : List Str) (hi : ¬(bs "--" <+: item)) (hb : ¬(bs "built_with." <+: item))
    (hv : validItem W item = true) : setCommand W s path x (bs "--database" :: item :: vs) = setDbCommand W s x item vs := by
  obtain ⟨w, e, hw⟩ := parse_database item vs hi
  unfold setCommand
  rw [e]
  simp only
  rw [if_neg (by simpa using hb), hv, hw]
  rfl

/-- Files after `config set`. -/
private theorem files_isSome {s : ConfigCmd.State} {p : Str} {f f' : KeyFile} (hf : s.files p = some f) :
    (fun q => ((if q = p then some f' else s.files q) : Option KeyFile).isSome) = fun q => (s.files q).isSome := by
  funext q
  by_cases hq : q = p
  · rw [if_pos hq, hq, hf]; rfl
  · rw [if_neg hq]

private theorem place_congr {W : ConfigCmd.World} {f f' : KeyFile} (h : lookup (bs "database") (bs "path") f' = lookup (bs "database") (bs "path") f) : place W f' = place W f := by
  unfold place
  rw [h]

private theorem found_congr {e : Env} {file file' : List (Str × Str × Str)} {b b' : Str → Option Str} {K : Str} (h : fileValue file' K = fileValue file K) (hb : b' K = b K) :
    found e file' b' K = found e file b K := by
  unfold found
  rw [h, hb]

/-- `config set` in the file: from then on the key has the value that was given (several are a list), and the other keys have what they had; nothing else is
changed.  Without a value, the key has what it has without the file. -/
theorem C61_set (hq : QSort cmppair qs) {W : ConfigCmd.World} {s : ConfigCmd.State} {arg : Option Str} {sh : Shared} {p : Str} {f : KeyFile} {file : List (Str × Str × Str)}
    (h : Fine W s arg sh p f file) (hf : GoodFile f) (hd : ∀ x ∈ f, 46 ∉ x.1) {g k : Str} (hg : Name g) (hg' : 46 ∉ g) (hk : Name k) {item : Str} (hi : item = g ++ bs "." ++ k)
    (ho : ¬(bs "--" <+: item)) (hb : ¬(bs "built_with." <+: item)) (hv : validItem W item = true) (hpath : item ≠ bs "database.path") (vs : List Str)
    (hroot : vs = [] → item ≠ bs "database.mail_root") (hu : ∀ v ∈ vs, utf8 v = true) (hff : ∀ v, vs.head? = some v → v.head? ≠ some 12) (hsave : W.save p = true) :
    ∃ s' f' file', notmuchConfig qs W s arg sh (bs "set" :: item :: vs) = (s', .exit 0 []) ∧ Fine W s' arg sh p f' file' ∧ GoodFile f' ∧ (∀ x ∈ f', 46 ∉ x.1) ∧
      s'.dbs = s.dbs ∧ (∀ q, q ≠ p → s'.files q = s.files q) ∧
      (vs ≠ [] → conf W s' arg file' item = some (expandPath W.env item (stored vs))) ∧
      (vs = [] → conf W s' arg file' item = conf W s arg (file.filter (fun x => x.1 ++ bs "." ++ x.2.1 ≠ item)) item) ∧
      ∀ K, K ≠ item → conf W s' arg file' K = conf W s arg file K := by
  subst hi
  obtain ⟨m, hr, e⟩ := run_fine hq h
  have ht := theFile_eq h.path h.there
  obtain ⟨l1, l2, l3⟩ := h.loads
  rw [ht] at l1 l2 l3
  obtain ⟨file', d1, d2, d3⟩ := file_change hf hd hg hg' hk hu hff l1
  have hne : ¬(bs "database" = g ∧ bs "path" = k) := by
    rintro ⟨rfl, rfl⟩
    exact hpath (by decide +kernel)
  have hpl : place W (change g k f vs) = place W f := place_congr (d3 _ _ hne)
  have hsplit : itemSplit (g ++ bs "." ++ k) = some (g, k) := itemSplit_iff.2 ⟨rfl, hg', hk.1⟩
  let s' : ConfigCmd.State := { s with files := fun q => if q = p then some (change g k f vs) else s.files q }
  have hrun : setFileCommand W s (some p) (g ++ bs "." ++ k) vs = (s', .exit 0 []) := by
    unfold setFileCommand
    rw [hsplit]
    show (match s.files p with | none => (s, End.exit 1 []) | some f => if !W.save p then (s, .exit 1 []) else _) = _
    rw [h.there, hsave]
    rfl
  have hpath' : configPath W s' arg = some p := by
    rw [← h.path]
    unfold configPath
    exact congrArg (configFile W.env arg none) (files_isSome h.there)
  have hthere' : s'.files p = some (change g k f vs) := if_pos rfl
  have ht' := theFile_eq hpath' hthere'
  have n1 : bs "database.mail_root" ≠ bs "database.path" := by decide +kernel
  have hbase : base W s' (place W f) = base W s (place W f) := rfl
  refine ⟨s', change g k f vs, file', ?_, ⟨hpath', hthere', ⟨?_, ?_, ?_⟩, h.dbs, h.plain⟩, (good_change g k vs hf hg' hd).1, (good_change g k vs hf hg' hd).2, rfl, fun q hq => if_neg hq, ?_, ?_, ?_⟩
  · rw [e _ _ (by decide +kernel), if_neg (by decide +kernel), if_pos rfl, set_args W s _ _ _ vs ho hb hv, hrun]
  · rw [ht']; exact d1
  · rw [ht', hpl]; exact l2
  · rw [ht', hpl]
    intro h1 h2
    rw [d2]
    split
    · rename_i hm
      rw [if_neg (fun hvs => hroot hvs hm.symm)]
      rfl
    · exact l3 h1 h2
  · intro hvs
    unfold conf valueOf found
    rw [d2, if_pos rfl, if_neg hvs]
    rfl
  · intro hvs
    unfold conf
    rw [ht, ht', hpl, hbase]
    have e1 : fileValue file' (g ++ bs "." ++ k) = fileValue (file.filter (fun x => x.1 ++ bs "." ++ x.2.1 ≠ g ++ bs "." ++ k)) (g ++ bs "." ++ k) := by
      rw [d2, if_pos rfl, if_pos hvs]
      unfold fileValue
      rw [List.filter_filter]
      have : (file.filter (fun x => decide (x.1 ++ bs "." ++ x.2.1 = g ++ bs "." ++ k) && decide (x.1 ++ bs "." ++ x.2.1 ≠ g ++ bs "." ++ k))) = [] := by
        rw [List.filter_eq_nil_iff]
        intro x _
        simp
      rw [this]
      rfl
    unfold valueOf
    rw [found_congr (b := base W s (place W f)) e1 rfl]
    rw [if_neg (hroot hvs), if_neg (hroot hvs)]
  · intro K hK
    unfold conf
    rw [ht, ht', hpl, hbase]
    have e1 : fileValue file' K = fileValue file K := by rw [d2, if_neg hK]
    have e2 : fileValue file' (bs "database.path") = fileValue file (bs "database.path") := by rw [d2, if_neg (Ne.symm hpath)]
    unfold valueOf
    rw [found_congr (b := base W s (place W f)) e1 rfl, found_congr (b := base W s (place W f)) e2 rfl]

theorem segments_plain : ∀ (a r : Str) (esc : Bool), 59 ∉ a → a.getLast? ≠ some 92 → (a = [] → esc = false) → segments esc (a ++ 59 :: r) = a :: segments false r
  | [], r, esc, _, _, he => by
    rw [he rfl]
    show segments false (59 :: r) = _
    rw [segments, if_pos ⟨rfl, rfl⟩]
  | c :: a, r, esc, h1, h2, _ => by
    rw [List.cons_append, segments, if_neg (fun (h : c = 59 ∧ esc = false) => h1 (h.1 ▸ List.mem_cons_self)),
      segments_plain a r (c == 92) (fun h => h1 (List.mem_cons_of_mem _ h))
        (fun h => h2 (by
          cases a with
          | nil => cases h
          | cons d a => rw [List.getLast?_cons_cons]; exact h))
        (fun ha => by
          subst ha
          rw [beq_eq_false_iff_ne]
          intro h
          exact h2 (by rw [h]; rfl))]

theorem segments_last : ∀ (a : Str) (esc : Bool), 59 ∉ a → segments esc a = [a]
  | [], _, _ => rfl
  | c :: a, esc, h1 => by
    rw [segments, if_neg (fun (h : c = 59 ∧ esc = false) => h1 (h.1 ▸ List.mem_cons_self)), segments_last a _ (fun h => h1 (List.mem_cons_of_mem _ h))]

theorem trim_plain {a : Str} (h : Plain a) : trim a = a := by
  obtain ⟨_, _, _, h4, h5⟩ := h
  have key : ∀ l : Str, (∀ c, l.head? = some c → isSpace c = false) → l.dropWhile isSpace = l := by
    intro l hl
    cases l with
    | nil => rfl
    | cons c l => rw [List.dropWhile_cons_of_neg (by simp [hl c rfl])]
  unfold trim
  rw [key _ h4, key, List.reverse_reverse]
  intro c hc
  rw [List.head?_reverse] at hc
  exact h5 c hc

theorem items_stored (vs : List Str) (h : ∀ v ∈ vs, Plain v) : items (stored vs) = vs := by
  have hb : bs ";" = [59] := by decide +kernel
  have esc : ∀ v : Str, 59 ∉ v → v.flatMap (fun c => if c = 59 then bs "\\;" else [c]) = v := by
    intro v hv
    induction v with
    | nil => rfl
    | cons c v ih =>
      rw [List.flatMap_cons, if_neg (fun hc => hv (by simp [hc])), ih (fun hm => hv (by simp [hm]))]
      rfl
  have key : ∀ ws : List Str, (∀ v ∈ ws, Plain v) → items (ws.flatMap (fun v => v.flatMap (fun c => if c = 59 then bs "\\;" else [c]) ++ bs ";")) = ws := by
    intro ws hw
    induction ws with
    | nil => decide +kernel
    | cons a ws ih =>
      have ha := hw a (by simp)
      have ih := ih (fun v hv => hw v (by simp [hv]))
      rw [List.flatMap_cons, esc a ha.2.1, hb, List.append_assoc]
      unfold items at ih ⊢
      show List.filter _ (List.map trim (segments false (a ++ 59 :: _))) = _
      rw [segments_plain a _ false ha.2.1 ha.2.2.1 (fun _ => rfl), List.map_cons, trim_plain ha, List.filter_cons, if_pos (by simpa using ha.1)]
      rw [hb] at ih
      exact congrArg (a :: ·) ih
  match vs, h with
  | [], _ => decide +kernel
  | [v], h =>
    have hv := h v (by simp)
    unfold stored items
    rw [segments_last v false hv.2.1, List.map_cons, trim_plain hv, List.map_nil, List.filter_cons, if_pos (by simpa using hv.1)]
    rfl
  | v :: w :: vs, h => exact key _ h

theorem expand_other {e : Env} {k v : Str} (h : k ≠ bs "database.path" ∧ k ≠ bs "database.mail_root" ∧ k ≠ bs "database.hook_dir" ∧ k ≠ bs "database.backup_path") : expandPath e k v = v := by
  unfold expandPath
  rw [if_neg]
  rintro ⟨h1 | h1 | h1 | h1, _⟩
  · exact h.1 h1
  · exact h.2.1 h1
  · exact h.2.2.1 h1
  · exact h.2.2.2 h1

/-- What a user sets with `config set` is what `config get` prints, each value on a line: for values that are not empty and do not begin or end with white
space, and have no `;` nor a backslash at the end. -/
theorem C61_set_get (hq : QSort cmppair qs) {W : ConfigCmd.World} {s : ConfigCmd.State} {arg : Option Str} {sh : Shared} {p : Str} {f : KeyFile} {file : List (Str × Str × Str)}
    (h : Fine W s arg sh p f file) (hf : GoodFile f) (hd : ∀ x ∈ f, 46 ∉ x.1) {g k : Str} (hg : Name g) (hg' : 46 ∉ g) (hk : Name k) {item : Str} (hi : item = g ++ bs "." ++ k)
    (ho : ¬(bs "--" <+: item)) (hb : ¬(bs "built_with." <+: item)) (hv : validItem W item = true)
    (hpath : item ≠ bs "database.path" ∧ item ≠ bs "database.mail_root" ∧ item ≠ bs "database.hook_dir" ∧ item ≠ bs "database.backup_path") (vs : List Str)
    (hne : vs ≠ []) (hu : ∀ v ∈ vs, utf8 v = true ∧ Plain v) (hsave : W.save p = true) :
    ∃ s', notmuchConfig qs W s arg sh (bs "set" :: item :: vs) = (s', .exit 0 []) ∧ notmuchConfig qs W s' arg sh [bs "get", item] = (s', .exit 0 (eachLine vs)) := by
  obtain ⟨s', f', file', e, h', _, _, _, _, hc, _, _⟩ := C61_set hq h hf hd hg hg' hk hi ho hb hv hpath.1 vs (fun h => absurd h hne) (fun v hv => (hu v hv).1)
    (by
      intro v hv hv12
      have := (hu v (List.mem_of_mem_head? hv)).2.2.2.2.1 12 hv12
      exact absurd this (by decide +kernel)) hsave
  refine ⟨s', e, ?_⟩
  rw [C61_get hq h' item hb, hc hne, expand_other hpath]
  simp only
  rw [items_stored vs (fun v hv => (hu v hv).2)]

/-- One line of `config list`. -/
def listLine (x : Pair) : Str := x.1 ++ bs "=" ++ x.2 ++ bs "\n"

private theorem listLoop_walk (m : Map) : ∀ (n : Nat) (it : Iter), listLoop m n it = (walk m n it).flatMap listLine
  | 0, _ => rfl
  | n + 1, it => by
    unfold listLoop walk
    cases iterPair m it with
    | none => rfl
    | some x =>
      show x.1 ++ bs "=" ++ x.2 ++ bs "\n" ++ listLoop m n (iterNext m it) = List.flatMap _ (x :: walk m n (iterNext m it))
      rw [List.flatMap_cons, listLoop_walk m n]
      rfl

private theorem list_all (hq : QSort cmppair qs) {m : Map} (hm : StringMap.Inv m) :
    ∃ m' it, iterCreate qs m [] false = some (m', it) ∧ m'.pairs.Perm m.pairs ∧ m'.pairs.Pairwise (fun p q => LexLe p.1 q.1) ∧ walk m' (m'.pairs.length + 1) it = m'.pairs := by
  obtain ⟨h1, h2, h3⟩ := StringMap.sort_spec hq hm
  obtain ⟨c, hc, hn, hs⟩ := StringMap.bsearchFirst_spec h1 [] false
  have hall : ∀ k : Str, StringMapSpec.Matches [] false k := fun k => by simp [StringMapSpec.Matches]
  refine ⟨StringMap.sort qs m, ⟨c, false, []⟩, by simp [iterCreate, hc], h2, h1, ?_⟩
  have hf : (StringMap.sort qs m).pairs.filter (fun p => StringMap.stringCmp [] p.1 false = .eq) = (StringMap.sort qs m).pairs := by
    rw [List.filter_eq_self]
    intro p _
    simpa using (StringMap.stringCmp_eq [] p.1 false).2 (hall p.1)
  cases c with
  | none =>
    have : (StringMap.sort qs m).pairs = [] := by
      cases hl : (StringMap.sort qs m).pairs with
      | nil => rfl
      | cons x l => exact absurd (hall x.1) (hn rfl x (by rw [hl]; simp))
    rw [this]
    simp [walk, iterPair, StringMap.iterValid]
  | some i =>
    obtain ⟨p, hp, hmt, hb⟩ := hs i rfl
    rw [StringMap.walk_eq _ _ _ _ i (by omega), ← StringMap.filter_from_first h1 [] false i hb, hf]
    intro p' _
    exact (StringMap.stringCmp_eq _ _ _).2 (hall _)

/-- `config list` prints what the library was built with, and then each key that has a value once, in order, with its value. -/
theorem C61_list (hq : QSort cmppair qs) {W : ConfigCmd.World} {s : ConfigCmd.State} {arg : Option Str} {sh : Shared} {p : Str} {f : KeyFile} {file : List (Str × Str × Str)}
    (h : Fine W s arg sh p f file) (rest : List Str) :
    ∃ l : List Pair, notmuchConfig qs W s arg sh (bs "list" :: rest) =
        (s, .exit 0 ([bs "compact", bs "field_processor", bs "retry_lock", bs "sexp_queries"].flatMap
          (fun n => bs "built_with." ++ n ++ (if W.builtWith n then bs "=true\n" else bs "=false\n")) ++ l.flatMap (fun x => x.1 ++ bs "=" ++ x.2 ++ bs "\n"))) ∧
      l.Pairwise (fun x y => x.1 ≠ y.1 ∧ LexLe x.1 y.1) ∧ ∀ k v, (k, v) ∈ l ↔ conf W s arg file k = some v := by
  obtain ⟨m, hr, e⟩ := run_fine hq h
  obtain ⟨m', it, e1, e2, e3, e4⟩ := list_all hq hr.1
  refine ⟨m'.pairs, ?_, ?_, ?_⟩
  · rw [e _ _ (by decide +kernel), if_neg (by decide +kernel), if_neg (by decide +kernel), if_pos rfl]
    unfold listCommand
    rw [e1]
    simp only
    rw [listLoop_walk, e4]
    congr 4
    funext n
    unfold builtWithLine
    have a1 : bs "=true\n" = bs "=" ++ bs "true" ++ bs "\n" := by decide +kernel
    have a2 : bs "=false\n" = bs "=" ++ bs "false" ++ bs "\n" := by decide +kernel
    cases W.builtWith n
    · rw [if_neg (by decide), if_neg (by decide), a2]; simp
    · rw [if_pos rfl, if_pos rfl, a1]; simp
  · have hn : (m'.pairs.map (·.1)).Nodup := (e2.map _).nodup_iff.2 hr.2.1
    have hn : m'.pairs.Pairwise (fun x y => x.1 ≠ y.1) := by
      unfold List.Nodup at hn
      rw [List.pairwise_map] at hn
      exact hn
    exact List.Pairwise.and hn e3
  · intro k v
    rw [e2.mem_iff, hr.2.2 k v]

private theorem base_db {W : ConfigCmd.World} {s s' : ConfigCmd.State} {pl : Status × Option Str × Bool} {x : Str} (hx : xapianAt W pl = some x) (K : Str)
    (h : dbValue (s'.dbs x) K = dbValue (s.dbs x) K) : base W s' pl K = base W s pl K := by
  unfold base
  rw [hx]
  obtain ⟨a, b, c⟩ := pl
  cases b with
  | none => rfl
  | some b =>
    simp only
    rw [h]

private theorem xapianAt_some {W : ConfigCmd.World} {pl : Status × Option Str × Bool} {x : Str} (h : xapianAt W pl = some x) : ∃ p c, pl = (.success, some p, c) := by
  unfold xapianAt at h
  split at h
  · exact ⟨_, _, rfl⟩
  · cases h

/-- `config set --database`: from then on the database has the value, and it is the value of the key if the file has none; an empty value, or none, removes it.
Other keys have what they had, in this and in every other database, and no file is changed. -/
theorem C61_database (hq : QSort cmppair qs) {W : ConfigCmd.World} {s : ConfigCmd.State} {arg : Option Str} {sh : Shared} {p : Str} {f : KeyFile} {file : List (Str × Str × Str)}
    (h : Fine W s arg sh p f file) {x : Str} (hx : xapianAt W (place W f) = some x) (item : Str) (ho : ¬(bs "--" <+: item)) (hb : ¬(bs "built_with." <+: item))
    (hv : validItem W item = true) (hpath : item ≠ bs "database.path") (v : Option Str) (hc : W.reopen = true ∧ W.setMetadata item (v.getD []) = true ∧ W.close = true) :
    ∃ s', notmuchConfig qs W s arg sh (bs "set" :: bs "--database" :: item :: v.toList) = (s', .exit 0 []) ∧ Fine W s' arg sh p f file ∧
      s'.files = s.files ∧ (∀ y, y ≠ x → s'.dbs y = s.dbs y) ∧
      (∀ K, dbValue (s'.dbs x) K = if K = item then (if v.getD [] = [] then none else v) else dbValue (s.dbs x) K) ∧
      (fileValue file item = none → v.getD [] ≠ [] → conf W s' arg file item = v.map (expandPath W.env item)) ∧
      ((fileValue file item).isSome → conf W s' arg file item = conf W s arg file item) ∧
      ∀ K, K ≠ item → conf W s' arg file K = conf W s arg file K := by
  obtain ⟨m, hr, e⟩ := run_fine hq h
  have ht := theFile_eq h.path h.there
  have hhead : v.toList.head? = v := by cases v <;> rfl
  have hlen : ¬(1 < v.toList.length) := by cases v <;> simp
  let s' : ConfigCmd.State := { s with dbs := fun y => if y = x then setMeta (s.dbs x) item (v.getD []) else s.dbs y }
  have hdbx : s'.dbs x = setMeta (s.dbs x) item (v.getD []) := if_pos rfl
  have hval : ∀ K, dbValue (s'.dbs x) K = if K = item then (if v.getD [] = [] then none else v) else dbValue (s.dbs x) K := by
    intro K
    rw [hdbx, dbValue_setMeta']
    cases v with
    | none => rfl
    | some v => rfl
  have hrun : setDbCommand W s (some x) item v.toList = (s', .exit 0 []) := by
    unfold setDbCommand
    rw [if_neg hlen, hhead, hc.1, hc.2.1, hc.2.2]
    rfl
  have hother : ∀ K, K ≠ item → base W s' (place W f) K = base W s (place W f) K := by
    intro K hK
    apply base_db hx
    rw [hval, if_neg hK]
  have hfile : theFile W s' arg = f := ht
  refine ⟨s', ?_, ⟨h.path, h.there, h.loads, ?_, h.plain⟩, rfl, fun y hy => if_neg hy, hval, ?_, ?_, ?_⟩
  · rw [e _ _ (by decide +kernel), if_neg (by decide +kernel), if_pos rfl, hx, set_db_args W s _ _ _ _ ho hb hv, hrun]
  · intro y
    by_cases hy : y = x
    · subst hy
      rw [hdbx]
      exact ⟨setMeta_nodup' _ _ (h.dbs y).1, setMeta_not_mem (Ne.symm hpath) (h.dbs y).2⟩
    · have : s'.dbs y = s.dbs y := if_neg hy
      rw [this]
      exact h.dbs y
  · intro hf hne
    obtain ⟨pp, c, hpl⟩ := xapianAt_some hx
    have hb' : base W s' (place W f) item = v.map (expandPath W.env item) := by
      unfold base
      rw [hx, hpl]
      simp only
      rw [hval, if_pos rfl, if_neg hne]
      cases v with
      | none => exact absurd rfl hne
      | some v => rfl
    unfold conf valueOf found
    rw [hfile, hf, hb']
    cases v with
    | none => exact absurd rfl hne
    | some v => rfl
  · intro hf
    unfold conf valueOf found
    obtain ⟨w, hw⟩ := Option.isSome_iff_exists.1 hf
    rw [hw]
    rfl
  · intro K hK
    unfold conf
    rw [hfile, ht]
    unfold valueOf
    rw [found_congr (b := base W s (place W f)) rfl (hother K hK), found_congr (b := base W s (place W f)) rfl (hother _ (Ne.symm hpath))]

/-- If `notmuch config` does not succeed, it has changed nothing. -/
theorem C61_status (qs : List Pair → List Pair) (W : ConfigCmd.World) (s : ConfigCmd.State) (arg : Option Str) (sh : Shared) (args : List Str)
    (h : ∀ out, (notmuchConfig qs W s arg sh args).2 ≠ .exit 0 out) : (notmuchConfig qs W s arg sh args).1 = s := by
  have hfile : ∀ path item vs, (setFileCommand W s path item vs).1 = s ∨ ∃ out, (setFileCommand W s path item vs).2 = .exit 0 out := by
    intro path item vs
    unfold setFileCommand
    split
    · exact Or.inl rfl
    · split
      · exact Or.inl rfl
      · split
        · exact Or.inl rfl
        · exact Or.inr ⟨_, rfl⟩
  have hdb : ∀ x item vs, (setDbCommand W s x item vs).1 = s ∨ ∃ out, (setDbCommand W s x item vs).2 = .exit 0 out := by
    intro x item vs
    unfold setDbCommand
    split
    · exact Or.inl rfl
    · split
      · exact Or.inl rfl
      · split
        · exact Or.inl rfl
        · exact Or.inr ⟨_, rfl⟩
  have hset : ∀ path x args, (setCommand W s path x args).1 = s ∨ ∃ out, (setCommand W s path x args).2 = .exit 0 out := by
    intro path x args
    unfold setCommand
    split
    · exact Or.inl rfl
    · exact Or.inl rfl
    · exact Or.inl rfl
    · split
      · exact Or.inl rfl
      · split
        · exact Or.inl rfl
        · split
          · exact hdb _ _ _
          · exact hfile _ _ _
  have hcmd : ∀ path m x, (configCommand qs W s sh path m x args).1 = s ∨ ∃ out, (configCommand qs W s sh path m x args).2 = .exit 0 out := by
    intro path m x
    unfold configCommand
    split
    · exact Or.inl rfl
    · exact Or.inl rfl
    · split
      · split
        · exact Or.inl rfl
        · exact Or.inl rfl
      · split
        · exact hset _ _ _
        · split
          · exact Or.inl rfl
          · exact Or.inl rfl
  have : (notmuchConfig qs W s arg sh args).1 = s ∨ ∃ out, (notmuchConfig qs W s arg sh args).2 = .exit 0 out := by
    unfold notmuchConfig
    split
    · exact Or.inl rfl
    · exact Or.inl rfl
    · exact Or.inl rfl
    · exact hcmd _ _ _
  rcases this with h1 | ⟨out, h1⟩
  · exact h1
  · exact absurd h1 (h out)

/-- If something is wrong with the configuration, no `notmuch config` does anything, whatever its arguments; if the file that is to be read is not there, neither,
but this is no failure. -/
theorem C61_fails (hq : QSort cmppair qs) (W : ConfigCmd.World) (s : ConfigCmd.State) (arg : Option Str) (sh : Shared) (args : List Str) (hdb : GoodDbs s) :
    ((¬∃ file, Loads W s arg file) → notmuchConfig qs W s arg sh args = (s, .exit 1 [])) ∧
    ((∃ file, Loads W s arg file) → (∃ p, configPath W s arg = some p ∧ s.files p = none) → notmuchConfig qs W s arg sh args = (s, .exit 0 [])) := by
  constructor
  · intro h
    obtain ⟨m, x, e⟩ := load_fails hq W s arg hdb h
    unfold notmuchConfig
    rw [e]
  · rintro ⟨file, h⟩ ⟨p, hp, hn⟩
    obtain ⟨m, e, _⟩ := load_spec hq W s arg hdb file h
    unfold notmuchConfig
    rw [e, hp]
    simp only [Option.isSome_some, Option.bind_some, hn, Option.isNone_none, Bool.and_self, if_true]

private theorem afterLastDot_eq (a b : Str) (h : 46 ∉ b) : afterLastDot (a ++ bs "." ++ b) = b := by
  have e : bs "." = [46] := by decide +kernel
  have key : ∀ (l r : Str), 46 ∉ l → (l ++ 46 :: r).takeWhile (· ≠ 46) = l := by
    intro l r hl
    induction l with
    | nil => simp
    | cons c l ih =>
      have hc : c ≠ 46 := fun h => hl (by simp [h])
      rw [List.cons_append, List.takeWhile_cons, if_pos (by simpa using hc), ih (fun h => hl (by simp [h]))]
  unfold afterLastDot
  rw [e, List.reverse_append, List.reverse_append]
  show ((b.reverse ++ 46 :: a.reverse).takeWhile (· ≠ 46)).reverse = b
  rw [key _ _ (by simpa using h), List.reverse_reverse]

/-- What `config set` does not accept: what the library was built with; a key that has no dot, or nothing after it; a header to be indexed or a query for
s-expressions whose name is empty, not a word or begins with a small letter; several values for the database, or a database that is not there; and a file that
cannot be written. -/
theorem C61_rejects (hq : QSort cmppair qs) {W : ConfigCmd.World} {s : ConfigCmd.State} {arg : Option Str} {sh : Shared} {p : Str} {f : KeyFile} {file : List (Str × Str × Str)}
    (h : Fine W s arg sh p f file) (item : Str) (ho : ¬(bs "--" <+: item)) (vs : List Str) :
    (bs "built_with." <+: item → notmuchConfig qs W s arg sh (bs "set" :: item :: vs) = (s, .exit 1 []) ∧ notmuchConfig qs W s arg sh (bs "set" :: bs "--database" :: item :: vs) = (s, .exit 1 [])) ∧
    (46 ∉ item ∨ (∃ g, item = g ++ bs "." ∧ 46 ∉ g) → notmuchConfig qs W s arg sh (bs "set" :: item :: vs) = (s, .exit 1 [])) ∧
    (∀ a b, item = a ++ bs "." ++ b → 46 ∉ b → bs "index.header." <+: item ∨ bs "squery." <+: item → b = [] ∨ W.word b = false ∨ (∃ c, b.head? = some c ∧ 97 ≤ c ∧ c ≤ 122) →
      notmuchConfig qs W s arg sh (bs "set" :: item :: vs) = (s, .exit 1 []) ∧ notmuchConfig qs W s arg sh (bs "set" :: bs "--database" :: item :: vs) = (s, .exit 1 [])) ∧
    (1 < vs.length ∨ xapianAt W (place W f) = none ∨ W.reopen = false ∨ W.setMetadata item (vs.head?.getD []) = false ∨ W.close = false →
      notmuchConfig qs W s arg sh (bs "set" :: bs "--database" :: item :: vs) = (s, .exit 1 [])) ∧
    (W.save p = false → notmuchConfig qs W s arg sh (bs "set" :: item :: vs) = (s, .exit 1 [])) := by
  obtain ⟨m, hr, e⟩ := run_fine hq h
  have hrun : ∀ rest, notmuchConfig qs W s arg sh (bs "set" :: rest) = setCommand W s (some p) (xapianAt W (place W f)) rest := by
    intro rest
    rw [e _ _ (by decide +kernel), if_neg (by decide +kernel), if_pos rfl]
  obtain ⟨w, ew, hw⟩ := parse_database item vs ho
  have e1 : notmuchConfig qs W s arg sh (bs "set" :: item :: vs) =
      if (bs "built_with.").isPrefixOf item then (s, .exit 1 []) else if !validItem W item then (s, .exit 1 []) else setFileCommand W s (some p) item vs := by
    rw [hrun]
    unfold setCommand
    rw [parse_command configOptions item vs ho rfl]
    rfl
  have e2 : notmuchConfig qs W s arg sh (bs "set" :: bs "--database" :: item :: vs) =
      if (bs "built_with.").isPrefixOf item then (s, .exit 1 []) else if !validItem W item then (s, .exit 1 []) else setDbCommand W s (xapianAt W (place W f)) item vs := by
    rw [hrun]
    unfold setCommand
    rw [ew]
    simp only
    rw [hw]
    rfl
  have bad : ∀ (c1 c2 : Bool) (r : ConfigCmd.State × End), r = (s, .exit 1 []) → (if c1 then (s, End.exit 1 []) else if c2 then (s, .exit 1 []) else r) = (s, .exit 1 []) := by
    intro c1 c2 r hr
    cases c1 <;> cases c2 <;> first | rfl | exact hr
  refine ⟨?_, ?_, ?_, ?_, ?_⟩
  · intro hb
    rw [e1, e2, if_pos (by simpa using hb), if_pos (by simpa using hb)]
    exact ⟨rfl, rfl⟩
  · intro hd
    rw [e1]
    apply bad
    have : itemSplit item = none := by
      cases hs : itemSplit item with
      | none => rfl
      | some r =>
        exfalso
        obtain ⟨g, k⟩ := r
        obtain ⟨h1, h2, h3⟩ := itemSplit_iff.1 hs
        have ed : bs "." = [46] := by decide +kernel
        rcases hd with hd | ⟨g', hd, hg'⟩
        · exact hd (by rw [h1, ed]; simp)
        · have : g' ++ bs "." ++ [] = g ++ bs "." ++ k := by rw [← h1, hd]; simp
          exact h3 (abs_inj h2 hg' this).2.symm
    unfold setFileCommand
    rw [this]
  · intro a b hab hb hpre hbad
    have hv : validItem W item = false := by
      have hp : ((bs "index.header.").isPrefixOf item || (bs "squery.").isPrefixOf item) = true := by
        rcases hpre with h | h
        · rw [Bool.or_eq_true]; left; simpa using h
        · rw [Bool.or_eq_true]; right; simpa using h
      unfold validItem
      rw [if_pos hp]
      unfold validateFieldName
      rw [hab, afterLastDot_eq a b hb]
      rcases hbad with h | h | ⟨c, hc, h1, h2⟩
      · simp [h]
      · simp [h]
      · simp [hc, h1, h2]
    rw [e1, e2, hv]
    constructor <;> · split <;> rfl
  · intro hbad
    rw [e2]
    apply bad
    unfold setDbCommand
    split
    · rfl
    · rename_i hlen
      rcases hbad with h1 | h1 | h1 | h1 | h1
      · exact absurd h1 hlen
      · rw [h1]
      · cases xapianAt W (place W f) <;> simp [h1]
      · cases xapianAt W (place W f) <;> simp [h1]
      · cases xapianAt W (place W f) <;> simp [h1]
  · intro hs
    rw [e1]
    apply bad
    unfold setFileCommand
    split
    · rfl
    · show (match s.files p with | none => (s, End.exit 1 []) | some f => if !W.save p then (s, .exit 1 []) else _) = _
      rw [h.there, hs]
      rfl

/-! ## Examples, and what is not so -/

/-- A user with mail in `/m`, where there is a database. -/
def exConfig : ConfigCmd.World where
  env := ⟨bs "/h", fun _ => none⟩
  pwName := bs "Ann"
  pwUser := bs "ann"
  isDir := fun p => p = bs "/m"
  trial := fun p => if p = bs "/m/xapian" then .ok else .notThere
  isThere := fun _ => false
  sys := ⟨[], [], fun _ => .missing⟩
  word := fun s => s.all (fun c => c ≠ 32)
  builtWith := fun _ => true
  save := fun _ => true
  reopen := true
  setMetadata := fun _ _ => true
  close := true

/-- Its file is `/c`. -/
def exStored (f : KeyFile) : ConfigCmd.State := ⟨fun p => if p = bs "/c" then some f else none, fun x => if x = bs "/m/xapian" then [(bs "query.q", bs "tag:q")] else []⟩

/-- The file. -/
def exKeys : KeyFile := [(bs "database", [(bs "path", bs "/m")]), (bs "user", [(bs "name", bs "A\\sB")])]

/-- What a command prints, and what it leaves in the file. -/
def exRun (s : ConfigCmd.State) (arg : Str) (args : List Str) : End × (Str → Option KeyFile) :=
  ((notmuchConfig exSort exConfig s (some arg) .init args).2, (notmuchConfig exSort exConfig s (some arg) .init args).1.files)

/-- The hypotheses hold of a user with a file and a database. -/
theorem exFine : Fine exConfig (exStored exKeys) (some (bs "/c")) .init (bs "/c") exKeys [(bs "database", bs "path", bs "/m"), (bs "user", bs "name", bs "A B")] where
  path := by decide +kernel
  there := by decide +kernel
  loads := by
    refine ⟨by decide +kernel, by decide +kernel, ?_⟩
    intro h
    exact absurd h (by decide +kernel)
  dbs := by
    intro x
    unfold exStored
    simp only
    split <;> refine ⟨by decide +kernel, by decide +kernel⟩
  plain := ⟨rfl, rfl⟩

example : xapianAt exConfig (place exConfig exKeys) = some (bs "/m/xapian") ∧ GoodFile exKeys ∧ (∀ x ∈ exKeys, 46 ∉ x.1) ∧ Name (bs "new") ∧ 46 ∉ bs "new" ∧ Name (bs "tags") ∧
    bs "new.tags" = bs "new" ++ bs "." ++ bs "tags" ∧ ¬(bs "--" <+: bs "new.tags") ∧ ¬(bs "built_with." <+: bs "new.tags") ∧ validItem exConfig (bs "new.tags") = true ∧
    validItem exConfig (bs "index.header.List") = true ∧ validItem exConfig (bs "index.header.list") = false ∧
    (∀ v ∈ [bs "a b", bs "\\c"], utf8 v = true ∧ Plain v) := by
  refine ⟨?_, ⟨?_, ?_⟩, ?_, ⟨?_, ?_⟩, ?_, ⟨?_, ?_⟩, ?_, ?_, ?_, ?_, ?_, ?_, ?_⟩ <;> first | decide +kernel | skip
  intro v hv
  rw [List.mem_cons, List.mem_singleton] at hv
  rcases hv with rfl | rfl <;> refine ⟨by decide +kernel, by decide +kernel, by decide +kernel, by decide +kernel, ?_, ?_⟩ <;>
    · intro c hc
      have : ∀ c ∈ [bs "a b", bs "\\c"].flatMap (fun v => v.head?.toList ++ v.getLast?.toList), isSpace c = false := by decide +kernel
      apply this
      simp only [List.flatMap_cons, List.flatMap_nil, List.mem_append, Option.mem_toList, Option.mem_def, hc, true_or, or_true]

/-- Setting and getting. -/
example :
    (exRun (exStored exKeys) (bs "/c") [bs "get", bs "user.name"]).1 = .exit 0 (bs "A B\n") ∧
    (exRun (exStored exKeys) (bs "/c") [bs "get", bs "query.q"]).1 = .exit 0 (bs "tag:q\n") ∧
    (exRun (exStored exKeys) (bs "/c") [bs "set", bs "new.tags", bs "a b", bs "c"]).1 = .exit 0 [] ∧
    (exRun (exStored exKeys) (bs "/c") [bs "set", bs "new.tags", bs "a b", bs "c"]).2 (bs "/c") = some (exKeys ++ [(bs "new", [(bs "tags", bs "a b;c;")])]) ∧
    (exRun (exStored (exKeys ++ [(bs "new", [(bs "tags", bs "a b;c;")])])) (bs "/c") [bs "get", bs "new.tags"]).1 = .exit 0 (bs "a b\nc\n") ∧
    (exRun (exStored exKeys) (bs "/c") [bs "set", bs "user.name"]).2 (bs "/c") = some [(bs "database", [(bs "path", bs "/m")]), (bs "user", [])] := by
  refine ⟨?_, ?_, ?_, ?_, ?_, ?_⟩ <;> decide +kernel

/-- A key without a group (`.b`), or with a name that GLib does not accept, is not set, but the command succeeds. -/
theorem C61_counterexample_name : ∀ item ∈ [bs ".b", bs "a.b[", bs "a. b"],
    (exRun (exStored exKeys) (bs "/c") [bs "set", item, bs "v"]).1 = .exit 0 [] ∧ (exRun (exStored exKeys) (bs "/c") [bs "set", item, bs "v"]).2 (bs "/c") = some exKeys := by
  intro item hi
  simp only [List.mem_cons, List.not_mem_nil, or_false] at hi
  rcases hi with rfl | rfl | rfl <;> refine ⟨?_, ?_⟩ <;> decide +kernel

/-- A value of a list with `;` in it is printed with a backslash, and one that ends with a backslash swallows the one after it; but a single value with `;` is a list. -/
theorem C61_counterexample_list : ∃ f f' f'' : KeyFile,
    (exRun (exStored exKeys) (bs "/c") [bs "set", bs "new.tags", bs "a;b", bs "c"]).2 (bs "/c") = some f ∧
    (exRun (exStored f) (bs "/c") [bs "get", bs "new.tags"]).1 = .exit 0 (bs "a\\;b\nc\n") ∧
    (exRun (exStored exKeys) (bs "/c") [bs "set", bs "new.tags", bs "a\\", bs "c"]).2 (bs "/c") = some f' ∧
    (exRun (exStored f') (bs "/c") [bs "get", bs "new.tags"]).1 = .exit 0 (bs "a\\;c\n") ∧
    (exRun (exStored exKeys) (bs "/c") [bs "set", bs "new.tags", bs "a;b"]).2 (bs "/c") = some f'' ∧
    (exRun (exStored f'') (bs "/c") [bs "get", bs "new.tags"]).1 = .exit 0 (bs "a\nb\n") := by
  refine ⟨exKeys ++ [(bs "new", [(bs "tags", bs "a\\;b;c;")])], exKeys ++ [(bs "new", [(bs "tags", bs "a\\\\;c;")])], exKeys ++ [(bs "new", [(bs "tags", bs "a;b")])], ?_, ?_, ?_, ?_, ?_, ?_⟩ <;> decide +kernel

/-- A value that is not valid UTF-8 is accepted, but after that every `notmuch config` fails, even the one that would remove it. -/
theorem C61_counterexample_utf8 : ∃ f : KeyFile, (exRun (exStored exKeys) (bs "/c") [bs "set", bs "user.name", [0xE9]]).1 = .exit 0 [] ∧
    (exRun (exStored exKeys) (bs "/c") [bs "set", bs "user.name", [0xE9]]).2 (bs "/c") = some f ∧
    ∀ args sh, notmuchConfig exSort exConfig (exStored f) (some (bs "/c")) sh args = (exStored f, .exit 1 []) := by
  refine ⟨[(bs "database", [(bs "path", bs "/m")]), (bs "user", [(bs "name", [0xE9])])], by decide +kernel, by decide +kernel, ?_⟩
  intro args sh
  refine (C61_fails exSort_qsort exConfig _ (some (bs "/c")) sh args ?_).1 ?_
  · intro x
    unfold exStored
    simp only
    split <;> refine ⟨by decide +kernel, by decide +kernel⟩
  · rintro ⟨file, h, _⟩
    rw [show decode (entriesOf (theFile exConfig (exStored [(bs "database", [(bs "path", bs "/m")]), (bs "user", [(bs "name", [0xE9])])]) (some (bs "/c")))) = none from by decide +kernel] at h
    cases h

/-- With `--config=` no file is read, but that of the user is written. -/
theorem C61_counterexample_no_file : ∃ s : ConfigCmd.State,
    (exRun s [] [bs "get", bs "user.name"]).1 = .exit 0 (bs "Ann\n") ∧ (exRun s [] [bs "set", bs "user.name", bs "B"]).1 = .exit 0 [] ∧
    (exRun s [] [bs "set", bs "user.name", bs "B"]).2 (bs "/h/.notmuch-config") = some [(bs "user", [(bs "name", bs "B")])] := by
  refine ⟨⟨fun p => if p = bs "/h/.notmuch-config" then some [(bs "user", [(bs "name", bs "A")])] else none, fun _ => []⟩, ?_, ?_, ?_⟩ <;> decide +kernel

/-- The key `c` of a group `a.b` is the same as `b.c` of `a`, and the one that comes later in the file counts: setting it can have no effect. -/
theorem C61_counterexample_dot : ∃ f f' : KeyFile, GoodFile f ∧
    (exRun (exStored f) (bs "/c") [bs "set", bs "a.b.c", bs "new"]).1 = .exit 0 [] ∧ (exRun (exStored f) (bs "/c") [bs "set", bs "a.b.c", bs "new"]).2 (bs "/c") = some f' ∧
    (exRun (exStored f') (bs "/c") [bs "get", bs "a.b.c"]).1 = .exit 0 (bs "old\n") := by
  refine ⟨[(bs "a", []), (bs "a.b", [(bs "c", bs "old")])], [(bs "a", [(bs "b.c", bs "new")]), (bs "a.b", [(bs "c", bs "old")])], ⟨?_, ?_⟩, ?_, ?_, ?_⟩ <;> decide +kernel

/-- Of the name of a header only the part after the last dot is checked. -/
theorem C61_counterexample_header : validItem exConfig (bs "index.header.a b.C") = true ∧ validItem exConfig (bs "index.header.a b") = false := by
  refine ⟨?_, ?_⟩ <;> decide +kernel

/-- Where the database is depends on what the file says about it, as `notmuch config get` would print it. -/
theorem C61_place (W : ConfigCmd.World) {f : KeyFile} (hf : GoodFile f) {file : List (Str × Str × Str)} (hd : decode (entriesOf f) = some file) :
    (∀ v, (bs "database", bs "path", v) ∈ file → place W f = choosePath W.env none (some v) W.isDir none) ∧
    ((∀ v, (bs "database", bs "path", v) ∉ file) → place W f = choosePath W.env none none W.isDir none) := by
  have find : ∀ {α : Type} (l : List (Str × α)) (a : Str) (b : α), (l.map (·.1)).Nodup → (a, b) ∈ l → l.find? (fun x => x.1 = a) = some (a, b) := by
    intro α l a b
    induction l with
    | nil => intro _ h; cases h
    | cons x l ih =>
      intro hn hm
      rw [List.map_cons, List.nodup_cons] at hn
      rw [List.find?_cons]
      rcases List.mem_cons.1 hm with rfl | hm
      · simp
      · have : x.1 ≠ a := by
          rintro rfl
          exact hn.1 (List.mem_map_of_mem (f := (·.1)) hm)
        rw [decide_eq_false this]
        exact ih hn.2 hm
  obtain ⟨hu, rfl⟩ := decode_iff.1 hd
  constructor
  · intro v hv
    rw [List.mem_map] at hv
    obtain ⟨⟨g, k, raw⟩, hx, he⟩ := hv
    simp only [Prod.mk.injEq] at he
    obtain ⟨rfl, rfl, rfl⟩ := he
    have hu' := hu _ hx
    simp only [entriesOf, List.mem_flatMap, List.mem_map] at hx
    obtain ⟨⟨g', l⟩, hg, ⟨k', r'⟩, hk, he⟩ := hx
    simp only [Prod.mk.injEq] at he
    obtain ⟨rfl, rfl, rfl⟩ := he
    unfold place lookup
    rw [find f _ l hf.1 hg]
    simp only [Option.bind_some]
    rw [find l _ r' (hf.2 _ hg) hk]
    simp only [Option.map_some, Option.bind_some, getString, hu', if_true]
  · intro hv
    have : lookup (bs "database") (bs "path") f = none := by
      cases hl : lookup (bs "database") (bs "path") f with
      | none => rfl
      | some raw =>
        exfalso
        unfold lookup at hl
        rw [Option.map_eq_some_iff] at hl
        obtain ⟨⟨k, r⟩, h1, rfl⟩ := hl
        rw [Option.bind_eq_some_iff] at h1
        obtain ⟨⟨g, l⟩, h2, h3⟩ := h1
        have e2 := List.find?_some h2
        have e3 := List.find?_some h3
        simp only [decide_eq_true_eq] at e2 e3
        subst e2 e3
        refine hv (unescape false r) (List.mem_map.2 ⟨(bs "database", bs "path", r), ?_, rfl⟩)
        simp only [entriesOf, List.mem_flatMap, List.mem_map]
        exact ⟨_, List.mem_of_find?_eq_some h2, _, List.mem_of_find?_eq_some h3, rfl⟩
    unfold place
    rw [this]
    rfl

example : GoodFile [(bs "database", [(bs "path", bs "/a\\sb")])] ∧
    decode (entriesOf [(bs "database", [(bs "path", bs "/a\\sb")])]) = some [(bs "database", bs "path", bs "/a b")] := by
  refine ⟨⟨?_, ?_⟩, ?_⟩ <;> decide +kernel

/-- Where these theorems ask whether a text is UTF-8: this is exactly that it is the encoding of some characters, none of them NUL, and only such a value
of the file is read. -/
theorem C61_utf8 (s : Str) : (utf8 s = true ↔ Utf8Spec.Valid s) ∧ (getString s ≠ none ↔ Utf8Spec.Valid s) := by
  refine ⟨utf8_iff s, ?_⟩
  rw [← utf8_iff]
  unfold getString
  by_cases h : utf8 s = true <;> simp [h]

example : Utf8Spec.Valid [0xC3, 0xA9, 0xE2, 0x82, 0xAC, 0xF0, 0x9F, 0x98, 0x80] ∧ ¬ Utf8Spec.Valid [0xC1, 0xBF] := by
  refine ⟨⟨[0xE9, 0x20AC, 0x1F600], ?_, by decide +kernel⟩, ?_⟩
  · intro u hu; simp only [List.mem_cons, List.not_mem_nil, or_false] at hu
    rcases hu with rfl | rfl | rfl <;> (unfold Utf8Spec.Scalar; omega)
  · rw [← (C61_utf8 _).1]; decide +kernel

end Notmuch.Props
