import Verif.Proofs.Setup
import Verif.Props.ConfigCmd

/-! # C68: `notmuch setup` -/

namespace Notmuch.Props
open Notmuch.Setup Notmuch.ConfigCmd Notmuch.Config Notmuch.Cli Notmuch.Args
open Notmuch.StringMap (Pair Map cmppair)
open Notmuch.StringMapSpec (QSort)

variable {qs : List Pair → List Pair}

/-- There is a configuration file with which nothing is wrong, or there is none yet. -/
structure Ready (W : ConfigCmd.World) (s : ConfigCmd.State) (arg : Option Str) (sh : Shared) (p : Str) (f : KeyFile) (file : List (Str × Str × Str)) : Prop where
  path : configPath W s arg = some p
  there : s.files p = some f ∨ (s.files p = none ∧ W.isThere p = false ∧ f = [])
  loads : Loads W s arg file
  dbs : GoodDbs s
  plain : sh.version = false ∧ sh.help = false
  good : GoodFile f
  dots : ∀ x ∈ f, 46 ∉ x.1

private theorem ready_file {W : ConfigCmd.World} {s : ConfigCmd.State} {arg : Option Str} {sh : Shared} {p : Str} {f : KeyFile} {file : List (Str × Str × Str)} (h : Ready W s arg sh p f file) :
    (s.files p).getD [] = f ∧ theFile W s arg = f ∧ ((s.files p).isNone && W.isThere p) = false := by
  have e : theFile W s arg = (s.files p).getD [] := by unfold theFile; rw [h.path]; rfl
  rcases h.there with h1 | ⟨h1, h2, h3⟩
  · rw [e, h1]; exact ⟨rfl, rfl, rfl⟩
  · rw [e, h1, h2, h3]; exact ⟨rfl, rfl, rfl⟩

private theorem valuesOf_list (v : Option Str) : valuesOf v = Setup.list v := by
  cases v with
  | none => rfl
  | some v => exact values_eq v

/-- What the questions show. -/
private def shownOf (c : Str → Option Str) : Current :=
  ⟨c (bs "user.name"), c (bs "user.primary_email"), Setup.list (c (bs "user.other_email")), c (bs "database.path"), Setup.list (c (bs "new.tags")), Setup.list (c (bs "search.exclude_tags"))⟩

private theorem getKeys_rep (hq : QSort cmppair qs) : ∀ (ks : List Str) {m : Map} {c : Str → Option Str}, Rep m c → getKeys qs m ks = some (ks.map c)
  | [], _, _, _ => rfl
  | k :: ks, m, c, h => by
    obtain ⟨m', e, h'⟩ := rep_get hq h k
    rw [getKeys, e, Option.bind_some, getKeys_rep hq ks h']
    rfl

private theorem run_ready (hq : QSort cmppair qs) {W : ConfigCmd.World} {s : ConfigCmd.State} {arg : Option Str} {sh : Shared} {p : Str} {f : KeyFile} {file : List (Str × Str × Str)}
    (h : Ready W s arg sh p f file) (cwd : Option Str) (input : Str) :
    notmuchSetup qs W s arg sh cwd input [] = setupFile W s cwd input p f (shownOf (conf W s arg file)) := by
  obtain ⟨m, e, hr⟩ := load_spec hq W s arg h.dbs file h.loads
  obtain ⟨r1, _, r3⟩ := ready_file h
  have cmd : setupCommand qs W s sh (configPath W s arg) m cwd input [] = setupFile W s cwd input p f (shownOf (conf W s arg file)) := by
    have hm : Main.minimalOptions W.sys sh (some (bs "setup")) [] = .inr [] := by
      have ep : parse [.inherit sharedOptions] [] = (.rest [], []) := rfl
      unfold Main.minimalOptions
      rw [ep]
      show (match processShared W.sys none sh (some (bs "setup")) with | some e => Sum.inl e | none => Sum.inr []) = _
      unfold processShared
      rw [h.plain.1, h.plain.2]
      rfl
    unfold setupCommand
    rw [hm, h.path]
    show (if (s.files p).isNone && W.isThere p then _ else _) = _
    rw [r3]
    have hc : current qs m = some (shownOf (conf W s arg file)) := by
      unfold current
      rw [getKeys_rep hq _ hr]
      simp only [List.map_cons, List.map_nil, Option.bind_some, valuesOf_list]
      rfl
    rw [hc]
    show setupFile W s cwd input p ((s.files p).getD []) _ = _
    rw [r1]
  unfold notmuchSetup
  rw [e]
  generalize ht : (if (configPath W s arg).isSome && ((configPath W s arg).bind s.files).isNone then Main.Loaded.noConfig
        else if (xapianAt W (place W (theFile W s arg))).isSome then .success else .noDatabase) = t
  have ht' : t ≠ .failed := by
    rw [← ht]
    split
    · simp
    · split <;> simp
  cases t with
  | failed => exact absurd rfl ht'
  | _ => exact cmd

/-- The answers are text that a file can have. -/
structure Text (cwd : Str) (a : Filled) : Prop where
  name : Clean a.name
  email : Clean a.email
  old : ∀ x ∈ a.old, Clean x
  more : ∀ x ∈ a.more, Clean x
  path : Clean (Setup.absolute cwd a.path)
  tags : (∀ w ∈ words a.tags, utf8 w = true) ∧ a.tags.head? ≠ some 12
  exclude : (∀ w ∈ words a.exclude, utf8 w = true) ∧ a.exclude.head? ≠ some 12

private theorem mem_zip {es as : List Str} {x : Str} (h : x ∈ List.zipWith kept es as) : x ∈ es ∨ x ∈ as := by
  induction es generalizing as with
  | nil => simp at h
  | cons e es ih =>
    cases as with
    | nil => simp at h
    | cons a as =>
      rw [List.zipWith_cons_cons, List.mem_cons] at h
      rcases h with rfl | h
      · unfold kept
        split <;> simp
      · rcases ih h with h | h <;> simp [h]

/-- **C68.** When all questions are answered, the file has the answers that are not empty and else what it had; tags are the words of an answer, a relative path starts at
the current directory, and an address that is there stays unless another is given for it.  Nothing else is changed.  Each question shows what the configuration has. -/
theorem C68_setup (hq : QSort cmppair qs) {W : ConfigCmd.World} {s : ConfigCmd.State} {arg : Option Str} {sh : Shared} {p : Str} {f : KeyFile} {file : List (Str × Str × Str)}
    (h : Ready W s arg sh p f file) (hsave : W.save p = true) (cwd : Str) (a : Filled) (ha : a.Ok (conf W s arg file)) (ht : Text cwd a)
    (ho : ∀ x ∈ Setup.list (conf W s arg file (bs "user.other_email")), Clean x) (rest : Str) :
    ∃ s' f' file', notmuchSetup qs W s arg sh (some cwd) (typed a.all ++ rest) [] = (s', .exit 0 (questions (conf W s arg file) a)) ∧
      s'.files p = some f' ∧ GoodFile f' ∧ (∀ x ∈ f', 46 ∉ x.1) ∧ s'.dbs = s.dbs ∧ (∀ q, q ≠ p → s'.files q = s.files q) ∧
      decode (entriesOf f') = some file' ∧ (∀ K, fileValue file' K = (said cwd (conf W s arg file) a K).or (fileValue file K)) ∧
      (a.path = [] → lookup (bs "database") (bs "path") f' = lookup (bs "database") (bs "path") f) := by
  obtain ⟨_, r2, _⟩ := ready_file h
  have hsays : Says f (fileValue file) (lookup (bs "database") (bs "path") f) := ⟨h.good, h.dots, ⟨file, by rw [← r2]; exact h.loads.1, fun _ => rfl⟩, rfl⟩
  let b : Answers := ⟨a.name, a.email, others (conf W s arg file) a, a.path, a.tags, a.exclude⟩
  have hb : CleanAnswers cwd b := by
    refine ⟨ht.name, ht.email, fun x hx => ?_, ht.path, ht.tags, ht.exclude⟩
    rcases List.mem_append.1 hx with hx | hx
    · rcases mem_zip hx with hx | hx
      · exact ho x hx
      · exact ht.old x hx
    · exact ht.more x hx
  obtain ⟨f', p', e1, e2, e3⟩ := edit_says (says_addGroups hsays) cwd b hb
  obtain ⟨file', d1, d2⟩ := e2.keys
  refine ⟨{ s with files := fun q => if q = p then some f' else s.files q }, f', file', ?_, if_pos rfl, e2.good, e2.dots, rfl, fun q hq => if_neg hq, d1, fun K => ?_, fun h0 => ?_⟩
  · rw [run_ready hq h]
    unfold setupFile
    rw [inputLines_typed _ _ (fun x hx => (ha.typed x hx).1), dialog_lines _ a _ _ ha.typed ha.old ha.more]
    simp only
    have : List.zipWith kept (shownOf (conf W s arg file)).other a.old ++ a.more = others (conf W s arg file) a := rfl
    rw [this]
    show (match edit (some cwd) b (addGroups f) with | none => _ | some f' => _) = _
    rw [e1]
    simp only
    rw [if_neg (by rw [hsave]; decide), List.nil_append]
    rfl
  · rw [d2]
    rfl
  · rw [e2.path]
    exact e3 h0

private theorem path_after {W : ConfigCmd.World} {s : ConfigCmd.State} {arg : Option Str} {p : Str} (h : configPath W s arg = some p) {s' : ConfigCmd.State} (hp : (s'.files p).isSome = true)
    (ho : ∀ q, q ≠ p → s'.files q = s.files q) : configPath W s' arg = some p := by
  unfold configPath configFile at h ⊢
  split
  · rename_i h0; rw [if_pos h0] at h; cases h
  · rename_i h0
    rw [if_neg h0] at h
    revert h
    cases arg.or (W.env.get (bs "NOTMUCH_CONFIG")) with
    | some q => exact id
    | none =>
      simp only
      generalize xdgDir W.env (bs "XDG_CONFIG_HOME") (bs ".config") none ++ bs "/config" = x
      intro h
      by_cases hx : x = p
      · subst hx
        rw [if_pos hp]
      · simp only [ho x hx]
        exact h

private theorem valueOf_or {e : Env} {pn pu : Str} {file file' : List (Str × Str × Str)} {b : Str → Option Str} {v : Str → Option Str} (h : ∀ K, fileValue file' K = (v K).or (fileValue file K))
    (hp : v (bs "database.path") = none) {K : Str} (hx : ∀ w, v K = some w → expandPath e K w = w) : valueOf e pn pu file' b K = (v K).or (valueOf e pn pu file b K) := by
  have hf : ∀ K, v K = none → found e file' b K = found e file b K := by
    intro K hK
    unfold found
    rw [h, hK]
    rfl
  cases hK : v K with
  | none =>
    unfold valueOf
    rw [hf K hK, hf _ hp]
    rfl
  | some w =>
    unfold valueOf found
    rw [h K, hK]
    simp only [Option.some_or, Option.map_some, hx w hK]
    rfl

/-- **C68.** If nothing is answered for the mail directory, then the configuration is that before with what was answered; in particular it can be read. -/
theorem C68_configuration (hq : QSort cmppair qs) {W : ConfigCmd.World} {s : ConfigCmd.State} {arg : Option Str} {sh : Shared} {p : Str} {f : KeyFile} {file : List (Str × Str × Str)}
    (h : Ready W s arg sh p f file) (hsave : W.save p = true) (cwd : Str) (a : Filled) (ha : a.Ok (conf W s arg file)) (ht : Text cwd a)
    (ho : ∀ x ∈ Setup.list (conf W s arg file (bs "user.other_email")), Clean x) (rest : Str) (hpath : a.path = []) :
    ∃ s' f' file' out, notmuchSetup qs W s arg sh (some cwd) (typed a.all ++ rest) [] = (s', .exit 0 out) ∧ Ready W s' arg sh p f' file' ∧
      ∀ K, conf W s' arg file' K = (said cwd (conf W s arg file) a K).or (conf W s arg file K) := by
  obtain ⟨s', f', file', e1, e2, e3, e4, e5, e6, e7, e8, e9⟩ := C68_setup hq h hsave cwd a ha ht ho rest
  obtain ⟨_, r2, _⟩ := ready_file h
  have hp' : configPath W s' arg = some p := path_after h.path (by rw [e2]; rfl) e6
  have ht' : theFile W s' arg = f' := by
    unfold theFile
    rw [hp']
    show (s'.files p).getD [] = f'
    rw [e2]
    rfl
  have hpl : place W f' = place W f := by unfold place; rw [e9 hpath]
  have hs0 : said cwd (conf W s arg file) a (bs "database.path") = none := by
    unfold said
    rw [if_neg (fun k => absurd k.1 (by decide +kernel)), if_neg (fun k => absurd k.1 (by decide +kernel)), if_neg (fun k => absurd k.1 (by decide +kernel)), if_neg (fun k => k.2 hpath),
      if_neg (fun k => absurd k.1 (by decide +kernel)), if_neg (fun k => absurd k.1 (by decide +kernel))]
  have hsm : said cwd (conf W s arg file) a (bs "database.mail_root") = none := by
    unfold said
    rw [if_neg (fun k => absurd k.1 (by decide +kernel)), if_neg (fun k => absurd k.1 (by decide +kernel)), if_neg (fun k => absurd k.1 (by decide +kernel)), if_neg (fun k => k.2 hpath),
      if_neg (fun k => absurd k.1 (by decide +kernel)), if_neg (fun k => absurd k.1 (by decide +kernel))]
  have hsd : ∀ K w, said cwd (conf W s arg file) a K = some w → K ≠ bs "database.path" ∧ K ≠ bs "database.mail_root" ∧ K ≠ bs "database.hook_dir" ∧ K ≠ bs "database.backup_path" := by
    intro K w hK
    refine ⟨fun e => ?_, fun e => ?_, fun e => ?_, fun e => ?_⟩ <;> subst e
    · rw [hs0] at hK; cases hK
    · rw [hsm] at hK; cases hK
    · unfold said at hK
      rw [if_neg (fun k => absurd k.1 (by decide +kernel)), if_neg (fun k => absurd k.1 (by decide +kernel)), if_neg (fun k => absurd k.1 (by decide +kernel)), if_neg (fun k => k.2 hpath),
        if_neg (fun k => absurd k.1 (by decide +kernel)), if_neg (fun k => absurd k.1 (by decide +kernel))] at hK
      cases hK
    · unfold said at hK
      rw [if_neg (fun k => absurd k.1 (by decide +kernel)), if_neg (fun k => absurd k.1 (by decide +kernel)), if_neg (fun k => absurd k.1 (by decide +kernel)), if_neg (fun k => k.2 hpath),
        if_neg (fun k => absurd k.1 (by decide +kernel)), if_neg (fun k => absurd k.1 (by decide +kernel))] at hK
      cases hK
  obtain ⟨l1, l2, l3⟩ := h.loads
  rw [r2] at l2 l3
  refine ⟨s', f', file', _, e1, ⟨hp', .inl e2, ⟨by rw [ht']; exact e7, by rw [ht', hpl]; exact l2, ?_⟩, ?_, h.plain, e3, e4⟩, fun K => ?_⟩
  · rw [ht', hpl, e8, hsm]
    exact l3
  · unfold GoodDbs; rw [e5]; exact h.dbs
  · have hbase : base W s' (place W f) = base W s (place W f) := by
      unfold base
      rw [e5]
    have c1 : conf W s' arg file' K = valueOf W.env W.pwName W.pwUser file' (base W s (place W f)) K := by
      unfold conf
      rw [ht', hpl, hbase]
    have c2 : conf W s arg file K = valueOf W.env W.pwName W.pwUser file (base W s (place W f)) K := by
      unfold conf
      rw [r2]
    rw [c1, c2]
    exact valueOf_or e8 hs0 (fun w hw => expand_other (hsd K w hw))

private theorem items_semi (s : Str) : items (59 :: s) = items s := by
  unfold items
  rw [segments, if_pos ⟨rfl, rfl⟩, List.map_cons, List.filter_cons, if_neg (by decide)]

private theorem items_flat : ∀ ws : List Str, (∀ v ∈ ws, Plain v) → items (ws.flatMap (fun v => v.flatMap (fun c => if c = 59 then bs "\\;" else [c]) ++ bs ";")) = ws
  | [], _ => by decide +kernel
  | a :: ws, hw => by
    have hb : bs ";" = [59] := by decide +kernel
    have esc : ∀ v : Str, 59 ∉ v → v.flatMap (fun c => if c = 59 then bs "\\;" else [c]) = v := by
      intro v hv
      induction v with
      | nil => rfl
      | cons c v ih =>
        rw [List.flatMap_cons, if_neg (fun hc => hv (by simp [hc])), ih (fun hm => hv (by simp [hm]))]
        rfl
    have ha := hw a (by simp)
    have ih := items_flat ws (fun v hv => hw v (by simp [hv]))
    rw [List.flatMap_cons, esc a ha.2.1, hb, List.append_assoc]
    unfold items at ih ⊢
    show List.filter _ (List.map trim (segments false (a ++ 59 :: _))) = _
    rw [segments_plain a _ false ha.2.1 ha.2.2.1 (fun _ => rfl), List.map_cons, trim_plain ha, List.filter_cons, if_pos (by simpa using ha.1)]
    rw [hb] at ih
    exact congrArg (a :: ·) ih

/-- **C68.** The list that is stored for an answer has the words of it as its items, however many spaces there are (the words have no `;`, and no backslash or other white
space at their ends); so an answer of spaces only means none. -/
theorem C68_words (t : Str) (h : ∀ w ∈ words t, Plain w) : items (stored (wordList t)) = words t := by
  unfold wordList
  split
  · cases hw : words t with
    | nil => decide +kernel
    | cons w ws =>
      rw [hw] at h
      have : stored ([] :: w :: ws) = 59 :: (w :: ws).flatMap (fun v => v.flatMap (fun c => if c = 59 then bs "\\;" else [c]) ++ bs ";") := rfl
      rw [this, items_semi, items_flat _ h]
  · exact items_stored _ h

/-- **C68.** Nothing but empty lines changes nothing: each key has the value it had (the additional addresses are written again). -/
theorem C68_keep (hq : QSort cmppair qs) {W : ConfigCmd.World} {s : ConfigCmd.State} {arg : Option Str} {sh : Shared} {p : Str} {f : KeyFile} {file : List (Str × Str × Str)}
    (h : Ready W s arg sh p f file) (hsave : W.save p = true) (cwd : Str) (hcwd : Clean (cwd ++ bs "/"))
    (ho : ∀ x ∈ Setup.list (conf W s arg file (bs "user.other_email")), Clean x ∧ Plain x) (n : Nat) (hn : n ≥ 6 + (Setup.list (conf W s arg file (bs "user.other_email"))).length) :
    ∃ s' f' file' out, notmuchSetup qs W s arg sh (some cwd) (List.replicate n 10) [] = (s', .exit 0 out) ∧ Ready W s' arg sh p f' file' ∧
      (∀ K, K ≠ bs "user.other_email" → conf W s' arg file' K = conf W s arg file K) ∧
      Setup.list (conf W s' arg file' (bs "user.other_email")) = Setup.list (conf W s arg file (bs "user.other_email")) := by
  generalize hk : (Setup.list (conf W s arg file (bs "user.other_email"))).length = k at hn
  let a : Filled := ⟨[], [], List.replicate k [], [], [], [], []⟩
  have hall : a.all = List.replicate (6 + k) [] := by
    show [[], []] ++ List.replicate k [] ++ [] ++ [[], [], [], []] = _
    rw [List.append_nil, show 6 + k = 2 + (k + 4) by omega, ← List.replicate_append_replicate, ← List.replicate_append_replicate]
    rfl
  have hin : List.replicate n 10 = typed a.all ++ List.replicate (n - (6 + k)) 10 := by
    have : typed a.all = List.replicate (6 + k) 10 := by
      rw [hall]
      generalize 6 + k = j
      induction j with
      | zero => rfl
      | succ j ih =>
        rw [List.replicate_succ, List.replicate_succ]
        show [10] ++ typed (List.replicate j []) = _
        rw [ih]
        rfl
    rw [this, List.replicate_append_replicate]
    congr 1
    omega
  have hempty : Clean ([] : Str) := ⟨by decide, by simp⟩
  have hz : List.zipWith kept (Setup.list (conf W s arg file (bs "user.other_email"))) (List.replicate k []) = Setup.list (conf W s arg file (bs "user.other_email")) := by
    rw [← hk]
    generalize Setup.list (conf W s arg file (bs "user.other_email")) = l
    induction l with
    | nil => rfl
    | cons x l ih =>
      rw [List.length_cons, List.replicate_succ, List.zipWith_cons_cons, ih]
      rfl
  have hoth : others (conf W s arg file) a = Setup.list (conf W s arg file (bs "user.other_email")) := by
    show List.zipWith kept (Setup.list (conf W s arg file (bs "user.other_email"))) (List.replicate k []) ++ [] = _
    rw [List.append_nil, hz]
  have hsaid : ∀ K, said cwd (conf W s arg file) a K = if K = bs "user.other_email" ∧ Setup.list (conf W s arg file (bs "user.other_email")) ≠ [] then
      some (stored (Setup.list (conf W s arg file (bs "user.other_email")))) else none := by
    intro K
    unfold said
    rw [if_neg (fun k => k.2 rfl), if_neg (fun k => k.2 rfl), hoth]
    split
    · rfl
    · rw [if_neg (fun k => k.2 rfl), if_neg (fun k => k.2 rfl), if_neg (fun k => k.2 rfl)]
  have hok : a.Ok (conf W s arg file) := by
    refine ⟨?_, ?_, ?_⟩
    · rw [hall]
      intro x hx
      rw [(List.mem_replicate.1 hx).2]
      exact ⟨by simp, by simp⟩
    · show (List.replicate k []).length = _
      rw [List.length_replicate, hk]
    · intro x hx
      cases hx
  have htx : Text cwd a := by
    refine ⟨hempty, hempty, ?_, ?_, ?_, ?_, ?_⟩
    · intro x hx
      rw [(List.mem_replicate.1 hx).2]
      exact hempty
    · intro x hx
      cases hx
    · show Clean (if _ then _ else cwd ++ bs "/" ++ [])
      rw [if_neg (by simp [a]), List.append_nil]
      exact hcwd
    · exact ⟨by simp [a, words, pieces], by simp [a]⟩
    · exact ⟨by simp [a, words, pieces], by simp [a]⟩
  obtain ⟨s', f', file', out, e1, e2, e3⟩ := C68_configuration hq h hsave cwd a hok htx (fun x hx => (ho x hx).1) (List.replicate (n - (6 + k)) 10) rfl
  refine ⟨s', f', file', out, by rw [hin]; exact e1, e2, fun K hK => ?_, ?_⟩
  · rw [e3, hsaid, if_neg (fun k => hK k.1)]
    rfl
  · rw [e3, hsaid]
    by_cases h0 : Setup.list (conf W s arg file (bs "user.other_email")) = []
    · rw [if_neg (fun k => k.2 h0)]
      rfl
    · rw [if_pos ⟨rfl, h0⟩]
      show items (stored _) = _
      exact items_stored _ (fun v hv => (ho v hv).2)

/-- **C68.** If `notmuch setup` does not succeed, it has changed nothing. -/
theorem C68_status (qs : List Pair → List Pair) (W : ConfigCmd.World) (s : ConfigCmd.State) (arg : Option Str) (sh : Shared) (cwd : Option Str) (input : Str) (args : List Str)
    (h : ∀ out, (notmuchSetup qs W s arg sh cwd input args).2 ≠ .exit 0 out) : (notmuchSetup qs W s arg sh cwd input args).1 = s := by
  have key : ∀ p f cur, (setupFile W s cwd input p f cur).1 = s ∨ ∃ out, (setupFile W s cwd input p f cur).2 = .exit 0 out := by
    intro p f cur
    unfold setupFile
    split
    · exact .inl rfl
    · split
      · exact .inl rfl
      · split
        · exact .inl rfl
        · exact .inr ⟨_, rfl⟩
  revert h
  unfold notmuchSetup
  split
  · intro _; rfl
  · intro _; rfl
  · unfold setupCommand
    split
    · intro _; rfl
    · split
      · intro _; rfl
      · split
        · intro _; rfl
        · intro h
          rcases key _ _ _ with k | ⟨out, k⟩
          · exact k
          · exact absurd k (h out)

private theorem inputLines_length (s : Str) : (inputLines s).length ≤ s.count 10 + 1 := by
  have : (inputLines s).length ≤ s.count 10 + 1 ∧ ((inputLines s).length = 0 → s = []) := by
    induction s with
    | nil => simp [inputLines]
    | cons c s ih =>
      rw [inputLines]
      by_cases hc : c = 10
      · rw [if_pos hc, hc, List.count_cons_self]
        exact ⟨by simpa using ih.1, by simp⟩
      · rw [if_neg hc, List.count_cons_of_ne hc]
        cases hi : inputLines s with
        | nil => exact ⟨by simp, by simp⟩
        | cons l ls =>
          rw [hi] at ih
          exact ⟨by simpa using ih.1, by simp⟩
  exact this.1

private theorem prompt_used {text : Str} {d : Dialog} {a : Str} {d' : Dialog} (h : prompt text d = .inr (a, d')) : d.lines.length = d'.lines.length + 1 := by
  unfold prompt at h
  split at h
  · cases h
  · rename_i l ls hl
    split at h
    · cases h
    · injection h with h
      injection h with _ h
      subst h
      rw [hl]
      rfl

private theorem askOld_used : ∀ {es : List Str} {d : Dialog} {l : List Str} {d' : Dialog}, askOld es d = .inr (l, d') → d.lines.length = d'.lines.length + es.length
  | [], d, l, d', h => by
    unfold askOld at h
    injection h with h
    injection h with _ h
    subst h
    rfl
  | e :: es, d, l, d', h => by
    unfold askOld at h
    split at h
    · cases h
    · rename_i a d1 h1
      split at h
      · cases h
      · rename_i l2 d2 h2
        injection h with h
        injection h with _ h
        subst h
        have := prompt_used h1
        have := askOld_used h2
        rw [List.length_cons]
        omega

private theorem askMore_used : ∀ {ls : List Str} {out : Str} {l : List Str} {d' : Dialog}, askMore ls out = .inr (l, d') → d'.lines.length + 1 ≤ ls.length
  | [], _, _, _, h => by cases h
  | x :: ls, out, l, d', h => by
    unfold askMore at h
    split at h
    · cases h
    · split at h
      · split at h
        · cases h
        · rename_i l2 d2 h2
          injection h with h
          injection h with _ h
          subst h
          have := askMore_used h2
          rw [List.length_cons]
          omega
      · injection h with h
        injection h with _ h
        subst h
        simp

private theorem prompt_no_zero (text : Str) (d : Dialog) (out : Str) : prompt text d ≠ .inl (.exit 0 out) := by
  intro hh
  unfold prompt at hh
  split at hh
  · injection hh with hh; injection hh with hh; cases hh
  · split at hh <;> cases hh

private theorem askOld_no_zero : ∀ (es : List Str) (d : Dialog) (out : Str), askOld es d ≠ .inl (.exit 0 out)
  | [], d, out, hh => by cases hh
  | e :: es, d, out, hh => by
    unfold askOld at hh
    split at hh
    · rename_i x hx
      injection hh with hh
      subst hh
      exact prompt_no_zero _ _ _ hx
    · split at hh
      · rename_i x hx
        injection hh with hh
        subst hh
        exact askOld_no_zero es _ _ hx
      · cases hh

private theorem askMore_no_zero : ∀ (ls : List Str) (o out : Str), askMore ls o ≠ .inl (.exit 0 out)
  | [], o, out, hh => by unfold askMore at hh; injection hh with hh; injection hh with hh; cases hh
  | l :: ls, o, out, hh => by
    unfold askMore at hh
    split at hh
    · cases hh
    · split at hh
      · split at hh
        · rename_i x hx
          injection hh with hh
          subst hh
          exact askMore_no_zero ls _ _ hx
        · cases hh
      · cases hh

private theorem dialog_no_zero (cur : Current) (d : Dialog) (out : Str) : dialog cur d ≠ .inl (.exit 0 out) := by
  intro hd
  unfold dialog at hd
  repeat
    first
    | (split at hd
       · rename_i x hx
         injection hd with hd
         subst hd
         first
         | exact prompt_no_zero _ _ _ hx
         | exact askOld_no_zero _ _ _ hx
         | exact askMore_no_zero _ _ _ hx)
  cases hd

/-- **C68.** If the input ends before all questions are answered (there are six, and one for each additional address that is known), nothing is changed. -/
theorem C68_ends (hq : QSort cmppair qs) {W : ConfigCmd.World} {s : ConfigCmd.State} {arg : Option Str} {sh : Shared} {p : Str} {f : KeyFile} {file : List (Str × Str × Str)}
    (h : Ready W s arg sh p f file) (cwd : Option Str) (input : Str) (hn : input.count 10 + 1 < 6 + (Setup.list (conf W s arg file (bs "user.other_email"))).length) :
    (notmuchSetup qs W s arg sh cwd input []).1 = s ∧ ∀ out, (notmuchSetup qs W s arg sh cwd input []).2 ≠ .exit 0 out := by
  rw [run_ready hq h]
  have hl := inputLines_length input
  unfold setupFile
  cases hd : dialog (shownOf (conf W s arg file)) ⟨inputLines input, []⟩ with
  | inl e =>
    refine ⟨rfl, fun out he => ?_⟩
    simp only at he
    subst he
    exact dialog_no_zero _ _ _ hd
  | inr r =>
    exfalso
    unfold dialog at hd
    split at hd
    · cases hd
    rename_i h1
    split at hd
    · cases hd
    rename_i h2
    split at hd
    · cases hd
    rename_i h3
    split at hd
    · cases hd
    rename_i h4
    split at hd
    · cases hd
    rename_i h5
    split at hd
    · cases hd
    rename_i h6
    split at hd
    · cases hd
    rename_i h7
    have h1 := prompt_used h1
    have h2 := prompt_used h2
    have h3 := askOld_used h3
    have h4 := askMore_used h4
    have h5 := prompt_used h5
    have h6 := prompt_used h6
    have h7 := prompt_used h7
    have : (shownOf (conf W s arg file)).other.length = (Setup.list (conf W s arg file (bs "user.other_email"))).length := rfl
    simp only at h1
    omega

private theorem plain_options {W : ConfigCmd.World} {sh : Shared} (hp : sh.version = false ∧ sh.help = false) : Main.minimalOptions W.sys sh (some (bs "setup")) [] = .inr [] := by
  have ep : parse [.inherit sharedOptions] [] = (.rest [], []) := rfl
  unfold Main.minimalOptions
  rw [ep]
  show (match processShared W.sys none sh (some (bs "setup")) with | some e => Sum.inl e | none => Sum.inr []) = _
  unfold processShared
  rw [hp.1, hp.2]
  rfl

/-- **C68.** A configuration file that is there but cannot be read is not replaced, whatever is answered. -/
theorem C68_unreadable (qs : List Pair → List Pair) {W : ConfigCmd.World} {s : ConfigCmd.State} {arg : Option Str} {sh : Shared} {p : Str} (hc : configPath W s arg = some p)
    (hf : s.files p = none) (hw : W.isThere p = true) (hp : sh.version = false ∧ sh.help = false) (cwd : Option Str) (input : Str) :
    (notmuchSetup qs W s arg sh cwd input []).1 = s ∧ ∀ out, (notmuchSetup qs W s arg sh cwd input []).2 ≠ .exit 0 out := by
  unfold notmuchSetup
  split
  · exact ⟨rfl, fun _ h => by cases h⟩
  · refine ⟨rfl, fun _ h => ?_⟩
    injection h with h; cases h
  · rename_i m _ _ _
    have : setupCommand qs W s sh (configPath W s arg) m cwd input [] = (s, .exit 1 []) := by
      unfold setupCommand
      rw [plain_options hp, hc]
      show (if (s.files p).isNone && W.isThere p then _ else _) = _
      rw [hf, hw]
      rfl
    rw [this]
    refine ⟨rfl, fun _ h => ?_⟩
    injection h with h; cases h

/-- **C68.** If the file cannot be saved, nothing is changed and the command fails. -/
theorem C68_unsaved (qs : List Pair → List Pair) {W : ConfigCmd.World} {s : ConfigCmd.State} {arg : Option Str} {sh : Shared} {p : Str} (hc : configPath W s arg = some p)
    (hw : W.save p = false) (hp : sh.version = false ∧ sh.help = false) (cwd : Option Str) (input : Str) :
    (notmuchSetup qs W s arg sh cwd input []).1 = s ∧ ∀ out, (notmuchSetup qs W s arg sh cwd input []).2 ≠ .exit 0 out := by
  unfold notmuchSetup
  split
  · exact ⟨rfl, fun _ h => by cases h⟩
  · refine ⟨rfl, fun _ h => ?_⟩
    injection h with h; cases h
  · unfold setupCommand
    rw [plain_options hp, hc]
    show (if (s.files p).isNone && W.isThere p then (s, End.exit 1 []) else _).1 = s ∧ ∀ out, (if (s.files p).isNone && W.isThere p then (s, End.exit 1 []) else _).2 ≠ .exit 0 out
    split
    · refine ⟨rfl, fun _ h => ?_⟩
      injection h with h; cases h
    · split
      · exact ⟨rfl, fun _ h => by cases h⟩
      · show (setupFile W s cwd input p _ _).1 = s ∧ ∀ out, (setupFile W s cwd input p _ _).2 ≠ .exit 0 out
        unfold setupFile
        split
        · rename_i e he
          exact ⟨rfl, fun out h => dialog_no_zero _ _ out (by simp only at h; rw [← h]; exact he)⟩
        · split
          · exact ⟨rfl, fun _ h => by cases h⟩
          · rw [hw]
            refine ⟨rfl, fun _ h => ?_⟩
            injection h with h; cases h

/-- **C68.** If the current directory is not known, a relative path that is answered counts as no answer. -/
theorem C68_no_directory (hq : QSort cmppair qs) {W : ConfigCmd.World} {s : ConfigCmd.State} {arg : Option Str} {sh : Shared} {p : Str} {f : KeyFile} {file : List (Str × Str × Str)}
    (h : Ready W s arg sh p f file) (a : Filled) (ha : a.Ok (conf W s arg file)) (hr : a.path.head? ≠ some 47) (cwd rest : Str) :
    notmuchSetup qs W s arg sh none (typed a.all ++ rest) [] = notmuchSetup qs W s arg sh (some cwd) (typed { a with path := [] }.all ++ rest) [] := by
  have ht : ∀ x ∈ { a with path := [] : Filled }.all, Typed x := by
    intro x hx
    unfold Filled.all at hx
    simp only [List.mem_append, List.mem_cons, List.not_mem_nil, or_false] at hx
    refine if hx0 : x = [] then by subst hx0; exact ⟨by simp, by simp⟩ else ha.typed x ?_
    unfold Filled.all
    simp only [List.mem_append, List.mem_cons, List.not_mem_nil, or_false]
    grind
  rw [run_ready hq h, run_ready hq h]
  unfold setupFile
  rw [inputLines_typed _ _ (fun x hx => (ha.typed x hx).1), dialog_lines _ a _ _ ha.typed ha.old ha.more, inputLines_typed _ _ (fun x hx => (ht x hx).1),
    dialog_lines _ { a with path := [] } _ _ ht ha.old ha.more]
  have he : ∀ (b : Answers) (f : KeyFile), b.path = a.path → edit none b f = edit (some cwd) { b with path := [] } f := by
    intro b f hb
    have e : setPath none b.path = id := by
      funext f
      unfold setPath makeAbsolute
      rw [hb, if_neg hr]
      rfl
    unfold edit
    simp only [e, List.length_nil, ne_eq, not_true_eq_false, if_false, id, ite_self]
  simp only
  rw [he _ _ rfl]

/-! ### A last line without a newline -/

/-- The same for a reader that strips the newline. -/
private def Same (d d' : Dialog) : Prop := d.out = d'.out ∧ d.lines.map chomp = d'.lines.map chomp

/-- The same result. -/
private def SameEnd {α : Type} (r r' : End ⊕ (α × Dialog)) : Prop :=
  (∃ e, r = .inl e ∧ r' = .inl e) ∨ (∃ a d d', r = .inr (a, d) ∧ r' = .inr (a, d') ∧ Same d d')

private theorem prompt_same (text : Str) {d d' : Dialog} (h : Same d d') : SameEnd (prompt text d) (prompt text d') := by
  obtain ⟨h1, h2⟩ := h
  obtain ⟨ls, o⟩ := d
  obtain ⟨ls', o'⟩ := d'
  simp only at h1 h2
  subst h1
  unfold prompt
  cases ls with
  | nil =>
    cases ls' with
    | nil => exact .inl ⟨_, rfl, rfl⟩
    | cons l' ls' => simp at h2
  | cons l ls =>
    cases ls' with
    | nil => simp at h2
    | cons l' ls' =>
      simp only [List.map_cons, List.cons.injEq] at h2
      simp only [h2.1]
      cases chomp l' with
      | none => exact .inl ⟨_, rfl, rfl⟩
      | some a => exact .inr ⟨a, _, _, rfl, rfl, rfl, h2.2⟩

private theorem askOld_same : ∀ (es : List Str) {d d' : Dialog}, Same d d' → SameEnd (askOld es d) (askOld es d')
  | [], d, d', h => .inr ⟨_, _, _, rfl, rfl, h⟩
  | e :: es, d, d', h => by
    unfold askOld
    rcases prompt_same (bs "Additional email address [" ++ e ++ bs "]: ") h with ⟨x, e1, e2⟩ | ⟨a, d1, d2, e1, e2, h1⟩
    · rw [e1, e2]; exact .inl ⟨_, rfl, rfl⟩
    · rw [e1, e2]
      simp only
      rcases askOld_same es h1 with ⟨x, e3, e4⟩ | ⟨l, d3, d4, e3, e4, h2⟩
      · rw [e3, e4]; exact .inl ⟨_, rfl, rfl⟩
      · rw [e3, e4]; exact .inr ⟨_, _, _, rfl, rfl, h2⟩

private theorem askMore_same : ∀ (ls ls' : List Str) (o : Str), ls.map chomp = ls'.map chomp → SameEnd (askMore ls o) (askMore ls' o)
  | [], [], o, _ => .inl ⟨_, rfl, rfl⟩
  | [], _ :: _, o, h => by simp at h
  | _ :: _, [], o, h => by simp at h
  | l :: ls, l' :: ls', o, h => by
    simp only [List.map_cons, List.cons.injEq] at h
    unfold askMore
    rw [h.1]
    cases chomp l' with
    | none => exact .inl ⟨_, rfl, rfl⟩
    | some a =>
      simp only
      split
      · rcases askMore_same ls ls' (o ++ bs "Additional email address [Press 'Enter' if none]: ") h.2 with ⟨x, e3, e4⟩ | ⟨l, d3, d4, e3, e4, h2⟩
        · rw [e3, e4]; exact .inl ⟨_, rfl, rfl⟩
        · rw [e3, e4]; exact .inr ⟨_, _, _, rfl, rfl, h2⟩
      · exact .inr ⟨_, _, _, rfl, rfl, rfl, h.2⟩

private theorem dialog_same (cur : Current) {d d' : Dialog} (h : Same d d') : SameEnd (dialog cur d) (dialog cur d') := by
  unfold dialog
  rcases prompt_same (bs "Your full name [" ++ shown cur.name ++ bs "]: ") h with ⟨x, e1, e2⟩ | ⟨a1, d1, d1', e1, e2, h⟩
  · rw [e1, e2]; exact .inl ⟨_, rfl, rfl⟩
  rw [e1, e2]; simp only
  rcases prompt_same (bs "Your primary email address [" ++ shown cur.email ++ bs "]: ") h with ⟨x, e1, e2⟩ | ⟨a2, d2, d2', e1, e2, h⟩
  · rw [e1, e2]; exact .inl ⟨_, rfl, rfl⟩
  rw [e1, e2]; simp only
  rcases askOld_same cur.other h with ⟨x, e1, e2⟩ | ⟨a3, d3, d3', e1, e2, h⟩
  · rw [e1, e2]; exact .inl ⟨_, rfl, rfl⟩
  rw [e1, e2]; simp only
  rw [h.1]
  rcases askMore_same d3.lines d3'.lines d3'.out h.2 with ⟨x, e1, e2⟩ | ⟨a4, d4, d4', e1, e2, h⟩
  · rw [e1, e2]; exact .inl ⟨_, rfl, rfl⟩
  rw [e1, e2]; simp only
  rcases prompt_same (bs "Top-level directory of your email archive [" ++ shown cur.path ++ bs "]: ") h with ⟨x, e1, e2⟩ | ⟨a5, d5, d5', e1, e2, h⟩
  · rw [e1, e2]; exact .inl ⟨_, rfl, rfl⟩
  rw [e1, e2]; simp only
  rcases prompt_same (bs "Tags to apply to all new messages (separated by spaces) [" ++ tagListText cur.tags ++ bs "]: ") h with ⟨x, e1, e2⟩ | ⟨a6, d6, d6', e1, e2, h⟩
  · rw [e1, e2]; exact .inl ⟨_, rfl, rfl⟩
  rw [e1, e2]; simp only
  rcases prompt_same (bs "Tags to exclude when searching messages (separated by spaces) [" ++ tagListText cur.exclude ++ bs "]: ") h with ⟨x, e1, e2⟩ | ⟨a7, d7, d7', e1, e2, h⟩
  · rw [e1, e2]; exact .inl ⟨_, rfl, rfl⟩
  rw [e1, e2]
  exact .inr ⟨_, _, _, rfl, rfl, h⟩

private theorem chomp_newline (l : Str) (h : l ≠ []) (hl : l.getLast? ≠ some 10) : chomp (l ++ [10]) = chomp l := by
  unfold chomp
  by_cases h0 : (0 : UInt8) ∈ l
  · have : (l ++ [10]).takeWhile (· ≠ 0) = l.takeWhile (· ≠ 0) := by
      clear h hl
      induction l with
      | nil => cases h0
      | cons c l ih =>
        rw [List.cons_append, List.takeWhile_cons, List.takeWhile_cons]
        by_cases hc : c = 0
        · simp [hc]
        · rw [ih (by rcases List.mem_cons.1 h0 with h0 | h0; exact absurd h0.symm hc; exact h0)]
    rw [this]
  · have hall : ∀ c ∈ l, c ≠ 0 := fun c hc e => h0 (e ▸ hc)
    rw [takeWhile_all (by intro c hc; rcases List.mem_append.1 hc with hc | hc; simpa using hall c hc; simp at hc; subst hc; decide), takeWhile_all (by intro c hc; simpa using hall c hc)]
    cases l with
    | nil => exact absurd rfl h
    | cons c l =>
      show some (if (c :: l ++ [10]).getLast? = some 10 then (c :: l ++ [10]).dropLast else _) = some (if (c :: l).getLast? = some 10 then _ else c :: l)
      rw [if_pos (by rw [List.getLast?_concat]), if_neg hl, List.dropLast_concat]

private theorem inputLines_newline : ∀ (s : Str), s ≠ [] → s.getLast? ≠ some 10 →
    ∃ L l, l ≠ [] ∧ l.getLast? ≠ some 10 ∧ inputLines s = L ++ [l] ∧ inputLines (s ++ [10]) = L ++ [l ++ [10]]
  | [], h, _ => absurd rfl h
  | [c], _, h => by
    have hc : c ≠ 10 := by simpa using h
    refine ⟨[], [c], by simp, h, ?_, ?_⟩ <;> simp [inputLines, hc]
  | c :: b :: s, _, h => by
    have h' : (b :: s).getLast? ≠ some 10 := by rw [List.getLast?_cons_cons] at h; exact h
    obtain ⟨L, l, i1, i2, i3, i4⟩ := inputLines_newline (b :: s) (by simp) h'
    have hu : ∀ t : Str, inputLines (c :: t) = if c = 10 then [c] :: inputLines t else match inputLines t with | [] => [[c]] | l :: ls => (c :: l) :: ls := fun _ => rfl
    rw [List.cons_append, hu, hu]
    by_cases hc : c = 10
    · rw [if_pos hc, if_pos hc]
      exact ⟨[c] :: L, l, i1, i2, by rw [i3]; rfl, by rw [i4]; rfl⟩
    · rw [if_neg hc, if_neg hc, i3, i4]
      cases L with
      | nil =>
        refine ⟨[], c :: l, by simp, ?_, rfl, rfl⟩
        cases l with
        | nil => exact absurd rfl i1
        | cons d l => rw [List.getLast?_cons_cons]; exact i2
      | cons x L => exact ⟨(c :: x) :: L, l, i1, i2, rfl, rfl⟩

/-- **C68.** The last answer needs no newline. -/
theorem C68_last_line (hq : QSort cmppair qs) {W : ConfigCmd.World} {s : ConfigCmd.State} {arg : Option Str} {sh : Shared} {p : Str} {f : KeyFile} {file : List (Str × Str × Str)}
    (h : Ready W s arg sh p f file) (cwd : Option Str) (input : Str) (h0 : input ≠ []) (hl : input.getLast? ≠ some 10) :
    notmuchSetup qs W s arg sh cwd input [] = notmuchSetup qs W s arg sh cwd (input ++ bs "\n") [] := by
  have hm : (inputLines input).map chomp = (inputLines (input ++ bs "\n")).map chomp := by
    obtain ⟨L, l, i1, i2, i3, i4⟩ := inputLines_newline input h0 hl
    have hb : bs "\n" = [10] := by decide +kernel
    rw [hb, i3, i4, List.map_append, List.map_append, List.map_cons, List.map_cons, chomp_newline l i1 i2]
  rw [run_ready hq h, run_ready hq h]
  unfold setupFile
  rcases dialog_same (shownOf (conf W s arg file)) (d := ⟨inputLines input, []⟩) (d' := ⟨inputLines (input ++ bs "\n"), []⟩) ⟨rfl, hm⟩ with ⟨x, e1, e2⟩ | ⟨a, d, d', e1, e2, h⟩
  · rw [e1, e2]
  · rw [e1, e2]
    simp only
    rw [h.1]

/-! ## Concrete cases -/

/-- A run with an answer for each line, and what it leaves in the file `/c`. -/
def setupRun (s : ConfigCmd.State) (input : Str) : End × Option KeyFile :=
  ((notmuchSetup exSort exConfig s (some (bs "/c")) .init (some (bs "/w")) input []).2, (notmuchSetup exSort exConfig s (some (bs "/c")) .init (some (bs "/w")) input []).1.files (bs "/c"))

theorem setupReady : Ready exConfig (exStored exKeys) (some (bs "/c")) .init (bs "/c") exKeys [(bs "database", bs "path", bs "/m"), (bs "user", bs "name", bs "A B")] where
  path := exFine.path
  there := .inl exFine.there
  loads := exFine.loads
  dbs := exFine.dbs
  plain := exFine.plain
  good := by refine ⟨?_, ?_⟩ <;> decide +kernel
  dots := by decide +kernel

/-- Answers for all questions. -/
def setupFilled : Filled := ⟨bs "Bo", [], [], [bs "b@c", bs "b@d"], bs "mail", bs " inbox  new", []⟩

example : setupFilled.Ok (conf exConfig (exStored exKeys) (some (bs "/c")) [(bs "database", bs "path", bs "/m"), (bs "user", bs "name", bs "A B")]) ∧ Text (bs "/w") setupFilled ∧
    (∀ w ∈ words setupFilled.tags, Plain w) := by
  refine ⟨⟨?_, ?_, ?_⟩, ⟨⟨?_, ?_⟩, ⟨?_, ?_⟩, ?_, ?_, ⟨?_, ?_⟩, ⟨?_, ?_⟩, ⟨?_, ?_⟩⟩, ?_⟩
  · have : ∀ x ∈ setupFilled.all, (10 : UInt8) ∉ x ∧ (0 : UInt8) ∉ x := by decide +kernel
    exact this
  · decide +kernel
  · decide +kernel
  · decide +kernel
  · decide +kernel
  · decide +kernel
  · decide +kernel
  · intro x hx; cases hx
  · have : ∀ x ∈ setupFilled.more, utf8 x = true ∧ x.head? ≠ some 12 := by decide +kernel
    exact this
  · decide +kernel
  · decide +kernel
  · decide +kernel
  · decide +kernel
  · decide +kernel
  · decide +kernel
  · have : ∀ w ∈ words setupFilled.tags, w ≠ [] ∧ 59 ∉ w ∧ w.getLast? ≠ some 92 ∧ (w.head?.map isSpace).getD false = false ∧ (w.getLast?.map isSpace).getD false = false := by decide +kernel
    intro w hw
    obtain ⟨h1, h2, h3, h4, h5⟩ := this w hw
    exact ⟨h1, h2, h3, fun c hc => by rw [hc] at h4; exact h4, fun c hc => by rw [hc] at h5; exact h5⟩

/-- What they leave. -/
example : (setupRun (exStored exKeys) (typed setupFilled.all)).2 =
    some [(bs "database", [(bs "path", bs "/w/mail")]), (bs "user", [(bs "name", bs "Bo"), (bs "other_email", bs "b@c;b@d;")]), (bs "new", [(bs "tags", bs ";inbox;new;")]), (bs "search", []), (bs "maildir", [])] ∧
    words setupFilled.tags = [bs "inbox", bs "new"] := by
  refine ⟨?_, ?_⟩ <;> decide +kernel

/-- There is no file yet; nothing is answered. -/
example : (setupRun ⟨fun _ => none, fun _ => []⟩ (bs "\n\n\n\n\n\n")).2 = some [(bs "database", []), (bs "user", []), (bs "new", []), (bs "search", []), (bs "maildir", [])] := by decide +kernel

/-- The input ends early, or a line begins with a zero byte. -/
example : (setupRun (exStored exKeys) (bs "Bo\n")).2 = some exKeys ∧ (∃ out, (setupRun (exStored exKeys) (bs "Bo\n")).1 = .exit 1 out) ∧
    (setupRun (exStored exKeys) [0, 10]).1 = .crash := by
  refine ⟨by decide +kernel, ⟨bs "Your full name [A B]: Your primary email address [ann@localhost]: Exiting.\n", ?_⟩, by decide +kernel⟩
  decide +kernel

/-- The last answer without a newline. -/
example : (setupRun (exStored exKeys) (bs "\n\n\n\n\nspam")).2 =
    some [(bs "database", [(bs "path", bs "/m")]), (bs "user", [(bs "name", bs "A\\sB")]), (bs "new", []), (bs "search", [(bs "exclude_tags", bs "spam")]), (bs "maildir", [])] := by decide +kernel

/-- A file that cannot be read, and one that cannot be saved. -/
example : configPath exConfig (exStored exKeys) (some (bs "/d")) = some (bs "/d") ∧ (exStored exKeys).files (bs "/d") = none ∧
    ({ exConfig with isThere := fun q => q = bs "/d" } : ConfigCmd.World).isThere (bs "/d") = true ∧ ({ exConfig with save := fun _ => false } : ConfigCmd.World).save (bs "/c") = false := by
  refine ⟨?_, ?_, ?_, ?_⟩ <;> decide +kernel

/-- With two additional addresses, one of which has a `;`, empty lines do not keep it: it gets another backslash each time. -/
theorem C68_keep_counterexample : ∃ f f' : KeyFile, (setupRun (exStored f) (bs "\n\n\n\n\n\n\n\n")).2 = some f' ∧
    (exRun (exStored f) (bs "/c") [bs "get", bs "user.other_email"]).1 = .exit 0 (bs "a\\;b\nc\n") ∧
    (exRun (exStored f') (bs "/c") [bs "get", bs "user.other_email"]).1 = .exit 0 (bs "a\\\\;b\nc\n") := by
  refine ⟨[(bs "database", [(bs "path", bs "/m")]), (bs "user", [(bs "other_email", bs "a\\;b;c;")])],
    [(bs "database", [(bs "path", bs "/m")]), (bs "user", [(bs "other_email", bs "a\\\\\\;b;c;")]), (bs "new", []), (bs "search", []), (bs "maildir", [])], ?_, ?_, ?_⟩ <;> decide +kernel

end Notmuch.Props
