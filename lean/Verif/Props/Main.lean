import Verif.Spec.Main
import Verif.Props.Count

/-! # C59: which command is run, and with which database -/

namespace Notmuch.Props

open Notmuch.Main Notmuch.Cli Notmuch.Args

theorem good_main : Good (entries mainOptions) := C53_tables.1 mainOptions (by simp [tables, soundTables])
theorem places_main : places mainOptions = [] := C53_tables.2.2 mainOptions (by simp [tables, soundTables])

/-- Settings are read in any table that has them. -/
theorem given_parses {t : List Opt} (l : List Given) (hl : ∀ g ∈ l, g.Of t) {rest r : List Str} {w : List Write} (h : Parses (entries t) (places t) rest w r) :
    Parses (entries t) (places t) (l.map Given.text ++ rest) (writes l ++ w) r := by
  induction l with
  | nil => exact h
  | cons g l ih =>
    obtain ⟨h1, h2, h3⟩ := hl g (by simp)
    have := ih (fun g hg => hl g (by simp [hg]))
    rw [List.map_cons, List.cons_append]
    unfold writes at this ⊢
    rw [List.flatMap_cons, List.append_assoc]
    refine .option ?_ this
    have e : g.text = spelled false g.name ++ 61 :: g.value := by simp [Given.text, spelled, bs]
    rw [e]
    exact .given h1 h2 (by intro h; cases h) (Or.inl rfl) h3

theorem parse_main (l : List Given) (hl : ∀ g ∈ l, g.Of mainOptions) (name : Str) (hn : Word name) (args : List Str) :
    parse mainOptions (l.map Given.text ++ name :: args) = (.rest (name :: args), writes l) := by
  rw [parse_iff good_main]
  have := given_parses l hl (rest := name :: args) (w := []) (r := name :: args) (by rw [places_main]; exact .rest hn)
  rwa [List.append_nil] at this

theorem parse_main_nil (l : List Given) (hl : ∀ g ∈ l, g.Of mainOptions) : parse mainOptions (l.map Given.text) = (.rest [], writes l) := by
  rw [parse_iff good_main]
  have := given_parses l hl (rest := []) (w := []) (r := []) (by rw [places_main]; exact .none)
  rwa [List.append_nil, List.append_nil] at this

variable (W : World) (l : List Given) (hl : ∀ g ∈ l, g.Of mainOptions) (hv : (sharedAfter l).version = false) (hh : (sharedAfter l).help = false) (args : List Str)

theorem goes_on (name : Option Str) (hv : (sharedAfter l).version = false) (hh : (sharedAfter l).help = false) :
    processShared W.sys none (sharedAfter l) name = none := by
  unfold processShared
  rw [hv, hh]
  rfl

include hl hv hh

theorem main_command (name : Str) (hn : Word name) (c : Command) (hc : findCommand W.emacs (some name) = some c) (hf : c.function = true) :
    main W (l.map Given.text ++ name :: args) = runCommand W c (configOf l) (some name) (sharedAfter l) args := by
  unfold main
  rw [parse_main l hl name hn]
  simp only [List.head?_cons]
  have := goes_on W l (some name) hv hh
  unfold sharedAfter at this
  rw [this]
  simp only
  rw [hc]
  simp only
  rw [if_pos hf]
  rfl

/-- **C59 (reading).**  `search`, `address`, `show`, `count` and `reply` get a database that is open only for reading; if it cannot be opened they are not
run, and the status is 1. -/
theorem C59_readers (name : Str) (hn : name ∈ readers) :
    main W (l.map Given.text ++ name :: args) =
      if W.openDb false (configOf l) then
        ([.openDb false (configOf l), .run (some name) (.database false)], W.run (some name) (.database false) (configOf l) (sharedAfter l) args)
      else ([.openDb false (configOf l)], .exit 1 []) := by
  have key : Word name ∧ ∃ c, findCommand W.emacs (some name) = some c ∧ c.function = true ∧ c.mode = readMode := by
    simp only [readers, List.mem_cons, List.not_mem_nil, or_false] at hn
    rcases hn with rfl | rfl | rfl | rfl | rfl <;> (cases W.emacs <;> refine ⟨by unfold Word; decide +kernel, _, rfl, rfl, rfl⟩)
  obtain ⟨h1, c, h2, h3, h4⟩ := key
  rw [main_command W l hl hv hh args name h1 c h2 h3]
  cases ho : W.openDb false (configOf l) <;> simp [runCommand, openEarly, loadConfig, h4, readMode, ho]

/-- **C59 (writing).**  `insert`, `tag`, `dump`, `restore`, `compact` and `reindex` get a database that is open for writing, so that nobody else writes to
it; if it cannot be opened they are not run, and the status is 1. -/
theorem C59_writers (name : Str) (hn : name ∈ writers) :
    main W (l.map Given.text ++ name :: args) =
      if W.openDb true (configOf l) then
        ([.openDb true (configOf l), .run (some name) (.database true)], W.run (some name) (.database true) (configOf l) (sharedAfter l) args)
      else ([.openDb true (configOf l)], .exit 1 []) := by
  have key : Word name ∧ ∃ c, findCommand W.emacs (some name) = some c ∧ c.function = true ∧ c.mode = writeMode := by
    simp only [writers, List.mem_cons, List.not_mem_nil, or_false] at hn
    rcases hn with rfl | rfl | rfl | rfl | rfl | rfl <;> (cases W.emacs <;> refine ⟨by unfold Word; decide +kernel, _, rfl, rfl, rfl⟩)
  obtain ⟨h1, c, h2, h3, h4⟩ := key
  rw [main_command W l hl hv hh args name h1 c h2 h3]
  cases ho : W.openDb true (configOf l) <;> simp [runCommand, openEarly, loadConfig, h4, writeMode, ho]

/-- **C59 (new).**  `new` makes a database, and if there is one opens it. -/
theorem C59_new :
    main W (l.map Given.text ++ bs "new" :: args) =
      if W.create (configOf l) = .failed then ([.create (configOf l)], .exit 1 [])
      else if W.create (configOf l) = .created then
        ([.create (configOf l), .run (some (bs "new")) (.database true)], W.run (some (bs "new")) (.database true) (configOf l) (sharedAfter l) args)
      else if W.openDb true (configOf l) then
        ([.create (configOf l), .openDb true (configOf l), .run (some (bs "new")) (.database true)], W.run (some (bs "new")) (.database true) (configOf l) (sharedAfter l) args)
      else ([.create (configOf l), .openDb true (configOf l)], .exit 1 []) := by
  have key : Word (bs "new") ∧ ∃ c, findCommand W.emacs (some (bs "new")) = some c ∧ c.function = true ∧ c.mode = newMode := by
    cases W.emacs <;> refine ⟨by unfold Word; decide +kernel, _, rfl, rfl, rfl⟩
  obtain ⟨h1, c, h2, h3, h4⟩ := key
  rw [main_command W l hl hv hh args _ h1 c h2 h3]
  cases hc : W.create (configOf l) <;> cases ho : W.openDb true (configOf l) <;> simp [runCommand, openEarly, loadConfig, h4, newMode, ho, hc]

/-- **C59 (setup, config, help).**  `setup` and `config` get the configuration, and do not open the database for writing; `setup` also runs if there is none;
`help` gets nothing. -/
theorem C59_others :
    main W (l.map Given.text ++ bs "setup" :: args) =
      (if W.load (configOf l) = .failed then ([.load (configOf l)], .exit 1 [])
       else ([.load (configOf l), .run (some (bs "setup")) .config], W.run (some (bs "setup")) .config (configOf l) (sharedAfter l) args)) ∧
    main W (l.map Given.text ++ bs "config" :: args) =
      (if W.load (configOf l) = .failed then ([.load (configOf l)], .exit 1 [])
       else if W.load (configOf l) = .noConfig then ([.load (configOf l)], .exit 0 [])
       else ([.load (configOf l), .run (some (bs "config")) .config], W.run (some (bs "config")) .config (configOf l) (sharedAfter l) args)) ∧
    main W (l.map Given.text ++ bs "help" :: args) =
      ([.run (some (bs "help")) .null], W.run (some (bs "help")) .null (configOf l) (sharedAfter l) args) := by
  refine ⟨?_, ?_, ?_⟩
  · have key : Word (bs "setup") ∧ ∃ c, findCommand W.emacs (some (bs "setup")) = some c ∧ c.function = true ∧ c.mode = configMode := by
      cases W.emacs <;> refine ⟨by unfold Word; decide +kernel, _, rfl, rfl, rfl⟩
    obtain ⟨h1, c, h2, h3, h4⟩ := key
    rw [main_command W l hl hv hh args _ h1 c h2 h3]
    cases ho : W.load (configOf l) <;> simp [runCommand, openEarly, loadConfig, h4, configMode, ho]
  · have key : Word (bs "config") ∧ ∃ c, findCommand W.emacs (some (bs "config")) = some c ∧ c.function = true ∧ c.mode = ⟨false, false, false, false, true⟩ := by
      cases W.emacs <;> refine ⟨by unfold Word; decide +kernel, _, rfl, rfl, rfl⟩
    obtain ⟨h1, c, h2, h3, h4⟩ := key
    rw [main_command W l hl hv hh args _ h1 c h2 h3]
    cases ho : W.load (configOf l) <;> simp [runCommand, openEarly, loadConfig, h4, ho]
  · have key : Word (bs "help") ∧ ∃ c, findCommand W.emacs (some (bs "help")) = some c ∧ c.function = true ∧ c.mode = ⟨false, false, false, true, false⟩ := by
      cases W.emacs <;> refine ⟨by unfold Word; decide +kernel, _, rfl, rfl, rfl⟩
    obtain ⟨h1, c, h2, h3, h4⟩ := key
    rw [main_command W l hl hv hh args _ h1 c h2 h3]
    simp [runCommand, openEarly, loadConfig, h4]

/-- **C59 (no command).**  Without a command: if the configuration is there but no database, it says so; else the same is run whether there is a configuration
or not. -/
theorem C59_none :
    (W.load (configOf l) = .failed → main W (l.map Given.text) = ([.load (configOf l)], .exit 1 [])) ∧
    (W.load (configOf l) = .noDatabase → ∃ out, main W (l.map Given.text) = ([.load (configOf l)], .exit 0 out) ∧ bs "Notmuch is configured, but no database was found.\n" <+: out) ∧
    (W.load (configOf l) = .success ∨ W.load (configOf l) = .noConfig →
      main W (l.map Given.text) = ([.load (configOf l), .run none .config], W.run none .config (configOf l) (sharedAfter l) [])) := by
  have key : main W (l.map Given.text) = runCommand W ⟨none, true, configMode⟩ (configOf l) none (sharedAfter l) [] := by
    unfold main
    rw [parse_main_nil l hl]
    simp only [List.head?_nil, List.tail_nil]
    have := goes_on W l none hv hh
    unfold sharedAfter at this
    rw [this]
    have hc : findCommand W.emacs none = some ⟨none, true, configMode⟩ := by cases W.emacs <;> rfl
    simp only
    rw [hc]
    simp only [if_true]
    rfl
  rw [key]
  refine ⟨?_, ?_, ?_⟩
  · intro ho; simp [runCommand, openEarly, loadConfig, configMode, ho]
  · intro ho
    refine ⟨_, by simp [runCommand, openEarly, loadConfig, configMode, ho]; rfl, ?_⟩
    decide +kernel
  · rintro (ho | ho) <;> simp [runCommand, openEarly, loadConfig, configMode, ho]

/-- **C59 (other programs).**  Any other name is that of a program: `notmuch-name` is run in place of notmuch, with the same arguments, and is told of the
configuration file that was asked for; if there is no such program the status is 1.  The database is not touched. -/
theorem C59_external (name : Str) (hw : Word name) (hn : name ∉ readers ++ writers ++ others) :
    main W (l.map Given.text ++ name :: args) =
      ([], if W.sys.exec ((bs "notmuch-" ++ name) :: args) = .runs then .exec ((bs "notmuch-" ++ name) :: args) (configOf l) else .exit 1 []) := by
  unfold main
  rw [parse_main l hl name hw]
  simp only [List.head?_cons]
  have := goes_on W l (some name) hv hh
  unfold sharedAfter at this
  rw [this]
  simp only [readers, writers, others, List.mem_append, List.mem_cons, List.not_mem_nil, or_false, not_or] at hn
  obtain ⟨⟨⟨r1, r2, r3, r4, r5⟩, w1, w2, w3, w4, w5, w6⟩, o1, o2, o3, o4⟩ := hn
  have hf : findCommand W.emacs (some name) = none ∨ ∃ c, findCommand W.emacs (some name) = some c ∧ c.function = false := by
    have ne : ∀ b : Str, name ≠ b → (decide (some b = some name)) = false := by intro b h; simpa using fun e => h (Eq.symm e)
    unfold findCommand commands
    cases W.emacs
    · left
      simp only [List.cons_append, List.nil_append, List.find?, ne _ r1, ne _ r2, ne _ r3, ne _ r4, ne _ r5, ne _ w1, ne _ w2, ne _ w3, ne _ w4, ne _ w5, ne _ w6, ne _ o1, ne _ o2, ne _ o3, ne _ o4, Bool.false_eq_true, if_false]
      rfl
    · by_cases he : name = bs "emacs-mua"
      · right
        subst he
        exact ⟨_, rfl, rfl⟩
      · left
        simp only [List.cons_append, List.nil_append, List.find?, ne _ r1, ne _ r2, ne _ r3, ne _ r4, ne _ r5, ne _ w1, ne _ w2, ne _ w3, ne _ w4, ne _ w5, ne _ w6, ne _ o1, ne _ o2, ne _ o3, ne _ o4, ne _ he, if_true]
        rfl
  rcases hf with hf | ⟨c, hf, hc⟩
  · simp only [hf]
    rfl
  · simp only [hf, hc, Bool.false_eq_true, if_false]
    rfl

omit hl hv hh

/-- `main` in general: a command of the table is run, or nothing of the library is called. -/
theorem main_cases (argv : List Str) :
    (main W argv).1 = [] ∨ ∃ rest w c, parse mainOptions argv = (.rest rest, w) ∧ (w.foldl Shared.write .init).version = false ∧ (w.foldl Shared.write .init).help = false ∧
      c ∈ commands W.emacs ∧ c.name = rest.head? ∧ c.function = true ∧ main W argv = runCommand W c (stringVar 10 w) rest.head? (w.foldl Shared.write .init) rest.tail := by
  unfold main
  split
  · exact Or.inl rfl
  · exact Or.inl rfl
  · rename_i rest w hp
    simp only
    cases hs : processShared W.sys none (w.foldl Shared.write .init) rest.head? with
    | some e => exact Or.inl rfl
    | none =>
      simp only
      cases hc : findCommand W.emacs rest.head? with
      | none => exact Or.inl rfl
      | some c =>
        simp only
        split
        · rename_i hf
          refine Or.inr ⟨rest, w, c, hp, ?_, ?_, List.mem_of_find?_eq_some hc, by simpa using List.find?_some hc, hf, rfl⟩
          · cases h : (w.foldl Shared.write .init).version with
            | false => rfl
            | true =>
              unfold processShared at hs
              rw [h] at hs
              cases hs
          · cases h : (w.foldl Shared.write .init).help with
            | false => rfl
            | true =>
              unfold processShared at hs
              rw [h] at hs
              split at hs <;> cases hs
        · exact Or.inl rfl

theorem openEarly_reads (m : Mode) (c : Option Str) (h1 : m.write = false) (h2 : m.create = false) :
    (openEarly W m c).1 = [] ∧ (openEarly W m c).2 = some .null ∨
      (openEarly W m c).1 = [.openDb false c] ∧ ((openEarly W m c).2 = none ∨ (openEarly W m c).2 = some (.database false)) := by
  unfold openEarly
  simp only [h1, h2, Bool.or_self, Bool.false_eq_true, if_false, List.nil_append]
  cases m.early with
  | false => left; exact ⟨rfl, rfl⟩
  | true =>
    right
    cases W.openDb false c
    · exact ⟨rfl, Or.inl rfl⟩
    · exact ⟨rfl, Or.inr rfl⟩

theorem loadConfig_reads (m : Mode) (c n : Option Str) : ∀ e ∈ (loadConfig W m c n).1, e = .load c := by
  unfold loadConfig
  split
  · simp
  · split <;> simp

theorem table_writers (emacs : Bool) (c : Command) (hc : c ∈ commands emacs) (hw : c.mode.write = true ∨ c.mode.create = true) :
    ∃ n ∈ bs "new" :: writers, c.name = some n := by
  have key : ∀ emacs, ∀ c ∈ commands emacs, c.mode.write = true ∨ c.mode.create = true → c.name ∈ (bs "new" :: writers).map some := by
    intro emacs
    cases emacs <;> decide +kernel
  have := key emacs c hc hw
  obtain ⟨n, h1, h2⟩ := List.mem_map.1 this
  exact ⟨n, h1, h2.symm⟩

/-- **C59 (locks).**  Whatever the arguments are: the database is not made or opened for writing unless the command is `new`, or one of those that write. -/
theorem C59_locks (argv : List Str) (e : Event) (he : e ∈ (main W argv).1)
    (h : (∃ c, e = .create c) ∨ (∃ c, e = .openDb true c) ∨ ∃ n, e = .run n (.database true)) :
    ∃ name rest w, parse mainOptions argv = (.rest (name :: rest), w) ∧ name ∈ bs "new" :: writers := by
  rcases main_cases W argv with hm | ⟨rest, w, c, hp, _, _, hc, hn, _, hm⟩
  · rw [hm] at he; cases he
  · rw [hm] at he
    have hw : c.mode.write = true ∨ c.mode.create = true := by
      cases h1 : c.mode.write with
      | true => exact Or.inl rfl
      | false =>
        cases h2 : c.mode.create with
        | true => exact Or.inr rfl
        | false =>
          exfalso
          have h3 := openEarly_reads W c.mode (stringVar 10 w) h1 h2
          have h4 := loadConfig_reads W c.mode (stringVar 10 w) rest.head?
          have early : ∀ e ∈ (openEarly W c.mode (stringVar 10 w)).1, e = .openDb false (stringVar 10 w) := by
            rcases h3 with ⟨h3, _⟩ | ⟨h3, _⟩ <;> rw [h3] <;> simp
          have hand : ∀ h, (openEarly W c.mode (stringVar 10 w)).2 = some h → h ≠ .database true := by
            intro h hh
            rcases h3 with ⟨_, h3⟩ | ⟨_, h3 | h3⟩ <;> rw [h3] at hh <;> cases hh <;> simp
          have safe : e = .openDb false (stringVar 10 w) ∨ e = .load (stringVar 10 w) ∨ ∃ n h, e = .run n h ∧ h ≠ .database true := by
            unfold runCommand at he
            generalize openEarly W c.mode (stringVar 10 w) = o at *
            generalize loadConfig W c.mode (stringVar 10 w) rest.head? = ld at *
            obtain ⟨evs, o⟩ := o
            obtain ⟨evs', ld⟩ := ld
            cases o with
            | none => exact Or.inl (early e he)
            | some hd =>
              cases ld with
              | some x =>
                rcases List.mem_append.1 he with he | he
                · exact Or.inl (early e he)
                · exact Or.inr (Or.inl (h4 e he))
              | none =>
                rcases List.mem_append.1 he with he | he
                · rcases List.mem_append.1 he with he | he
                  · exact Or.inl (early e he)
                  · exact Or.inr (Or.inl (h4 e he))
                · refine Or.inr (Or.inr ⟨_, _, List.mem_singleton.1 he, ?_⟩)
                  split
                  · simp
                  · exact hand hd rfl
          rcases safe with rfl | rfl | ⟨n, hd, rfl, hne⟩
          · simp at h
          · simp at h
          · simp only [reduceCtorEq, exists_false, Event.run.injEq, false_or] at h
            obtain ⟨n', _, h⟩ := h
            exact hne h
    obtain ⟨n, h1, h2⟩ := table_writers W.emacs c hc hw
    cases rest with
    | nil => rw [hn] at h2; cases h2
    | cons a rest =>
      rw [hn] at h2
      injection h2 with h2
      exact ⟨a, rest, w, hp, h2 ▸ h1⟩

/-- **C59 (one command).**  Whatever the arguments are: at most one command is run, the one that is named; it is run last, and how it ends is how the process
ends. -/
theorem C59_one (argv : List Str) :
    (∀ n h, Event.run n h ∉ (main W argv).1) ∨
    ∃ rest w evs h, parse mainOptions argv = (.rest rest, w) ∧ (main W argv).1 = evs ++ [.run rest.head? h] ∧ (∀ n h, Event.run n h ∉ evs) ∧
      (main W argv).2 = W.run rest.head? h (stringVar 10 w) (w.foldl Shared.write .init) rest.tail := by
  rcases main_cases W argv with hm | ⟨rest, w, c, hp, _, _, hc, hn, _, hm⟩
  · left; intro n h; rw [hm]; simp
  · rw [hm]
    have h1 : ∀ n h, Event.run n h ∉ (openEarly W c.mode (stringVar 10 w)).1 := by
      intro n h
      unfold openEarly
      split
      · simp
      · simp only
        split
        · split <;> simp
        · split <;> simp
        · split <;> split <;> simp
    have h2 : ∀ n h, Event.run n h ∉ (loadConfig W c.mode (stringVar 10 w) rest.head?).1 := by
      intro n h
      unfold loadConfig
      split
      · simp
      · split <;> simp
    unfold runCommand
    generalize openEarly W c.mode (stringVar 10 w) = o at *
    generalize loadConfig W c.mode (stringVar 10 w) rest.head? = ld at *
    obtain ⟨evs, o⟩ := o
    obtain ⟨evs', ld⟩ := ld
    cases o with
    | none => left; exact h1
    | some h =>
      cases ld with
      | some e =>
        left
        intro n h hm
        rcases List.mem_append.1 hm with hm | hm
        · exact h1 n h hm
        · exact h2 n h hm
      | none =>
        right
        refine ⟨rest, w, evs ++ evs', _, hp, rfl, ?_, rfl⟩
        intro n h hm
        rcases List.mem_append.1 hm with hm | hm
        · exact h1 n h hm
        · exact h2 n h hm

/-- **C59 (version, help).**  With `--version` or `--help` nothing else is done, whatever the command is. -/
theorem C59_version (argv rest : List Str) (w : List Write) (hp : parse mainOptions argv = (.rest rest, w)) :
    ((w.foldl Shared.write .init).version = true → main W argv = ([], .exit 0 (bs "notmuch " ++ W.sys.version ++ bs "\n"))) ∧
    ((w.foldl Shared.write .init).version = false → (w.foldl Shared.write .init).help = true → main W argv = ([], helpFor W.sys rest.head?)) := by
  refine ⟨?_, ?_⟩
  · intro h
    unfold main
    rw [hp]
    simp only [processShared, h, if_true]
  · intro h h'
    unfold main
    rw [hp]
    simp only [processShared, h, h', Bool.false_eq_true, if_false, if_true]

/-- Options that are not there: the status is 1, nothing is done. -/
theorem C59_error (argv : List Str) (hp : ∀ rest w, parse mainOptions argv ≠ (.rest rest, w)) : main W argv = ([], .exit 1 []) := by
  have he : (parse mainOptions argv).1 ≠ .overrun := parseArguments_no_overrun good_main (C53_tables.2.1 mainOptions (by simp [soundTables])) _ _ _
  unfold main
  cases h : parse mainOptions argv with
  | mk r w =>
    cases r with
    | failed => rfl
    | rest r => exact absurd h (hp r w)
    | overrun => rw [h] at he; simp at he

/-- The variable that is written to. -/
def varOf : Write → Nat
  | .bool v _ => v
  | .int v _ => v
  | .keyword v _ => v
  | .setFlags v _ => v
  | .clearFlags v _ => v
  | .string v _ => v
  | .present v => v

theorem sets_var {e : Entry} {neg : Bool} {v : Option Str} {w : Write} (h : Sets e neg v w) : varOf w = e.var := by
  induction h <;> rfl

theorem fold_other {α : Type} (f : α → Write → α) (v : Nat) (hf : ∀ a w, varOf w ≠ v → f a w = a) (ws : List Write) (h : ∀ w ∈ ws, varOf w ≠ v) (a : α) : ws.foldl f a = a := by
  induction ws generalizing a with
  | nil => rfl
  | cons x ws ih => rw [List.foldl_cons, hf a x (h x (by simp)), ih (fun w hw => h w (by simp [hw]))]

theorem boolVar_other (v : Nat) (d : Bool) (ws w : List Write) (h : ∀ x ∈ ws, varOf x ≠ v) : boolVar v d (ws ++ w) = boolVar v d w := by
  unfold boolVar
  rw [List.foldl_append, fold_other _ v _ ws h]
  intro a w hw
  cases w <;> simp_all [varOf]

theorem keywordVar_other (v : Nat) (d : Int) (ws w : List Write) (h : ∀ x ∈ ws, varOf x ≠ v) : keywordVar v d (ws ++ w) = keywordVar v d w := by
  unfold keywordVar
  rw [List.foldl_append, fold_other _ v _ ws h]
  intro a w hw
  cases w <;> simp_all [varOf]

theorem stringVar_other (v : Nat) (ws w : List Write) (h : ∀ x ∈ ws, varOf x ≠ v) : stringVar v (ws ++ w) = stringVar v w := by
  unfold stringVar
  rw [List.foldl_append, fold_other _ v _ ws h]
  intro a w hw
  cases w <;> simp_all [varOf]

theorem stringVar_other' (v : Nat) (ws w : List Write) (h : ∀ x ∈ ws, varOf x ≠ v) : stringVar v (w ++ ws) = stringVar v w := by
  unfold stringVar
  rw [List.foldl_append, fold_other _ v _ ws h]
  intro a w hw
  cases w <;> simp_all [varOf]

/-- If the arguments can be read with settings before them, they can be read without. -/
theorem parses_given {t : List Opt} (hg : Good (entries t)) (k : List Given) (hk : ∀ g ∈ k, g.Of t)
    {args r : List Str} {w : List Write} (h : Parses (entries t) [] (k.map Given.text ++ args) w r) : ∃ w', Parses (entries t) [] args w' r := by
  induction k generalizing w with
  | nil => exact ⟨w, h⟩
  | cons g k ih =>
    obtain ⟨h1, h2, h3⟩ := hk g (by simp)
    have e : g.text = spelled false g.name ++ 61 :: g.value := by simp [Given.text, spelled, bs]
    have e' : g.text = bs "--" ++ (g.name ++ bs "=" ++ g.value) := by simp [Given.text]
    have ht : Takes (entries t) (g.text :: (k.map Given.text ++ args)) (g.write :: present g.entry) (k.map Given.text ++ args) := by
      rw [e]
      exact .given h1 h2 (by intro h; cases h) (Or.inl rfl) h3
    rw [List.map_cons, List.cons_append, e', parses_dashes hg] at h
    rcases h with ⟨h, _⟩ | ⟨_, w1, args', w2, h4, h5, _⟩
    · exact absurd (congrArg List.length h) (by simp [bs])
    · rw [e', ← parseOption_iff hg] at ht
      rw [← parseOption_iff hg, ht] at h4
      have : args' = k.map Given.text ++ args := by
        injection h4 with h4
        injection h4 with h4
        exact h4.symm
      rw [this] at h5
      exact ih (fun g hg => hk g (by simp [hg])) h5

/-- **C59 (shared options).**  Options that all commands share may be given before or after the name of the command, here for `count`. -/
theorem C59_shared (E : Option Str → Count.Env) (hrun : ∀ h c s args, W.run (some (bs "count")) h c s args = Count.countCommand W.sys (E c) s (bs "count") args)
    (k : List Given) (hk : ∀ g ∈ k, g.Of sharedOptions) (hl : ∀ g ∈ l, g.Of mainOptions)
    (hv : (sharedAfter (l ++ k)).version = false) (hh : (sharedAfter (l ++ k)).help = false) (hv' : (sharedAfter l).version = false) (hh' : (sharedAfter l).help = false) :
    main W (l.map Given.text ++ k.map Given.text ++ bs "count" :: args) = main W (l.map Given.text ++ bs "count" :: (k.map Given.text ++ args)) := by
  have incl : ∀ t, Opt.inherit sharedOptions ∈ t → ∀ g : Given, g.Of sharedOptions → g.Of t := by
    intro t ht g hg
    refine ⟨?_, hg.2⟩
    induction t with
    | nil => cases ht
    | cons o t ih =>
      rw [entries, List.mem_append]
      rcases List.mem_cons.1 ht with rfl | ht
      · left; rw [entriesOf]; exact hg.1
      · right; exact ih ht
  have hkm : ∀ g ∈ k, g.Of mainOptions := fun g hg => incl _ (by simp [mainOptions]) g (hk g hg)
  have hkc : ∀ g ∈ k, g.Of countOptions := fun g hg => incl _ (by simp [countOptions]) g (hk g hg)
  rw [← List.map_append, C59_readers W (l ++ k) (by
      intro g hg
      rcases List.mem_append.1 hg with hg | hg
      · exact hl g hg
      · exact hkm g hg) hv hh args _ (by simp [readers]),
    C59_readers W l hl hv' hh' _ _ (by simp [readers])]
  have hvar : ∀ x ∈ writes k, varOf x ≤ 4 := by
    intro x hx
    obtain ⟨g, hg, hm⟩ := List.mem_flatMap.1 hx
    obtain ⟨h1, h2, h3⟩ := hk g hg
    have : ∀ e ∈ entries sharedOptions, e.var ≤ 4 ∧ e.present = none := by decide +kernel
    rcases List.mem_cons.1 hm with hm | hm
    · rw [hm, sets_var h3]; exact (this _ h1).1
    · rw [present, (this _ h1).2] at hm; cases hm
  have hne : ∀ n, 4 < n → ∀ x ∈ writes k, varOf x ≠ n := by
    intro n hn x hx e
    have := hvar x hx
    omega
  have hcfg : configOf (l ++ k) = configOf l := by
    unfold configOf
    have : writes (l ++ k) = writes l ++ writes k := by unfold writes; rw [List.flatMap_append]
    rw [this]
    exact stringVar_other' 10 _ _ (hne 10 (by decide))
  rw [hcfg, hrun, hrun]
  have hcmd : Count.countCommand W.sys (E (configOf l)) (sharedAfter (l ++ k)) (bs "count") args =
      Count.countCommand W.sys (E (configOf l)) (sharedAfter l) (bs "count") (k.map Given.text ++ args) := by
    have hover : ∀ a, (parse countOptions a).1 ≠ .overrun := fun a => parseArguments_no_overrun Count.good_count (C53_tables.2.1 countOptions (by simp [soundTables])) _ _ _
    by_cases hp : ∃ r w, parse countOptions args = (.rest r, w)
    · obtain ⟨r, w, hp⟩ := hp
      have hp' : parse countOptions (k.map Given.text ++ args) = (.rest r, writes k ++ w) := by
        rw [parse_iff Count.good_count] at hp ⊢
        exact given_parses k hkc hp
      unfold Count.countCommand
      rw [hp, hp']
      simp only
      have e1 : (writes k ++ w).foldl Shared.write (sharedAfter l) = w.foldl Shared.write (sharedAfter (l ++ k)) := by
        rw [List.foldl_append]
        congr 1
        unfold sharedAfter writes
        rw [List.flatMap_append, List.foldl_append]
      have e2 : Count.optsOf (writes k ++ w) = Count.optsOf w := by
        unfold Count.optsOf
        rw [keywordVar_other _ _ _ _ (hne 10 (by decide)), boolVar_other _ _ _ _ (hne 11 (by decide)), boolVar_other _ _ _ _ (hne 12 (by decide)),
          boolVar_other _ _ _ _ (hne 13 (by decide)), stringVar_other _ _ _ (hne 14 (by decide))]
      rw [e1, e2]
    · have hp' : ¬∃ r w, parse countOptions (k.map Given.text ++ args) = (.rest r, w) := by
        rintro ⟨r, w, h⟩
        rw [parse_iff Count.good_count, Count.places_count] at h
        obtain ⟨w', h⟩ := parses_given Count.good_count k hkc h
        exact hp ⟨r, w', by rw [parse_iff Count.good_count, Count.places_count]; exact h⟩
      have fail : ∀ (s : Shared) (a : List Str), (¬∃ r w, parse countOptions a = (.rest r, w)) → Count.countCommand W.sys (E (configOf l)) s (bs "count") a = .exit 1 [] := by
        intro s a ha
        unfold Count.countCommand
        cases h : parse countOptions a with
        | mk q w =>
          cases q with
          | failed => rfl
          | rest r => exact absurd ⟨r, w, h⟩ ha
          | overrun => exact absurd (by rw [h]) (hover a)
      rw [fail _ _ hp, fail _ _ hp']
  rw [hcmd]

/-- **C59 (help).**  `notmuch help` prints an overview, `notmuch help help` what help there is, and `notmuch help TOPIC` is the manual page of the topic, which
is also what `notmuch TOPIC --help` is for `count`. -/
theorem C59_help (X : Sys) (topic : Str) (hw : Word topic) (more : List Str) :
    helpCommand X .init [] = .exit 0 (bs "The notmuch mail system.\n\n" ++ X.usage) ∧
    (topic ≠ bs "help" → helpCommand X .init (topic :: more) =
      if X.exec [bs "man", bs "notmuch-" ++ topic] = .runs then .exec [bs "man", bs "notmuch-" ++ topic] none else .exit 1 []) ∧
    helpCommand X .init [bs "--version"] = .exit 0 (bs "notmuch " ++ X.version ++ bs "\n") ∧
    ∀ E : Count.Env, Count.countCommand X E .init (bs "count") [bs "--help"] = helpCommand X .init [bs "count"] := by
  refine ⟨rfl, ?_, rfl, fun E => rfl⟩
  intro ht
  have hp : parse [.inherit sharedOptions] (topic :: more) = (.rest (topic :: more), []) := by
    unfold parse
    show parseArguments _ (more.length + 1) 0 (topic :: more) = _
    rw [parseArguments, if_neg hw]
    rfl
  unfold helpCommand minimalOptions
  rw [hp]
  show helpFor X (some topic) = _
  simp only [helpFor]
  rw [if_neg ht]

/-- **C59 (new users).**  Without a configuration, `notmuch` is `notmuch setup`. -/
theorem C59_new_user (hl : ∀ g ∈ l, g.Of mainOptions) (hv : (sharedAfter l).version = false) (hh : (sharedAfter l).help = false)
    (access : Exec) (hello : Str) (hr : W.run none .config (configOf l) (sharedAfter l) [] = noCommand access (W.run (some (bs "setup")) .config (configOf l) (sharedAfter l) []) hello)
    (h : W.load (configOf l) = .noConfig) (ha : access = .missing) : (main W (l.map Given.text)).2 = (main W (l.map Given.text ++ [bs "setup"])).2 := by
  rw [(C59_none W l hl hv hh).2.2 (Or.inr h), (C59_others W l hl hv hh []).1, h, hr, ha]
  rfl

/-- **Counterexample.**  Without a configuration, `notmuch config` does nothing, and its status is that of success. -/
theorem C59_counterexample_config (hl : ∀ g ∈ l, g.Of mainOptions) (hv : (sharedAfter l).version = false) (hh : (sharedAfter l).help = false)
    (h : W.load (configOf l) = .noConfig) : main W (l.map Given.text ++ bs "config" :: args) = ([.load (configOf l)], .exit 0 []) := by
  rw [(C59_others W l hl hv hh args).2.1, h]
  rfl

/-! ## An example -/

def mWorld : World where
  sys := ⟨bs "1", [], fun a => if a.head? = some (bs "notmuch-git") then .runs else .missing⟩
  emacs := true
  create := fun _ => .exists_
  openDb := fun _ c => decide (c = some (bs "f"))
  load := fun _ => .noConfig
  run := fun n _ _ s args => if n = some (bs "count") then Count.countCommand cSys cEnv s (bs "count") args else .exit 0 []

def mConfig : Given := ⟨⟨.string true, some (bs "config"), 10, none⟩, bs "config", bs "f", .string 10 (bs "f")⟩
def mUuid : Given := ⟨⟨.string false, some (bs "uuid"), 3, none⟩, bs "uuid", bs "v", .string 3 (bs "v")⟩

example : mConfig.Of mainOptions ∧ mUuid.Of sharedOptions := by
  refine ⟨⟨?_, rfl, .string rfl (Or.inl rfl)⟩, ⟨?_, rfl, .string rfl (Or.inr (by decide +kernel))⟩⟩
  · simp [mConfig, mainOptions, entries, entriesOf, stringOpt]
  · simp [mUuid, sharedOptions, entries, entriesOf, stringOpt, boolOpt, keywordOpt]

theorem C59_example :
    main mWorld [bs "--config=f", bs "count", bs "*"] = ([.openDb false (some (bs "f")), .run (some (bs "count")) (.database false)], .exit 0 (bs "2\n")) ∧
    main mWorld [bs "--config=f", bs "--uuid=v", bs "count", bs "*"] = ([.openDb false (some (bs "f")), .run (some (bs "count")) (.database false)], .exit 1 []) ∧
    main mWorld [bs "count", bs "*"] = ([.openDb false none], .exit 1 []) ∧
    main mWorld [bs "--config=f", bs "git", bs "push"] = ([], .exec [bs "notmuch-git", bs "push"] (some (bs "f"))) ∧
    main mWorld [bs "emacs-mua"] = ([], .exit 1 []) ∧
    main mWorld [bs "--config=f", bs "new"] = ([.create (some (bs "f")), .openDb true (some (bs "f")), .run (some (bs "new")) (.database true)], .exit 0 []) ∧
    main mWorld [bs "config", bs "get", bs "user.name"] = ([.load none], .exit 0 []) ∧
    main mWorld [bs "--version", bs "new"] = ([], .exit 0 (bs "notmuch 1\n")) ∧
    main mWorld [bs "--verbose", bs "new"] = ([], .exit 1 []) := by
  refine ⟨?_, ?_, ?_, ?_, ?_, ?_, ?_, ?_, ?_⟩ <;> decide +kernel

end Notmuch.Props
