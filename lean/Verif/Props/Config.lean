import Verif.Proofs.ConfigOpen
import Verif.Proofs.ConfigValues
import Verif.Spec.Compact

/-!
# C51: configuration

The values of a list; where the configuration file and the database are looked for; which value a key has after opening; what a program that sets a key reads
afterwards; and what goes wrong when the database path is named in several places.
-/

namespace Notmuch.Props

open Notmuch.Config
open Notmuch.StringMap Notmuch.StringMapSpec
open Notmuch.StringUtil (stripTrailing)

/-! ## Lists -/

/-- The values of a list are the texts between its separators, without white space at their ends, that are not empty. -/
theorem C51_values (s : Str) : values s = items s := values_eq s

private theorem segments_item : ∀ (a r : Str) (esc : Bool), 59 ∉ a → 92 ∉ a → (a = [] → esc = false) → segments esc (a ++ 59 :: r) = a :: segments false r
  | [], r, esc, _, _, he => by
    rw [he rfl]
    show segments false (59 :: r) = _
    rw [segments, if_pos ⟨rfl, rfl⟩]
  | c :: a, r, esc, h1, h2, _ => by
    rw [List.cons_append, segments, if_neg (fun (h : c = 59 ∧ esc = false) => h1 (h.1 ▸ List.mem_cons_self)),
      segments_item a r (c == 92) (fun h => h1 (List.mem_cons_of_mem _ h)) (fun h => h2 (List.mem_cons_of_mem _ h))
        (fun _ => by rw [beq_eq_false_iff_ne]; intro h; exact h2 (h ▸ List.mem_cons_self))]

private theorem dropWhile_of_head {l : Str} (h : ∀ c, l.head? = some c → isSpace c = false) : l.dropWhile isSpace = l := by
  cases l with
  | nil => rfl
  | cons c l => rw [List.dropWhile_cons_of_neg (by simp [h c rfl])]

/-- Items that are written one after the other, each with a separator, are read back. -/
theorem C51_list_roundtrip (l : List Str)
    (h : ∀ a ∈ l, a ≠ [] ∧ 59 ∉ a ∧ 92 ∉ a ∧ (∀ c, a.head? = some c → isSpace c = false) ∧ (∀ c, a.getLast? = some c → isSpace c = false)) :
    values (l.flatMap (· ++ bs ";")) = l := by
  rw [values_eq]
  have hb : bs ";" = [59] := by decide +kernel
  rw [hb]
  induction l with
  | nil => rfl
  | cons a l ih =>
    obtain ⟨h1, h2, h3, h4, h5⟩ := h a List.mem_cons_self
    have ih := ih (fun b hb => h b (List.mem_cons_of_mem _ hb))
    have htrim : trim a = a := by
      unfold trim
      rw [dropWhile_of_head h4, dropWhile_of_head, List.reverse_reverse]
      intro c hc
      rw [List.head?_reverse] at hc
      exact h5 c hc
    unfold items at ih ⊢
    rw [List.flatMap_cons, List.append_assoc]
    show List.filter _ (List.map trim (segments false (a ++ 59 :: _))) = _
    rw [segments_item a _ false h2 h3 (fun _ => rfl), List.map_cons, htrim, List.filter_cons, if_pos (by simpa using h1)]
    exact congrArg (a :: ·) ih

/-- The hypotheses hold of the tags that are new by default. -/
example : values ([bs "unread", bs "inbox"].flatMap (· ++ bs ";")) = [bs "unread", bs "inbox"] ∧ values (bs " a b ;; c\\;d ; ") = [bs "a b", bs "c\\;d"] := by
  decide +kernel

/-- An item that ends in a backslash swallows the one after it, even if the backslash is itself escaped. -/
theorem C51_counterexample_backslash : ∃ l : List Str, (∀ a ∈ l, a ≠ [] ∧ 59 ∉ a ∧ ∀ c ∈ a, isSpace c = false) ∧ (values (l.flatMap (· ++ bs ";"))).length < l.length := by
  refine ⟨[bs "a\\\\", bs "b"], ?_, ?_⟩ <;> decide +kernel

/-- A value that is not a truth value is never taken for one; no value is false. -/
theorem C51_bool (s : Option Str) :
    (getBool s = some true ↔ ∃ v, s = some v ∧ (v.map toLower = bs "true" ∨ v.map toLower = bs "yes")) ∧
    (getBool s = some false ↔ s = none ∨ ∃ v, s = some v ∧ (v.map toLower = bs "false" ∨ v.map toLower = bs "no")) := by
  cases s with
  | none => simp [getBool]
  | some v =>
    have e1 : (bs "false").map toLower = bs "false" := by decide +kernel
    have e2 : (bs "no").map toLower = bs "no" := by decide +kernel
    have e3 : (bs "true").map toLower = bs "true" := by decide +kernel
    have e4 : (bs "yes").map toLower = bs "yes" := by decide +kernel
    unfold getBool
    simp only [StringUtil.strcaseEqual, e1, e2, e3, e4, Bool.or_eq_true, beq_iff_eq, Option.some.injEq, exists_eq_left', reduceCtorEq, false_or]
    by_cases h : v.map toLower = bs "false" ∨ v.map toLower = bs "no"
    · simp only [h, if_true, Option.some.injEq, Bool.false_eq_true, false_iff, iff_true]
      refine ⟨?_, trivial⟩
      rintro (h' | h') <;> rcases h with h | h <;> rw [h] at h' <;> revert h' <;> decide +kernel
    · simp only [h, if_false]
      by_cases h' : v.map toLower = bs "true" ∨ v.map toLower = bs "yes"
      · simp [h']
      · simp [h']

/-! ## Where things are -/

/-- The directories of notmuch: in that of the variable, or else in the default under the home directory, one for each profile. -/
theorem C51_xdg_directory (e : Env) (var pre : Str) (profile : Option Str) : ∃ base name, xdgDir e var pre profile = base ++ bs "/notmuch/" ++ name ∧
    firstSome [e.get var, some (e.home ++ bs "/" ++ pre)] = some base ∧ firstSome [profile, e.get (bs "NOTMUCH_PROFILE"), some (bs "default")] = some name := by
  refine ⟨_, _, rfl, ?_, ?_⟩
  · cases e.get var <;> rfl
  · cases profile <;> cases e.get (bs "NOTMUCH_PROFILE") <;> rfl

/-- The defaults, as the manual has them. -/
theorem C51_defaults (e : Env) (pwName pwUser : Str) (k : Str) : default e pwName pwUser k =
    ([(bs "search.exclude_tags", some []), (bs "new.tags", some (bs "unread;inbox")), (bs "new.ignore", some []),
      (bs "maildir.synchronize_flags", some (bs "true")), (bs "user.primary_email", firstSome [e.get (bs "EMAIL"), some (pwUser ++ bs "@localhost")]),
      (bs "user.name", firstSome [e.get (bs "NAME"), some pwName]), (bs "database.autocommit", some (bs "8000")),
      (bs "index.as_text", some [])].find? (fun p => k = p.1)).bind (·.2) := by
  have h1 : firstSome [e.get (bs "EMAIL"), some (pwUser ++ bs "@localhost")] = some ((e.get (bs "EMAIL")).getD (pwUser ++ bs "@localhost")) := by
    cases e.get (bs "EMAIL") <;> rfl
  have h2 : firstSome [e.get (bs "NAME"), some pwName] = some ((e.get (bs "NAME")).getD pwName) := by
    cases e.get (bs "NAME") <;> rfl
  rw [h1, h2]
  unfold Config.default
  simp only [List.find?_cons, List.find?_nil]
  repeat' split
  all_goals simp_all

/-- The configuration file: the one that is given, that of NOTMUCH_CONFIG, that of XDG_CONFIG_HOME if it can be read, or that in the home directory. -/
theorem C51_config_file (e : Env) (path profile : Option Str) (readable : Str → Bool) (hp : path ≠ some []) :
    configFile e path profile readable = firstSome
      [path, e.get (bs "NOTMUCH_CONFIG"),
       if readable (xdgDir e (bs "XDG_CONFIG_HOME") (bs ".config") profile ++ bs "/config") then some (xdgDir e (bs "XDG_CONFIG_HOME") (bs ".config") profile ++ bs "/config") else none,
       (firstSome [profile, e.get (bs "NOTMUCH_PROFILE")]).map (fun p => e.home ++ bs "/.notmuch-config." ++ p),
       some (e.home ++ bs "/.notmuch-config")] := by
  have hd : bs "/.notmuch-config." = bs "/.notmuch-config" ++ bs "." := by decide +kernel
  unfold configFile
  rw [if_neg hp, hd]
  cases path with
  | some p => rfl
  | none =>
    cases h : e.get (bs "NOTMUCH_CONFIG") with
    | some p => rfl
    | none =>
      simp only [Option.or_none, firstSome]
      cases hr : readable (xdgDir e (bs "XDG_CONFIG_HOME") (bs ".config") profile ++ bs "/config") with
      | true => rfl
      | false =>
        cases profile with
        | some p => simp [firstSome]
        | none => cases hq : e.get (bs "NOTMUCH_PROFILE") <;> simp [firstSome]

/-- The empty name means that there is none. -/
theorem C51_config_file_none (e : Env) (profile : Option Str) (readable : Str → Bool) : configFile e (some []) profile readable = none := by
  unfold configFile; rw [if_pos rfl]

/-- The database is the first of the places of the manual; it is opened if that is an absolute path of a directory, and no other place is tried if not. -/
theorem C51_database_path (e : Env) (profile file : Option Str) (isDir : Str → Bool) (arg : Option Str) :
    (choosePath e profile file isDir arg).2.1 = firstSome (candidates e profile file isDir arg) ∧
    ((choosePath e profile file isDir arg).1 = .success ↔
      ∃ p, firstSome (candidates e profile file isDir arg) = some p ∧ p.head? = some 47 ∧ isDir p = true) ∧
    ((choosePath e profile file isDir arg).1 = .pathError ↔ ∃ p, firstSome (candidates e profile file isDir arg) = some p ∧ p.head? ≠ some 47) := by
  have key : choosePath e profile file isDir arg =
      ((match firstSome (candidates e profile file isDir arg) with
        | none => Status.noDatabase
        | some p => if !absolute p then .pathError else if !isDir p then .noDatabase else .success),
       firstSome (candidates e profile file isDir arg), (choosePath e profile file isDir arg).2.2) := by
    unfold choosePath candidates
    cases arg with
    | some a =>
      simp only [Option.or_some, Option.isNone_some, Bool.false_and, Bool.false_eq_true, if_false, firstSome]
      split <;> rename_i h <;> (try split) <;> simp_all
      split <;> simp_all
    | none =>
      cases h1 : e.get (bs "NOTMUCH_DATABASE") with
      | some a =>
        simp only [Option.or_some, Option.none_or, Option.isNone_some, Bool.false_and, Bool.false_eq_true, if_false, firstSome]
        split <;> rename_i h <;> (try split) <;> simp_all
        split <;> simp_all
      | none =>
        cases file with
        | some f =>
          simp only [Option.or_some, Option.or_none, Option.map_some, Option.isNone_none, if_true, Option.isNone_some, Bool.false_and, Bool.false_eq_true, if_false, firstSome]
          split <;> rename_i h <;> (try split) <;> simp_all
          split <;> simp_all
        | none =>
          simp only [Option.or_none, Option.none_or, Option.map_none, Option.isNone_none, if_true, Bool.true_and, firstSome]
          cases h2 : isDir (xdgDir e (bs "XDG_DATA_HOME") (bs ".local/share") profile) with
          | true =>
            simp only [if_true, Option.or_some, Option.isNone_some, Bool.false_and, Bool.false_eq_true, if_false, firstSome]
            split <;> rename_i h <;> (try split) <;> simp_all
          | false =>
            simp only [Bool.false_eq_true, if_false, Option.none_or, firstSome]
            cases h3 : e.get (bs "MAILDIR") with
            | some a =>
              simp only [Option.isNone_some, Bool.false_and, Bool.false_eq_true, if_false, firstSome]
              split <;> rename_i h <;> (try split) <;> simp_all
            | none =>
              simp only [Option.isNone_none, Bool.true_and, firstSome]
              cases h4 : isDir (e.home ++ bs "/mail") with
              | true =>
                simp only [if_true, firstSome]
                split <;> rename_i h <;> (try split) <;> simp_all
              | false => simp [firstSome]
  rw [key]
  refine ⟨rfl, ?_, ?_⟩
  · show (match firstSome (candidates e profile file isDir arg) with
        | none => Status.noDatabase
        | some p => if !absolute p then .pathError else if !isDir p then .noDatabase else .success) = .success ↔ _
    cases firstSome (candidates e profile file isDir arg) with
    | none => simp
    | some p =>
      by_cases h1 : p.head? = some 47 <;> by_cases h2 : isDir p = true <;> simp [absolute, h1, h2]
  · show (match firstSome (candidates e profile file isDir arg) with
        | none => Status.noDatabase
        | some p => if !absolute p then .pathError else if !isDir p then .noDatabase else .success) = .pathError ↔ _
    cases firstSome (candidates e profile file isDir arg) with
    | none => simp
    | some p =>
      by_cases h1 : p.head? = some 47 <;> by_cases h2 : isDir p = true <;> simp [absolute, h1, h2]

/-- A database that was created is the one that is opened afterwards, with the same arguments and environment. -/
theorem C51_create_open (e : Env) (profile file : Option Str) (mkdir isDir : Str → Bool) (arg : Option Str) (p : Str) (split : Bool)
    (h : createPath e profile file mkdir arg = (.success, p, split)) (hd : isDir p = true) :
    choosePath e profile file isDir arg = (.success, some p, split) := by
  have hsucc : ∀ (q : Str) (s : Bool), (if !absolute q then (Status.pathError, q, s) else if !mkdir q then (.fileError, q, s) else (.success, q, s)) = (.success, p, split) →
      q = p ∧ s = split ∧ absolute p = true := by
    intro q s hh
    split at hh
    · cases hh
    · split at hh
      · cases hh
      · rename_i ha _
        cases hh
        exact ⟨rfl, rfl, by simpa using ha⟩
  unfold createPath at h
  unfold choosePath
  cases arg with
  | some a =>
    obtain ⟨rfl, rfl, ha⟩ := hsucc _ _ h
    simp [ha, hd] at *
    simp_all
  | none =>
    cases h1 : e.get (bs "NOTMUCH_DATABASE") with
    | some a =>
      simp only [h1] at h
      obtain ⟨rfl, rfl, ha⟩ := hsucc _ _ h
      simp [ha, hd] at *
      simp_all
    | none =>
      simp only [h1] at h
      cases file with
      | some f =>
        obtain ⟨rfl, rfl, ha⟩ := hsucc _ _ h
        simp at ha hd
        simp [ha, hd]
      | none =>
        obtain ⟨rfl, rfl, ha⟩ := hsucc _ _ h
        simp at ha hd
        simp [ha, hd]

/-! ## The value of a key -/

/-- After opening, every key has the value that the file gives it, else the one that the database gives it, else its default (database.path: a path that was given
comes first, and the place where the database was found comes last). -/
theorem C51_value (qs : List Pair → List Pair) (hq : QSort cmppair qs) (o : Opening) (hnd : (o.mdata.map (·.1)).Nodup)
    (ha : o.arg = true ∨ bs "database.path" ∉ o.mdata.map (·.1)) :
    ∃ m, openConfig qs o = some m ∧ ∀ k, (StringMap.get qs m k).map (·.2) = some (value o k) := by
  obtain ⟨m, e, h⟩ := rep_open hq o hnd ha
  refine ⟨m, e, fun k => ?_⟩
  obtain ⟨m', hg, _⟩ := rep_get hq h k
  rw [hg]
  rfl

private theorem mem_setMeta {mdata : List (Str × Str)} {k v : Str} {x : Str × Str} (h : x ∈ setMeta mdata k v) : (x ∈ mdata ∧ x.1 ≠ k) ∨ x = (k, v) := by
  unfold setMeta at h
  rcases List.mem_append.1 h with h | h
  · left; simpa using h
  · right
    split at h
    · cases h
    · simpa using h

private theorem setMeta_nodup {mdata : List (Str × Str)} (k v : Str) (h : (mdata.map (·.1)).Nodup) : ((setMeta mdata k v).map (·.1)).Nodup := by
  unfold setMeta
  rw [List.map_append, List.nodup_append]
  refine ⟨(List.filter_sublist.map _).nodup h, by split <;> simp, ?_⟩
  intro a ha b hb hab
  obtain ⟨x, hx, rfl⟩ := List.mem_map.1 ha
  split at hb
  · simp at hb
  · have : b = k := by simpa using hb
    rw [List.mem_filter] at hx
    have := hx.2
    simp_all

private theorem dbValue_setMeta (mdata : List (Str × Str)) (k v k' : Str) :
    dbValue (setMeta mdata k v) k' = if k' = k then (if v = [] then none else some v) else dbValue mdata k' := by
  unfold dbValue setMeta
  rw [List.find?_append, List.find?_filter]
  by_cases hk : k' = k
  · subst hk
    have : List.find? (fun a => decide (a.1 ≠ k') && decide (a.1 = k')) mdata = none := by
      rw [List.find?_eq_none]
      intro x _
      by_cases hx : x.1 = k' <;> simp [hx]
    rw [if_pos rfl]
    rw [show (List.find? (fun a => decide (decide (a.1 ≠ k') = true ∧ decide (a.1 = k') = true)) mdata) = none from by
      rw [List.find?_eq_none]
      intro x _
      by_cases hx : x.1 = k' <;> simp [hx]]
    by_cases hv : v = []
    · simp [hv]
    · simp [hv]
  · rw [if_neg hk]
    have e : (fun a : Str × Str => decide (decide (a.1 ≠ k) = true ∧ decide (a.1 = k') = true)) = (fun a => decide (a.1 = k')) := by
      funext a
      by_cases ha : a.1 = k'
      · have : a.1 ≠ k := fun h => hk (ha ▸ h)
        simp [ha, hk]
      · simp [ha]
    rw [e]
    have : List.find? (fun x : Str × Str => decide (x.1 = k')) (if v = [] then [] else [(k, v)]) = none := by
      rw [List.find?_eq_none]
      intro x hx
      split at hx
      · cases hx
      · obtain rfl : x = (k, v) := by simpa using hx
        simpa using fun h => hk h.symm
    rw [this, Option.or_none]

/-- A program reads what it wrote, and nothing else changes. -/
theorem C51_set_get (qs : List Pair → List Pair) (hq : QSort cmppair qs) (o : Opening) (hnd : (o.mdata.map (·.1)).Nodup)
    (ha : o.arg = true ∨ bs "database.path" ∉ o.mdata.map (·.1)) (m : Map) (ho : openConfig qs o = some m) (k v : Str) :
    ∃ m' mdata', setConfig qs m o.mdata k v = some (m', mdata') ∧ getConfig qs m' k = some v ∧ ∀ k', k' ≠ k → getConfig qs m' k' = getConfig qs m k' := by
  obtain ⟨m0, e, h⟩ := rep_open hq o hnd ha
  rw [ho] at e
  cases e
  obtain ⟨m', hs, h'⟩ := rep_set hq h k v
  refine ⟨m', setMeta o.mdata k v, by unfold setConfig; rw [hs]; rfl, ?_, ?_⟩
  · obtain ⟨m2, hg, _⟩ := rep_get hq h' k
    unfold getConfig
    rw [hg]
    simp [put]
  · intro k' hk
    obtain ⟨m2, hg, _⟩ := rep_get hq h' k'
    obtain ⟨m3, hg3, _⟩ := rep_get hq h k'
    unfold getConfig
    rw [hg, hg3]
    simp [put, hk]

/-- Who opens the database after that gets the value, too, unless the configuration file has one, and nothing else changes (for keys other than database.path; the
empty value is the default). -/
theorem C51_set_reopen (qs : List Pair → List Pair) (hq : QSort cmppair qs) (o : Opening) (hnd : (o.mdata.map (·.1)).Nodup)
    (ha : o.arg = true ∨ bs "database.path" ∉ o.mdata.map (·.1)) (m m' : Map) (mdata' : List (Str × Str)) (k v : Str) (hk : k ≠ bs "database.path")
    (hs : setConfig qs m o.mdata k v = some (m', mdata')) :
    ∃ m2, openConfig qs { o with mdata := mdata' } = some m2 ∧
      (v ≠ [] → fileValue o.file k = none → getConfig qs m2 k = some (expandPath o.env k v)) ∧
      (∀ w, fileValue o.file k = some w → getConfig qs m2 k = some (expandPath o.env k w)) ∧
      (∀ k', k' ≠ k → (StringMap.get qs m2 k').map (·.2) = some (value o k')) := by
  have hm : mdata' = setMeta o.mdata k v := by
    unfold setConfig at hs
    cases hx : StringMap.set qs m k v with
    | none => rw [hx] at hs; cases hs
    | some y => rw [hx] at hs; cases hs; rfl
  subst hm
  obtain ⟨m2, e2, h2⟩ := rep_open hq { o with mdata := setMeta o.mdata k v } (setMeta_nodup k v hnd) (by
    rcases ha with h | h
    · exact Or.inl h
    · right
      intro hmem
      obtain ⟨x, hx, hxe⟩ := List.mem_map.1 hmem
      rcases mem_setMeta hx with ⟨h1, _⟩ | h1
      · exact h (List.mem_map.2 ⟨x, h1, hxe⟩)
      · rw [h1] at hxe; exact hk hxe)
  have hconf : ∀ k', k' ≠ k → configured { o with mdata := setMeta o.mdata k v } k' = configured o k' := by
    intro k' hk'
    unfold configured
    simp only [dbValue_setMeta, hk', if_false]
  refine ⟨m2, e2, ?_, ?_, ?_⟩
  · intro hv hf
    obtain ⟨m3, hg, _⟩ := rep_get hq h2 k
    unfold getConfig
    rw [hg]
    simp only [Option.map_some, value, configured, hk, false_and, if_false, hf, Option.map_none, dbValue_setMeta, if_true, hv, firstSome, Option.getD_some]
  · intro w hf
    obtain ⟨m3, hg, _⟩ := rep_get hq h2 k
    unfold getConfig
    rw [hg]
    simp only [Option.map_some, value, configured, hk, false_and, if_false, hf, firstSome, Option.getD_some]
  · intro k' hk'
    obtain ⟨m3, hg, _⟩ := rep_get hq h2 k'
    rw [hg]
    simp only [Option.map_some, value, hconf k' hk', hconf (bs "database.path") (fun h => hk h.symm)]

/-! ## Examples and counterexamples -/

private def exEnv (l : List (Str × Str)) : Env := ⟨bs "/h", fun k => (l.find? (fun x => x.1 = k)).map (·.2)⟩

private def exOpen (arg : Bool) (path : Str) (file : List (Str × Str × Str)) (mdata : List (Str × Str)) : Opening :=
  ⟨exEnv [], none, arg, path, stripTrailing path 47 ++ bs "/xapian", file, mdata, fun _ => false, bs "Ann", bs "ann"⟩

private theorem some_getD {x : Option Map} (h : x.isSome = true) : x = some (x.getD create) := by
  cases x with
  | none => cases h
  | some y => rfl

private def exO : Opening := exOpen false (bs "/a/") [(bs "user", bs "name", bs "Bob")] [(bs "new.tags", bs "new"), (bs "user.name", bs "Eve")]

/-- The hypotheses of the theorems hold of a database with configuration in both places. -/
example : (exO.mdata.map (·.1)).Nodup ∧ (exO.arg = true ∨ bs "database.path" ∉ exO.mdata.map (·.1)) ∧ value exO (bs "user.name") = some (bs "Bob") ∧
    value exO (bs "new.tags") = some (bs "new") ∧ value exO (bs "database.path") = some (bs "/a") ∧ value exO (bs "database.mail_root") = some (bs "/a") ∧
    value exO (bs "database.autocommit") = some (bs "8000") ∧ value exO (bs "database.hook_dir") = some (bs "/a/hooks") := by
  refine ⟨?_, ?_, ?_, ?_, ?_, ?_, ?_, ?_⟩ <;> decide +kernel

/-- database.path in the database, and none in the file or as an argument: the map has two values, and which one is read depends on how they compare; opened at /b,
a handle can say that its database is /a. -/
theorem C51_counterexample_duplicate : ∃ (o : Opening) (m : Map), (o.mdata.map (·.1)).Nodup ∧ openConfig exSort o = some m ∧
    o.path = bs "/b" ∧ getConfig exSort m (bs "database.path") = some (bs "/a") ∧
    ∃ (o' : Opening) (m' : Map), openConfig exSort o' = some m' ∧ o'.mdata = o.mdata ∧ o'.path = bs "/Z" ∧ getConfig exSort m' (bs "database.path") = some (bs "/Z") := by
  refine ⟨exOpen false (bs "/b") [] [(bs "database.path", bs "/a")], (openConfig exSort (exOpen false (bs "/b") [] [(bs "database.path", bs "/a")])).getD create,
    ?_, some_getD ?_, rfl, ?_, exOpen false (bs "/Z") [] [(bs "database.path", bs "/a")],
    (openConfig exSort (exOpen false (bs "/Z") [] [(bs "database.path", bs "/a")])).getD create, some_getD ?_, rfl, rfl, ?_⟩ <;> decide +kernel

/-- NOTMUCH_DATABASE and database.path in the file: the first is opened, but the handle says that its database is the second. -/
theorem C51_counterexample_env : ∃ (o : Opening) (m : Map), choosePath o.env o.profile (some (bs "/b")) (fun _ => true) none = (.success, some o.path, false) ∧
    o.arg = false ∧ o.file = [(bs "database", bs "path", bs "/b")] ∧ o.path = bs "/a" ∧ openConfig exSort o = some m ∧
    getConfig exSort m (bs "database.path") = some (bs "/b") ∧ getConfig exSort m (bs "database.mail_root") = some (bs "/b") := by
  refine ⟨{ exOpen false (bs "/a") [(bs "database", bs "path", bs "/b")] [] with env := exEnv [(bs "NOTMUCH_DATABASE", bs "/a")] },
    (openConfig exSort { exOpen false (bs "/a") [(bs "database", bs "path", bs "/b")] [] with env := exEnv [(bs "NOTMUCH_DATABASE", bs "/a")] }).getD create,
    ?_, rfl, rfl, rfl, some_getD ?_, ?_, ?_⟩ <;> decide +kernel

section
open Notmuch.Compact (World Args Step Run upd renamed emptyAt)

private def cA : Args := ⟨bs "/b/xapian", none⟩
private def cW0 : World := ⟨fun p => if p = bs "/a/xapian" then some 0 else if p = bs "/b/xapian" then some 1 else none, fun i => if i = 0 then [1] else if i = 1 then [2] else [], fun _ => []⟩
private def cW1 : World := { cW0 with fs := upd cW0.fs cA.compactPath (some 2), dir := upd cW0.dir 2 [] }
private def cW2 : World := { cW1 with dir := upd cW1.dir 2 [1] }
private def cW3 : World := renamed cW2 cA.path cA.backupPath
private def cW4 : World := renamed cW3 cA.compactPath cA.path
private def cW5 : World := { cW4 with dir := upd cW4.dir 1 ((cW4.dir 1).filter (· ≠ 2)) }
private def cW6 : World := { cW5 with fs := upd cW5.fs cA.backupPath none }

/-- Such a handle, compacted (`notmuch compact` takes the place from database.path): the database at /b is replaced by a copy of that at /a and its contents
are deleted, and the compaction succeeds. -/
theorem C51_counterexample_compact : ∃ (a : Args) (w w' : World), w.fs (bs "/a/xapian") = some 0 ∧ w.dir 0 = [1] ∧ a.path = bs "/b/xapian" ∧ w.fs a.path = some 1 ∧ w.dir 1 = [2] ∧
    Run (fun c c' => c' = c ∧ c ≠ []) a 0 (w, .stat) (w', .done true) ∧ ∀ p i, w'.fs p = some i → w'.dir i ≠ [2] := by
  have e1 : cW1.fs cA.compactPath = some 2 := by decide +kernel
  refine ⟨cA, cW0, cW6, by decide +kernel, by decide +kernel, rfl, by decide +kernel, by decide +kernel, ?_, ?_⟩
  · have fresh : ∀ p, cW0.fs p ≠ some 2 := by
      intro p
      show (if p = bs "/a/xapian" then some 0 else if p = bs "/b/xapian" then some 1 else none) ≠ some 2
      repeat' split
      all_goals simp
    have r0 : Run (fun c c' => c' = c ∧ c ≠ []) cA 0 (cW0, .stat) (cW0, .compact) :=
      .step (.step (.refl _) (.absent (by decide +kernel))) .cleaned
    have r1 : Run (fun c c' => c' = c ∧ c ≠ []) cA 0 (cW0, .stat) (cW2, .compact) :=
      .step (.step r0 (u := (cW1, .compact)) (.compactMkdir 2 (by decide +kernel) fresh (by decide) rfl)) (.compactWrite (i := 2) [1] e1)
    have r2 : Run (fun c c' => c' = c ∧ c ≠ []) cA 0 (cW0, .stat) (cW2, .moveOld) :=
      .step r1 (.compacted (i := 2) (by decide +kernel) (by decide +kernel))
    have r3 : Run (fun c c' => c' = c ∧ c ≠ []) cA 0 (cW0, .stat) (cW3, .moveNew) :=
      .step r2 (.movedOld (i := 1) (by decide +kernel) (by
        intro i hi
        have : cW2.fs cA.backupPath = none := by decide +kernel
        rw [this] at hi; cases hi))
    have r4 : Run (fun c c' => c' = c ∧ c ≠ []) cA 0 (cW0, .stat) (cW4, .remove) :=
      .step r3 (.movedNew (i := 2) (by decide +kernel) (by
        intro i hi
        have : cW3.fs cA.path = none := by decide +kernel
        rw [this] at hi; cases hi))
    have r5 : Run (fun c c' => c' = c ∧ c ≠ []) cA 0 (cW0, .stat) (cW5, .remove) :=
      .step r4 (.removeFile (i := 1) 2 rfl (by decide +kernel))
    refine .step r5 (.removeDir rfl (by
      intro i hi
      have : cW5.fs cA.backupPath = some 1 := by decide +kernel
      rw [this] at hi; cases hi; decide +kernel))
  · intro p i _
    show (if i = 1 then (cW4.dir 1).filter (· ≠ 2) else if i = 2 then [1] else if i = 2 then [] else if i = 0 then [1] else if i = 1 then [2] else []) ≠ [2]
    have h4 : (cW4.dir 1).filter (· ≠ 2) = [] := by decide +kernel
    rw [h4]
    repeat' split
    all_goals simp_all

end

/-- A relative database.backup_dir is not taken from the home directory, unlike the other directories. -/
theorem C51_counterexample_backup_dir : ∃ (o : Opening) (m : Map), openConfig exSort o = some m ∧
    o.file = [(bs "database", bs "hook_dir", bs "x"), (bs "database", bs "backup_dir", bs "y")] ∧
    getConfig exSort m (bs "database.hook_dir") = some (bs "/h/x") ∧ getConfig exSort m (bs "database.backup_dir") = some (bs "y") := by
  refine ⟨exOpen true (bs "/a") [(bs "database", bs "hook_dir", bs "x"), (bs "database", bs "backup_dir", bs "y")] [],
    (openConfig exSort (exOpen true (bs "/a") [(bs "database", bs "hook_dir", bs "x"), (bs "database", bs "backup_dir", bs "y")] [])).getD create, some_getD ?_, rfl, ?_, ?_⟩ <;> decide +kernel

end Notmuch.Props
