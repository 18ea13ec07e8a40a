import Verif.Props.NewFront
import Verif.Proofs.NewEx

/-! # C67: concrete cases -/

namespace Notmuch.Props
open Notmuch.NewFront
open Notmuch.New (Path Env Db Visible Scanned Mail Sane DbOk Fresh DirsOk Fired newCommand)

/-! ## Concrete cases -/

/-- A stand-in for `regcomp` and `regexec`: `(` alone does not compile, and other expressions match where they occur. -/
def frontComp (r : Str) : Option (Str → Bool) := if r = bs "(" then none else some (fun s => decide (r <:+: s))

def frontIgnore : List Str := [bs "notes", bs "/cur/x/"]

example : (∀ v ∈ frontIgnore, Allowed frontComp v) ∧ (setupIgnore frontComp frontIgnore ⟨[], []⟩).isSome := by
  have h : (setupIgnore frontComp frontIgnore ⟨[], []⟩).isSome := by decide
  exact ⟨(C67_ignore_accepted _ _).1 h, h⟩

/-- Values that are refused: empty, slashes with nothing between, no slash at the end, an expression that does not compile. -/
example : ([[], bs "/", bs "//", bs "/x", bs "/(/"].map (fun v => (setupIgnore frontComp [bs "notes", v] ⟨[], []⟩).isSome)) = [false, false, false, false, false] := by decide

/-- A mail store with a file and a file below an ignored name, a file that an expression matches, one in `.notmuch`, and a maildir with a file in `tmp`. -/
def frontTree : New.Fs :=
  New.tree [([], [bs "a", bs "notes", bs ".notmuch", bs "cur", bs "box"], 5), ([bs "notes"], [bs "n"], 5), ([bs ".notmuch"], [bs "db"], 5), ([bs "cur"], [bs "m", bs "x1"], 6),
    ([bs "box"], [bs "new", bs "cur", bs "tmp"], 5), ([bs "box", bs "new"], [bs "k"], 5), ([bs "box", bs "cur"], [], 5), ([bs "box", bs "tmp"], [bs "t"], 5)]
    [[bs "a"], [bs "notes", bs "n"], [bs ".notmuch", bs "db"], [bs "cur", bs "m"], [bs "cur", bs "x1"], [bs "box", bs "new", bs "k"], [bs "box", bs "tmp", bs "t"]] 1

def frontIg : Ignore := (setupIgnore frontComp frontIgnore ⟨[], []⟩).getD ⟨[], []⟩

theorem frontIg_eq : setupIgnore frontComp frontIgnore ⟨[], []⟩ = some frontIg := by
  have h : (setupIgnore frontComp frontIgnore ⟨[], []⟩).isSome := by decide
  unfold frontIg
  cases hs : setupIgnore frontComp frontIgnore ⟨[], []⟩ with
  | none => rw [hs] at h; cases h
  | some x => rfl

def frontEnv : Env := { New.envOf frontTree 10 with ignored := ignoredBy frontIg (bs "/mail") }

theorem frontEnv_sane : Sane frontEnv := by
  have h := New.sane_tree [([], [bs "a", bs "notes", bs ".notmuch", bs "cur", bs "box"], 5), ([bs "notes"], [bs "n"], 5), ([bs ".notmuch"], [bs "db"], 5), ([bs "cur"], [bs "m", bs "x1"], 6),
    ([bs "box"], [bs "new", bs "cur", bs "tmp"], 5), ([bs "box", bs "new"], [bs "k"], 5), ([bs "box", bs "cur"], [], 5), ([bs "box", bs "tmp"], [bs "t"], 5)]
    [[bs "a"], [bs "notes", bs "n"], [bs ".notmuch", bs "db"], [bs "cur", bs "m"], [bs "cur", bs "x1"], [bs "box", bs "new", bs "k"], [bs "box", bs "tmp", bs "t"]] 1 10
    (by decide +kernel) (by decide +kernel) (by decide +kernel)
  refine ⟨⟨h.env.1, h.env.2, h.env.3, h.env.4⟩, h.mtime, fun p n hl _ => ?_⟩
  exact absurd hl (by show (3 : Nat) ≠ 2; decide)

theorem frontEnv_names : ∀ p, ∀ n ∈ frontEnv.fs.list p, NameOk n := by
  intro p n h
  have e : ∀ d ∈ [([], [bs "a", bs "notes", bs ".notmuch", bs "cur", bs "box"], 5), ([bs "notes"], [bs "n"], 5), ([bs ".notmuch"], [bs "db"], 5), ([bs "cur"], [bs "m", bs "x1"], 6),
    ([bs "box"], [bs "new", bs "cur", bs "tmp"], 5), ([bs "box", bs "new"], [bs "k"], 5), ([bs "box", bs "cur"], [], 5), ([bs "box", bs "tmp"], [bs "t"], (5 : Nat))],
    ∀ n ∈ d.2.1, n ≠ [] ∧ (47 : UInt8) ∉ n := by decide +kernel
  change n ∈ (((List.find? (fun d : Path × List Str × Nat => decide (d.1 = p)) _).map (·.2.1)).getD []) at h
  revert h
  cases hf : List.find? (fun d : Path × List Str × Nat => decide (d.1 = p)) _ with
  | none => simp
  | some d => exact fun h => e d (List.mem_of_find?_eq_some hf) n h

/-- What the first run adds: `a`, `cur/m` and `box/new/k`. -/
example : ∃ st, newCommand frontEnv 6 New.emptyDb none = some (true, st) ∧ ¬ Fired st ∧
    st.db.files [] = [bs "a"] ∧ st.db.files [bs "cur"] = [bs "m"] ∧ st.db.files [bs "notes"] = [] ∧ st.db.files [bs "box", bs "new"] = [bs "k"] ∧
    st.db.files [bs "box", bs "tmp"] = [] ∧ DbOk New.emptyDb ∧ Fresh frontEnv New.emptyDb ∧ DirsOk frontEnv New.emptyDb ∧
    (∀ v ∈ frontIgnore, ¬ Hits frontComp v [bs "cur"] (bs "m")) ∧ Hits frontComp (bs "/cur/x/") [bs "cur"] (bs "x1") := by
  obtain ⟨ok, st, h, hv⟩ := New.run_of (o := newCommand frontEnv 6 New.emptyDb none)
    (f := fun r => (r.1, r.2.intr, [r.2.db.files [], r.2.db.files [bs "cur"], r.2.db.files [bs "notes"], r.2.db.files [bs "box", bs "new"], r.2.db.files [bs "box", bs "tmp"]]))
    (v := (true, none, [[bs "a"], [bs "m"], [], [bs "k"], []])) (by decide +kernel)
  simp only [Prod.mk.injEq, List.cons.injEq, and_true] at hv
  obtain ⟨rfl, h1, h2, h3, h4, h5, h6⟩ := hv
  have hd : DirsOk frontEnv New.emptyDb := by intro p c _ hc; simp [New.emptyDb] at hc
  have hf : ¬ Fired st := by rw [Fired, h1]; simp
  refine ⟨st, h, hf, h2, h3, h4, h5, h6, New.dbOk_empty, New.fresh_empty _, hd, fun v hv => ?_, .inr ⟨bs "cur/x", _, by decide, rfl, by decide⟩⟩
  exact (C67_left_out frontIg_eq frontEnv_sane rfl frontEnv_names New.dbOk_empty (New.fresh_empty _) hd h hf (by rw [h3]; simp) hv).1

/-- The number shown before it is 4: the file in the `tmp` of a maildir is counted though it will not be added. -/
theorem C67_count_tmp : ∃ st, countFiles frontEnv 6 [] ⟨0, none⟩ = some st ∧ st.count = 4 ∧ st.intr ≠ some 0 ∧
    Counted frontEnv [bs "box", bs "tmp"] (bs "t") ∧ ¬ Visible frontEnv [bs "box", bs "tmp"] (bs "t") := by
  obtain ⟨st, h, hv⟩ : ∃ st, countFiles frontEnv 6 [] ⟨0, none⟩ = some st ∧ (st.count, st.intr) = (4, none) := by
    have : (countFiles frontEnv 6 [] ⟨0, none⟩).map (fun s => (s.count, s.intr)) = some (4, none) := by decide +kernel
    cases hs : countFiles frontEnv 6 [] ⟨0, none⟩ with
    | none => rw [hs] at this; cases this
    | some st => rw [hs] at this; exact ⟨st, rfl, by simpa using this⟩
  simp only [Prod.mk.injEq] at hv
  refine ⟨st, h, hv.1, by rw [hv.2]; simp, ⟨?_, ?_, ?_⟩, fun hh => ?_⟩
  · have h1 : CountedDir frontEnv ([] ++ [bs "box"]) := .sub .root ⟨⟨by decide +kernel, by decide, by decide, by decide +kernel⟩, by decide⟩ (by decide +kernel)
    exact .sub h1 ⟨⟨by decide +kernel, by decide, by decide, by decide +kernel⟩, by decide⟩ (by decide +kernel)
  · exact ⟨⟨by decide +kernel, by decide, by decide, by decide +kernel⟩, by decide⟩
  · decide +kernel
  · have hs := hh.1
    generalize hq : [bs "box", bs "tmp"] = q at hs
    cases hs with
    | root _ => simp at hq
    | @sub p n _ _ _ h4 _ =>
      obtain ⟨e1, e2⟩ := List.append_inj' (show [bs "box"] ++ [bs "tmp"] = p ++ [n] from hq) rfl
      injection e2 with e2 _
      subst e1; subst e2
      exact h4 ⟨fun n hn => by rcases hn with rfl | rfl | rfl <;> decide +kernel, rfl⟩

def frontName (dir : String) (fl : Option Str) : MaildirSpec.Name := ⟨bs "/mail/box", bs dir, bs "k", fl⟩

theorem frontName_ok (fl : Option Str) (h : ∀ f, fl = some f → 47 ∉ f) : (frontName "cur" fl).Ok ∧ ¬ MaildirSpec.sep <:+: (frontName "cur" fl).pre :=
  ⟨⟨.inl rfl, by show (47 : UInt8) ∉ bs "k"; decide +kernel, h, by show ¬ MaildirSpec.sep <:+: bs "k"; decide +kernel⟩, by show ¬ MaildirSpec.sep <:+: bs "/mail/box"; decide +kernel⟩

/-- A file that has been seen and replied to, with `new.tags` of `unread;inbox`. -/
example : tagsOfNew true [bs "unread", bs "inbox"] [(frontName "cur" (some (bs "RS"))).path] [] = [bs "replied", bs "inbox"] ∧
    tagsOfNew false [bs "unread", bs "inbox"] [(frontName "cur" (some (bs "RS"))).path] [] = [bs "inbox"] ∧
    (frontName "cur" (some (bs "RS"))).Ok ∧ ¬ MaildirSpec.sep <:+: (frontName "cur" (some (bs "RS"))).pre :=
  ⟨by decide +kernel, by decide +kernel, frontName_ok _ (by decide)⟩

/-- And one that has no flags. -/
example : tagsOfNew true [bs "unread", bs "inbox"] [(frontName "cur" none).path] [] = [bs "unread", bs "inbox"] ∧
    tagsOfNew true [bs "inbox"] [(frontName "cur" none).path] [] = [bs "inbox"] ∧ tagsOfNew true [bs "inbox"] [(frontName "cur" (some [])).path] [] = [bs "unread", bs "inbox"] :=
  ⟨by decide +kernel, by decide +kernel, by decide +kernel⟩

/-- Another file of a message, with other flags. -/
example : tagsOfDuplicate true ([frontName "cur" (some (bs "R")), frontName "cur" (some (bs "FS"))].map (·.path)) [bs "unread", bs "inbox"] = [bs "inbox", bs "flagged", bs "replied"] ∧
    (∀ n ∈ [frontName "cur" (some (bs "R")), frontName "cur" (some (bs "FS"))], n.Ok ∧ ¬ MaildirSpec.sep <:+: n.pre) :=
  ⟨by decide +kernel, by
    intro n hn
    simp only [List.mem_cons, List.not_mem_nil, or_false] at hn
    rcases hn with rfl | rfl <;> exact frontName_ok _ (by decide)⟩

/-- A value of `new.tags` that passes the check and is yet never added, without a word: it is longer than a tag can be. -/
theorem C67_long_tag_counterexample : ∃ t, newTagsOk [t] = true ∧ ∀ sync (n : MaildirSpec.Name), n.Ok → ¬ MaildirSpec.sep <:+: n.pre → t ∉ tagsOfNew sync [t] [n.path] [] := by
  refine ⟨List.replicate 201 97, by decide +kernel, fun sync n hok hp h => ?_⟩
  rcases (C67_tags sync _ n hok hp _).1 h with ⟨_, h, _⟩ | ⟨_, _, h⟩
  · rw [List.length_replicate] at h; omega
  · have len : ∀ s : Str, List.replicate 201 97 = s → s.length = 201 := by intro s e; rw [← e, List.length_replicate]
    rcases h with ⟨h, _⟩ | ⟨h, _⟩ | ⟨h, _⟩ | ⟨h, _⟩ | ⟨h, _⟩ <;> exact absurd (len _ h) (by decide)

/-- Two files of one message are added, one of another is removed; one file is moved. -/
example : (countOps (fun p n => if n = bs "x" ∨ n = bs "y" then 0 else (p.length + n.length)) [([bs "cur"], bs "old"), ([bs "cur"], bs "mail")]
    [.add [bs "cur"] (bs "x"), .add [bs "new"] (bs "y"), .removeFile [bs "cur"] (bs "old"), .add [bs "new"] (bs "mail"), .removeFile [bs "cur"] (bs "mail")]).2 = ⟨1, 1, 1⟩ := by
  decide +kernel

/-- The run above on the example, with a message for each file. -/
example : ∃ st, newCommand frontEnv 6 New.emptyDb none = some (true, st) ∧ FilesOf New.emptyDb [] ∧ MessagesOf (fun p n => (p, n)) New.emptyDb [] ∧
    (countOps (fun p n => (p, n)) [] st.log).2 = ⟨3, 0, 0⟩ := by
  obtain ⟨ok, st, h, hv⟩ := New.run_of (o := newCommand frontEnv 6 New.emptyDb none)
    (f := fun r => (r.1, (countOps (fun p n => (p, n)) [] r.2.log).2)) (v := (true, ⟨3, 0, 0⟩)) (by decide +kernel)
  simp only [Prod.mk.injEq] at hv
  obtain ⟨rfl, h1⟩ := hv
  exact ⟨st, h, ⟨by simp, by simp [New.emptyDb]⟩, ⟨by simp, by simp [New.emptyDb]⟩, h1⟩

example : resultsText ⟨1, 2, 0⟩ = bs "Added 1 new message to the database. Removed 2 messages.\n" ∧ resultsText ⟨0, 0, 1⟩ = bs "No new mail. Detected 1 file rename.\n" := by
  decide +kernel

end Notmuch.Props
