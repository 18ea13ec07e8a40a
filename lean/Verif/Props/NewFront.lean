import Verif.Proofs.NewFront
import Verif.Proofs.NewReport
import Verif.Props.New
import Verif.Props.Maildir

/-! # C67: what `notmuch new` leaves out, counts, tags and reports -/

namespace Notmuch.Props
open Notmuch.NewFront
open Notmuch.New (Path Env Db Visible Scanned Mail Sane DbOk Fresh DirsOk Fired newCommand)

/-! ## `new.ignore` -/

/-- **C67.** The values of `new.ignore` are accepted just when each is a name or a valid regular expression between slashes. -/
theorem C67_ignore_accepted (comp : Str → Option (Str → Bool)) (vs : List Str) :
    (setupIgnore comp vs ⟨[], []⟩).isSome ↔ ∀ v ∈ vs, Allowed comp v := by
  have h := setup_spec comp vs ⟨[], []⟩
  cases hs : setupIgnore comp vs ⟨[], []⟩ with
  | none =>
    rw [hs] at h
    obtain ⟨v, hv, hn⟩ := h
    simp only [Option.isSome_none, Bool.false_eq_true, false_iff]
    exact fun k => hn (k v hv)
  | some ig =>
    rw [hs] at h
    simp only [Option.isSome_some, true_iff]
    exact h.1

/-- **C67.** Then an entry of a directory is ignored just when one of the values is its name or is a regular expression that matches its path below the mail root. -/
theorem C67_ignored {comp : Str → Option (Str → Bool)} {vs : List Str} {ig : Ignore} (h : setupIgnore comp vs ⟨[], []⟩ = some ig) (root : Str) (p : Path) (n : Str)
    (hp : ∀ a ∈ p, NameOk a) (hn : NameOk n) : ignoredBy ig root p n = true ↔ ∃ v ∈ vs, Hits comp v p n :=
  ignored_spec h root p n hp hn

/-- **C67.** After a run without error or signal the database has no file that a value of `new.ignore` is about, and none in a directory that one is about, at any
depth; also if the file was in the database before. -/
theorem C67_left_out {comp : Str → Option (Str → Bool)} {vs : List Str} {ig : Ignore} {root : Str} (hs : setupIgnore comp vs ⟨[], []⟩ = some ig)
    {E : Env} (hE : Sane E) (hi : E.ignored = ignoredBy ig root) (hnames : ∀ p, ∀ n ∈ E.fs.list p, NameOk n)
    {db : Db} (hdb : DbOk db) (hfr : Fresh E db) (hd : DirsOk E db) {fuel : Nat} {intr : Option Nat} {st : New.St}
    (h : newCommand E fuel db intr = some (true, st)) (hf : ¬ Fired st) {p : Path} {n : Str} (hn : n ∈ st.db.files p) {v : Str} (hv : v ∈ vs) :
    ¬ Hits comp v p n ∧ ∀ q a r, p = q ++ a :: r → ¬ Hits comp v q a := by
  have hvis := ((C38_complete hE hdb hfr hd h hf p n).1 hn).1
  have key : ∀ {p}, Scanned E p → (∀ a ∈ p, NameOk a) ∧ ∀ q a r, p = q ++ a :: r → ¬ Hits comp v q a := by
    intro p hsc
    induction hsc with
    | root _ => simp
    | @sub p n _ hc hk _ _ ih =>
      obtain ⟨i1, i2⟩ := ih
      have hnm := hnames p n hc.1
      refine ⟨fun a ha => ?_, fun q a r e => ?_⟩
      · rcases List.mem_append.1 ha with ha | ha
        · exact i1 a ha
        · rw [List.mem_singleton.1 ha]; exact hnm
      · rcases List.eq_nil_or_concat r with hr | ⟨r', z, hr⟩
        · subst hr
          have := List.append_inj' e rfl
          obtain ⟨e1, e2⟩ := this
          injection e2 with e2 _
          subst e1; subst e2
          intro hh
          have := (C67_ignored hs root p n i1 hnm).2 ⟨v, hv, hh⟩
          have hc4 := hc.2.2.2
          rw [hi, this] at hc4
          cases hc4
        · subst hr
          have e' : p ++ [n] = (q ++ a :: r') ++ [z] := by rw [e]; simp
          obtain ⟨e1, _⟩ := List.append_inj' e' rfl
          exact i2 q a r' e1
  obtain ⟨k1, k2⟩ := key hvis.1
  refine ⟨fun hh => ?_, k2⟩
  have := (C67_ignored hs root p n k1 (hnames p n hvis.2.1.1)).2 ⟨v, hv, hh⟩
  have hc4 := hvis.2.1.2.2.2
  rw [hi, this] at hc4
  cases hc4

/-- **C67.** Files that no value of `new.ignore` is about are found: a value is about a file or a directory only as `Hits` says. -/
theorem C67_not_left_out {comp : Str → Option (Str → Bool)} {vs : List Str} {ig : Ignore} {root : Str} (hs : setupIgnore comp vs ⟨[], []⟩ = some ig)
    {E : Env} (hE : Sane E) (hi : E.ignored = ignoredBy ig root) (hnames : ∀ p, ∀ n ∈ E.fs.list p, NameOk n)
    {db : Db} (hdb : DbOk db) (hfr : Fresh E db) (hd : DirsOk E db) {fuel : Nat} {intr : Option Nat} {st : New.St}
    (h : newCommand E fuel db intr = some (true, st)) (hf : ¬ Fired st) {p : Path} {n : Str}
    (hroot : E.fs.kind [] = .dir) (hk : E.fs.kind (p ++ [n]) = .file) (ho : E.outcome p n = .added)
    (hdirs : ∀ q a r, p = q ++ a :: r → E.fs.kind (q ++ [a]) = .dir ∧ a ≠ bs "tmp" ∧ a ≠ bs ".notmuch")
    (hin : ∀ q a r, p ++ [n] = q ++ a :: r → a ∈ E.fs.list q ∧ a ≠ bs "." ∧ a ≠ bs ".." ∧ ∀ v ∈ vs, ¬ Hits comp v q a) :
    n ∈ st.db.files p := by
  have notIgn : ∀ q a, (∀ b ∈ q, NameOk b) → NameOk a → (∀ v ∈ vs, ¬ Hits comp v q a) → E.ignored q a = false := by
    intro q a hq ha hh
    rw [hi]
    cases hb : ignoredBy ig root q a with
    | false => rfl
    | true =>
      obtain ⟨v, hv, k⟩ := (C67_ignored hs root q a hq ha).1 hb
      exact absurd k (hh v hv)
  have scan : ∀ k q r, q.length = k → p = q ++ r → Scanned E q ∧ ∀ b ∈ q, NameOk b := by
    intro k
    induction k with
    | zero =>
      intro q r hq _
      have : q = [] := List.length_eq_zero_iff.1 hq
      subst this
      exact ⟨.root hroot, by simp⟩
    | succ k ih =>
      intro q r hq e
      rcases List.eq_nil_or_concat q with h0 | ⟨q', a, h0⟩
      · subst h0; simp at hq
      · rw [List.concat_eq_append] at h0
        subst h0
        obtain ⟨i1, i2⟩ := ih q' (a :: r) (by simpa using hq) (by rw [e]; simp)
        obtain ⟨m1, m2, m3, m4⟩ := hin q' a (r ++ [n]) (by rw [e]; simp)
        obtain ⟨d1, d2, d3⟩ := hdirs q' a r (by rw [e]; simp)
        have ha := hnames _ _ m1
        refine ⟨.sub i1 ⟨m1, m2, m3, notIgn _ _ i2 ha m4⟩ d1 (fun k => d2 k.2) (fun k => d3 k.2), fun b hb => ?_⟩
        rcases List.mem_append.1 hb with hb | hb
        · exact i2 b hb
        · rw [List.mem_singleton.1 hb]; exact ha
  obtain ⟨s1, s2⟩ := scan p.length p [] rfl (by simp)
  obtain ⟨m1, m2, m3, m4⟩ := hin p n [] rfl
  exact (C38_complete hE hdb hfr hd h hf p n).2 ⟨⟨s1, ⟨m1, m2, m3, notIgn _ _ s2 (hnames _ _ m1) m4⟩, hk⟩, .inl ho⟩

/-! ## Counting -/

/-- **C67.** The number that is shown before a first run is the number of the files below the mail root that are not ignored, nor in directories that are or that are
named `.notmuch`. -/
theorem C67_count {E : Env} (hE : New.EnvOk E) {fuel : Nat} {intr : Option Nat} {st : CSt} (h : countFiles E fuel [] ⟨0, intr⟩ = some st) (hf : st.intr ≠ some 0) :
    ∃ L : List (Path × Str), L.Nodup ∧ L.length = st.count ∧ ∀ p n, (p, n) ∈ L ↔ Counted E p n := by
  obtain ⟨L, h1, h2, h3⟩ := countFiles_spec hE fuel [] _ _ h hf
  refine ⟨L, h1, by rw [h2]; simp, fun p n => ?_⟩
  rw [h3]
  exact ⟨fun k => ⟨under_root.1 k.1, k.2⟩, fun k => ⟨under_root.2 k.1, k.2⟩⟩

/-- **C67.** So it is not less than the number of files that the run can add, if nothing is named `.notmuch` but in the root. -/
theorem C67_count_enough {E : Env} (hE : New.EnvOk E) {fuel : Nat} {intr : Option Nat} {st : CSt} (h : countFiles E fuel [] ⟨0, intr⟩ = some st) (hf : st.intr ≠ some 0)
    (hdot : ∀ p, bs ".notmuch" ∈ E.fs.list p → p = [] ∧ E.fs.kind [bs ".notmuch"] = .dir)
    {l : List (Path × Str)} (hl : l.Nodup) (hv : ∀ x ∈ l, Visible E x.1 x.2) : l.length ≤ st.count := by
  obtain ⟨L, h1, h2, h3⟩ := C67_count hE h hf
  have dirs : ∀ {p}, Scanned E p → CountedDir E p := by
    intro p hs
    induction hs with
    | root _ => exact .root
    | @sub p n _ hc hk _ h5 ih => exact .sub ih ⟨hc, fun e => h5 ⟨(hdot p (e ▸ hc.1)).1, e⟩⟩ hk
  have sub : ∀ x ∈ l, x ∈ L := by
    rintro ⟨p, n⟩ hx
    obtain ⟨a, b, c⟩ := hv _ hx
    refine (h3 p n).2 ⟨dirs a, ⟨b, fun e => ?_⟩, c⟩
    simp only at e b c
    subst e
    obtain ⟨e1, e2⟩ := hdot p b.1
    subst e1
    rw [show ([] : Path) ++ [bs ".notmuch"] = [bs ".notmuch"] from rfl, e2] at c
    cases c
  rw [← h2]
  exact List.Nodup.length_le_of_subset hl sub

/-! ## Tags -/

/-- The flags in the name of the file, if any. -/
def flagsOf (n : MaildirSpec.Name) (c : UInt8) : Prop := ∃ fl, n.flags = some fl ∧ c ∈ fl

/-- The name says something about flags: it has some, or the file is in `new`. -/
def speaks (n : MaildirSpec.Name) : Prop := n.flags ≠ none ∨ n.dir = bs "new"

theorem mem_addNewTags (files : List Str) (t : Str) : ∀ (ts tags : List Str),
    t ∈ addNewTags files ts tags ↔ t ∈ tags ∨ (t ∈ ts ∧ t.length ≤ 200 ∧ ¬ (t = bs "unread" ∧ hasFlag files 83 = true))
  | [], tags => by simp [addNewTags]
  | x :: ts, tags => by
    rw [addNewTags, mem_addNewTags files t ts, List.mem_cons]
    by_cases hc : x ≠ bs "unread" ∨ hasFlag files 83 = false
    · rw [if_pos hc, addTagIf]
      by_cases hl : x.length ≤ 200
      · rw [if_pos hl, Maildir.addTag]
        by_cases hx : x ∈ tags
        · rw [if_pos hx]; grind
        · rw [if_neg hx, List.mem_append, List.mem_singleton]; grind
      · rw [if_neg hl]; grind
    · rw [if_neg hc]; grind

private theorem hasFlag_iff {n : MaildirSpec.Name} (hok : n.Ok) (hp : ¬ MaildirSpec.sep <:+: n.pre) (c : UInt8) : hasFlag [n.path] c = true ↔ flagsOf n c := by
  obtain ⟨c1, c2⟩ := combined_names [n] (by simp [hok, hp]) [] (by simp)
  simp only [List.map_cons, List.map_nil, List.append_nil] at c1 c2
  unfold hasFlag flagsOf
  cases hc : Maildir.combinedFlags [n.path] with
  | none =>
    have := (c1.1 hc) n (by simp)
    simp only [Bool.false_eq_true, false_iff]
    rintro ⟨fl, h, _⟩
    simp [fileFlags, h] at this
  | some fl =>
    rw [decide_eq_true_iff, c2 fl hc]
    constructor
    · rintro ⟨m, hm, g, hg, hcg⟩
      rw [List.mem_singleton] at hm
      subst hm
      cases hf : m.flags with
      | none =>
        simp only [fileFlags, hf] at hg
        split at hg
        · injection hg with hg; subst hg; simp at hcg
        · cases hg
      | some fl =>
        simp only [fileFlags, hf] at hg
        injection hg with hg
        exact ⟨fl, rfl, hg ▸ hcg⟩
    · rintro ⟨fl, h, hcl⟩
      exact ⟨n, by simp, fl, by simp [fileFlags, h], hcl⟩

/-- **C67.** The tags of a new message: those of `new.tags` that are not too long, but not `unread` when the file has the flag S; and with `maildir.synchronize_flags`
those that the flags stand for, `unread` for a file that has no flag S (when the name says something about flags). -/
theorem C67_tags (sync : Bool) (newTags : List Str) (n : MaildirSpec.Name) (hok : n.Ok) (hp : ¬ MaildirSpec.sep <:+: n.pre) (t : Str) :
    t ∈ tagsOfNew sync newTags [n.path] [] ↔
      (t ∈ newTags ∧ t.length ≤ 200 ∧ ¬ (t = bs "unread" ∧ flagsOf n 83)) ∨
      (sync = true ∧ speaks n ∧ ((t = bs "draft" ∧ flagsOf n 68) ∨ (t = bs "flagged" ∧ flagsOf n 70) ∨ (t = bs "passed" ∧ flagsOf n 80) ∨
        (t = bs "replied" ∧ flagsOf n 82) ∨ (t = bs "unread" ∧ ¬ flagsOf n 83))) := by
  rw [tagsOfNew, mem_addNewTags, hasFlag_iff hok hp, or_comm]
  refine or_congr Iff.rfl ?_
  cases sync with
  | false => simp
  | true =>
    simp only [if_true, true_and]
    obtain ⟨m1, m2⟩ := C17_flags_to_tags_meaning [n] (by simp [hok, hp]) [] (by simp) []
    simp only [List.map_cons, List.map_nil, List.append_nil, List.mem_cons, List.not_mem_nil, or_false, forall_eq, exists_eq_left] at m1 m2
    by_cases hs : speaks n
    · obtain ⟨all, a1, a2, a3⟩ := m2 hs
      have a1 : ∀ c, c ∈ all ↔ flagsOf n c := a1
      have b1 := a2.draft
      have b2 := a2.flagged
      have b3 := a2.passed
      have b4 := a2.replied
      have b5 := a2.seen
      rw [a1] at b1 b2 b3 b4 b5
      have a3 := a3 t
      simp only [MaildirSpec.flagTags, List.mem_cons, List.not_mem_nil, or_false, iff_false] at a3
      by_cases h1 : t = bs "draft"
      · subst h1; simp only [hs, true_and]; rw [← b1]; simp [bs]
      by_cases h2 : t = bs "flagged"
      · subst h2; simp only [hs, true_and]; rw [← b2]; simp [bs]
      by_cases h3 : t = bs "passed"
      · subst h3; simp only [hs, true_and]; rw [← b3]; simp [bs]
      by_cases h4 : t = bs "replied"
      · subst h4; simp only [hs, true_and]; rw [← b4]; simp [bs]
      by_cases h5 : t = bs "unread"
      · subst h5; simp only [hs, true_and, h1, h2, h3, h4, false_and, false_or]
        rw [b5]
        exact Classical.not_not.symm
      simp only [h1, h2, h3, h4, h5, false_and, or_self, and_false, iff_false]
      exact a3 (by simp [h1, h2, h3, h4, h5])
    · rw [m1 (by
        rw [speaks] at hs
        constructor
        · exact Classical.not_not.1 (fun k => hs (.inl k))
        · exact fun k => hs (.inr k))]
      simp [hs]

/-- **C67.** When another file of a message is added, then without `maildir.synchronize_flags` its tags stay; else those for flags follow from the flags of all its files
together (if a name says something about flags), and other tags stay. -/
theorem C67_duplicate_tags (ns : List MaildirSpec.Name) (hok : ∀ n ∈ ns, n.Ok ∧ ¬ MaildirSpec.sep <:+: n.pre) (tags : List Str) :
    tagsOfDuplicate false (ns.map (·.path)) tags = tags ∧
    ((∀ n ∈ ns, ¬ speaks n) → tagsOfDuplicate true (ns.map (·.path)) tags = tags) ∧
    ((∃ n ∈ ns, speaks n) → ∀ t, t ∈ tagsOfDuplicate true (ns.map (·.path)) tags ↔
      (t ∈ tags ∧ t ∉ MaildirSpec.flagTags) ∨ (t = bs "draft" ∧ ∃ n ∈ ns, flagsOf n 68) ∨ (t = bs "flagged" ∧ ∃ n ∈ ns, flagsOf n 70) ∨ (t = bs "passed" ∧ ∃ n ∈ ns, flagsOf n 80) ∨
        (t = bs "replied" ∧ ∃ n ∈ ns, flagsOf n 82) ∨ (t = bs "unread" ∧ ¬ ∃ n ∈ ns, flagsOf n 83)) := by
  obtain ⟨m1, m2⟩ := C17_flags_to_tags_meaning ns hok [] (by simp) tags
  simp only [List.append_nil] at m1 m2
  refine ⟨rfl, fun h => ?_, fun h t => ?_⟩
  · exact m1 (fun n hn => ⟨Classical.not_not.1 (fun k => h n hn (.inl k)), fun k => h n hn (.inr k)⟩)
  · obtain ⟨all, a1, a2, a3⟩ := m2 h
    have a1 : ∀ c, c ∈ all ↔ ∃ n ∈ ns, flagsOf n c := a1
    have b1 := a2.draft
    have b2 := a2.flagged
    have b3 := a2.passed
    have b4 := a2.replied
    have b5 := a2.seen
    rw [a1] at b1 b2 b3 b4 b5
    have a3 := a3 t
    show t ∈ Maildir.flagsToTags _ _ ↔ _
    simp only [MaildirSpec.flagTags, List.mem_cons, List.not_mem_nil, or_false] at a3 ⊢
    by_cases h1 : t = bs "draft"
    · subst h1; rw [b1]; simp [bs]
    by_cases h2 : t = bs "flagged"
    · subst h2; rw [b2]; simp [bs]
    by_cases h3 : t = bs "passed"
    · subst h3; rw [b3]; simp [bs]
    by_cases h4 : t = bs "replied"
    · subst h4; rw [b4]; simp [bs]
    by_cases h5 : t = bs "unread"
    · subst h5
      rw [b5, Classical.not_not]
      simp [bs]
    rw [a3 (by simp [h1, h2, h3, h4, h5])]
    simp [h1, h2, h3, h4, h5]

/-- **C67.** The values of `new.tags` are accepted when none is empty or begins with `-`. -/
theorem C67_new_tags (newTags : List Str) : newTagsOk newTags = true ↔ ∀ t ∈ newTags, t ≠ [] ∧ t.head? ≠ some 45 := by
  rw [newTagsOk, List.all_eq_true]
  refine forall_congr' fun t => forall_congr' fun _ => ?_
  cases t <;> simp [TagUtil.illegalTag]

/-! ## The report -/

/-- **C67.** The numbers of messages added and removed that are reported are right: they account for the change of the number of messages in the database, whatever the
run did and wherever it was stopped. -/
theorem C67_report {E : Env} (hE : Sane E) {db : Db} (hdb : DbOk db) (hfr : Fresh E db) {fuel : Nat} {intr : Option Nat} {ok : Bool} {st : New.St}
    (h : newCommand E fuel db intr = some (ok, st)) {M : Type} [DecidableEq M] (mid : Path → Str → M) {files : List (Path × Str)} (hfiles : FilesOf db files)
    {before after : List M} (hb : MessagesOf mid db before) (ha : MessagesOf mid st.db after) :
    after.length + (countOps mid files st.log).2.removed = before.length + (countOps mid files st.log).2.added := by
  have hlog := C38_log hE hdb hfr h
  have hf := files_fold mid st.log db (files, ⟨0, 0, 0⟩) hfiles
  rw [← hlog] at hf
  have := counts_fold mid st.log (files, ⟨0, 0, 0⟩) (l := before) (k := after) ⟨hb.1, fun m => by
      rw [hb.2]
      constructor
      · rintro ⟨p, n, k, e⟩; exact ⟨p, n, (hfiles.2 p n).2 k, e⟩
      · rintro ⟨p, n, k, e⟩; exact ⟨p, n, (hfiles.2 p n).1 k, e⟩⟩ ⟨ha.1, fun m => by
      rw [ha.2]
      constructor
      · rintro ⟨p, n, k, e⟩; exact ⟨p, n, (hf.2 p n).2 k, e⟩
      · rintro ⟨p, n, k, e⟩; exact ⟨p, n, (hf.2 p n).1 k, e⟩⟩
  simpa [countOps] using this

/-- **C67.** The numbers of messages removed and of file renames together are the number of files that were taken out of the database. -/
theorem C67_renames (db : Db) (log : List New.Op) {M : Type} [DecidableEq M] (mid : Path → Str → M) {files : List (Path × Str)} (hfiles : FilesOf db files) :
    (countOps mid files log).2.removed + (countOps mid files log).2.renamed = filesLost db log := by
  have key : ∀ (ops : List New.Op) (db : Db) (a : List (Path × Str) × Counts), FilesOf db a.1 →
      (ops.foldl (countOp mid) a).2.removed + (ops.foldl (countOp mid) a).2.renamed = a.2.removed + a.2.renamed + filesLost db ops := by
    intro ops
    induction ops with
    | nil => intro db a _; rfl
    | cons o ops ih =>
      intro db a ha
      have hf := files_fold mid [o] db a ha
      have := ih (db.apply o) (countOp mid a o) hf
      rw [List.foldl_cons, this]
      cases o with
      | add d n => simp only [countOp, filesLost]; split <;> rfl
      | deleteDir d => rfl
      | setMtime d t => rfl
      | removeFile d n =>
        simp only [filesLost]
        by_cases hn : (d, n) ∈ a.1
        · rw [if_pos ((ha.2 d n).1 hn)]
          simp only [countOp, if_pos hn]
          split <;> simp only <;> omega
        · rw [if_neg (fun k => hn ((ha.2 d n).2 k))]
          simp only [countOp, if_neg hn]
          omega
  have := key log db (files, ⟨0, 0, 0⟩) hfiles
  simpa [countOps] using this

private theorem number_inj {m n : Nat} {a b : Str} {c : UInt8} (hc : isDigit c = false) (h : dec m ++ c :: a = dec n ++ c :: b) : m = n ∧ a = b := by
  have h1 := takeWhile_dec m c a hc
  have h2 := takeWhile_dec n c b hc
  rw [h] at h1
  have := dec_injective (h1.1.symm.trans h2.1)
  have e := h1.2.symm.trans h2.2
  injection e with _ e
  exact ⟨this, e⟩

private def renText (k : Nat) : Str := (if k ≠ 0 then bs " Detected " ++ dec k ++ bs " file " ++ (if k = 1 then bs "rename" else bs "renames") ++ bs "." else []) ++ bs "\n"
private def remText (k : Nat) (r : Str) : Str := (if k ≠ 0 then bs " Removed " ++ dec k ++ bs " " ++ (if k = 1 then bs "message" else bs "messages") ++ bs "." else []) ++ r

private theorem renText_inj {a b : Nat} (h : renText a = renText b) : a = b := by
  unfold renText at h
  by_cases ha : a = 0 <;> by_cases hb : b = 0
  · omega
  · simp [ha, hb, bs] at h
  · simp [ha, hb, bs] at h
  · simp only [ne_eq, ha, hb, not_false_eq_true, if_true, List.append_assoc] at h
    have h := List.append_cancel_left h
    exact (number_inj (c := 32) (by decide) (a := _) (b := _) h).1

private theorem remText_inj {a b c d : Nat} (h : remText a (renText c) = remText b (renText d)) : a = b ∧ c = d := by
  unfold remText at h
  have nr : ∀ (x : Str) (k : Nat), bs " Removed " ++ x ≠ renText k := by
    intro x k hh
    unfold renText at hh
    by_cases hk : k = 0 <;> simp [hk, bs] at hh
  by_cases ha : a = 0 <;> by_cases hb : b = 0
  · subst ha; subst hb
    exact ⟨rfl, renText_inj (by simpa using h)⟩
  · simp only [ne_eq, ha, hb, not_false_eq_true, not_true_eq_false, if_true, if_false, List.append_assoc, List.nil_append] at h
    exact absurd h.symm (nr _ _)
  · simp only [ne_eq, ha, hb, not_false_eq_true, not_true_eq_false, if_true, if_false, List.append_assoc, List.nil_append] at h
    exact absurd h (nr _ _)
  · simp only [ne_eq, ha, hb, not_false_eq_true, if_true, List.append_assoc] at h
    have h := List.append_cancel_left h
    obtain ⟨e, h⟩ := number_inj (c := 32) (by decide) (a := _) (b := _) h
    subst e
    exact ⟨rfl, renText_inj (List.append_cancel_left (List.append_cancel_left h))⟩

/-- **C67.** The numbers can be read from the report, and it begins with `No new mail.` just when no message was added. -/
theorem C67_report_text (c d : Counts) : (resultsText c = resultsText d → c = d) ∧ (bs "No new mail." <+: resultsText c ↔ c.added = 0) := by
  have e : ∀ c : Counts, resultsText c = (if c.added ≠ 0 then bs "Added " ++ dec c.added ++ bs " new " ++ (if c.added = 1 then bs "message" else bs "messages") ++ bs " to the database." else bs "No new mail.") ++
      remText c.removed (renText c.renamed) := by
    intro c
    simp only [resultsText, remText, renText, List.append_assoc]
  refine ⟨fun h => ?_, ?_⟩
  · obtain ⟨a, r, k⟩ := c
    obtain ⟨a', r', k'⟩ := d
    rw [e, e] at h
    simp only at h
    by_cases ha : a = 0 <;> by_cases hb : a' = 0
    · subst ha; subst hb
      obtain ⟨h1, h2⟩ := remText_inj (List.append_cancel_left h)
      rw [h1, h2]
    · simp [ha, hb, bs] at h
    · simp [ha, hb, bs] at h
    · simp only [ne_eq, ha, hb, not_false_eq_true, if_true, List.append_assoc] at h
      have h := List.append_cancel_left h
      obtain ⟨e, h⟩ := number_inj (c := 32) (by decide) (a := _) (b := _) h
      subst e
      obtain ⟨h1, h2⟩ := remText_inj (List.append_cancel_left (List.append_cancel_left (List.append_cancel_left h)))
      rw [h1, h2]
  · rw [e]
    by_cases ha : c.added = 0
    · simp [ha]
    · simp only [ne_eq, ha, not_false_eq_true, if_true, iff_false, List.append_assoc]
      rintro ⟨x, hx⟩
      simp [bs] at hx


end Notmuch.Props
