import Verif.Proofs.GitHistory

/-!
# C64: tags in a git repository
-/

namespace Notmuch.Props
open Notmuch.Git Notmuch.GitSpec Notmuch.GitProof

/-! ## An example -/

/-- A list of strings as one string, and back. -/
def packList (l : List Str) : Str := l.flatMap (fun s => s.flatMap (fun b => [1, b]) ++ [0])
/-- The inverse; `cur` is the string being read. -/
def unpackList : Str → Str → List Str
  | 1 :: b :: r, cur => unpackList r (cur ++ [b])
  | 0 :: r, cur => cur :: unpackList r []
  | _, _ => []

theorem unpack_pack (l : List Str) : unpackList (packList l) [] = l := by
  have aux : ∀ (s r cur : Str), unpackList (s.flatMap (fun b => [1, b]) ++ r) cur = unpackList r (cur ++ s) := by
    intro s
    induction s with
    | nil => intro r cur; simp
    | cons b s ih =>
      intro r cur
      rw [List.flatMap_cons, List.append_assoc]
      show unpackList (1 :: b :: (s.flatMap (fun b => [1, b]) ++ r)) cur = _
      rw [unpackList, ih]
      simp
  induction l with
  | nil => rfl
  | cons s l ih =>
    unfold packList
    rw [List.flatMap_cons, List.append_assoc, aux]
    show (s :: unpackList (packList l) []) = _
    rw [ih]

/-- What git's `verify_path` refuses, as far as it matters: empty components, `.`, `..` and `.git`. -/
def exVerify (p : Str) : Bool := (pieces (· == 47) p).all (fun c => c != [] && c != bs "." && c != bs ".." && c != bs ".git")

/-- A repository of the format 1 (the hash is always the same one), for the prefix `notmuch::`. -/
def exGit : Env where
  pre := bs "notmuch::"
  v1 := true
  hash := fun _ => (bs "1a", bs "c0")
  verify := exVerify
  tree := fun s => unpackList s []
  commitTree := fun t _ => packList t
  sum := packList
  module2 := true
  safe := (1, 10)
  excluded := fun _ => false
  rx := fun _ => none

theorem exGit_sane : Sane exGit where
  tree := fun t _ => unpack_pack t
  sum := fun x y h => by rw [← unpack_pack x, ← unpack_pack y]; exact congrArg (unpackList · []) h
  hash := fun _ => ⟨(by decide +kernel : isHexDir (bs "1a") = true), (by decide +kernel : isHexDir (bs "c0") = true)⟩

/-- Two messages, one of them with quotation marks and a slash in its id. -/
def exGitDb : Db :=
  ⟨bs "u1", 7, [⟨bs "a@b", [bs "inbox", bs "notmuch::patch"], [], 5⟩, ⟨bs "x \"y\"/Ã©@z", [bs "notmuch::needs review", bs "notmuch::a/b"], [(bs "k", bs "v")], 7⟩],
    [(bs "query.q", bs "tag:x")]⟩

/-- The tree of `HEAD`: the format, a tag that is there, a tag that was taken away, and one of a message that is not known. -/
def exTree : List Str := [bs "FORMAT", bs "tags/1a/c0/a@b/patch", bs "tags/1a/c0/a@b/bug", bs "tags/1a/c0/other@host/obsolete"]

/-- A fresh repository with it. -/
def exRepo : Repo := ⟨none, none, none, none, packList exTree⟩

/-! ## Quoting and paths -/

/-- **C64** (names): quoting a string for a file name and back gives the string; the name has only
letters, digits, `_.-~+@=:,` and `%`, so that it is one component of a path which git does not quote. -/
theorem C64_quote (s : Str) :
    unquote (hexQuote s) = s ∧ ∀ c ∈ hexQuote s, c ∈ bs "ABCDEFGHIJKLMNOPQRSTUVWXYZabcdefghijklmnopqrstuvwxyz0123456789_.-~+@=:,%" := by
  refine ⟨unquote_hexQuote s, ?_⟩
  rw [hexQuote_eq]
  intro d hd
  unfold codes at hd
  simp only [List.mem_flatMap] at hd
  obtain ⟨c, _, hd⟩ := hd
  have : ∀ c : UInt8, ∀ d ∈ code fileSafe c, d ∈ bs "ABCDEFGHIJKLMNOPQRSTUVWXYZabcdefghijklmnopqrstuvwxyz0123456789_.-~+@=:,%" := by
    apply forall_byte; decide +kernel
  exact this c d hd

example : hexQuote (bs "needs review/Ã©:100%") = bs "needs%20review%2f%c3%a9:100%25" := by decide +kernel

/-- **C64** (files): a file name tells the id and the tag, in both formats, and no two pairs of an id and
a tag share a file. -/
theorem C64_paths (E : Env) (hE : Sane E) (id id' t t' : Str) :
    unpackPath E (tagPath E id t) = some (some (id, t)) ∧ (tagPath E id t = tagPath E id' t' → id = id' ∧ t = t') :=
  ⟨unpackPath_tagPath hE id t, tagPath_injective hE⟩

example : tagPath exGit (bs "a b@c") (bs "x/y") = bs "tags/1a/c0/a%20b@c/x%2fy" ∧
    tagPath { exGit with v1 := false } (bs "a b@c") (bs "x/y") = bs "tags/a%20b@c/x%2fy" := by
  refine ⟨?_, ?_⟩ <;> decide +kernel

/-- **C64** (ids in queries): the quotation that a dump has is taken off an id, and the one a checkout
puts on is read as that id. -/
theorem C64_ids (id : Str) :
    xapianUnquote (StringUtil.makeBooleanTerm none id) = id ∧ StringUtil.parseBooleanTerm (bs "id:" ++ xapianQuote id) = some (bs "id", id) :=
  ⟨xapianUnquote_term id, parse_idQuery id⟩

/-! ## Status -/

theorem exRegular : Regular exGit exGitDb where
  unique := by unfold Unique; decide +kernel
  readable := by
    have : ∀ m ∈ exGitDb.msgs, ∀ c ∈ m.id, ¬ (10 ≤ c ∧ c ≤ 13) ∧ ¬ (28 ≤ c ∧ c ≤ 30) := by decide +kernel
    intro m hm
    refine ⟨this m hm, ?_⟩
    have hn : ∀ m ∈ exGitDb.msgs, 45 ∉ m.id := by decide +kernel
    intro h
    exact hn m hm (h.subset (by decide +kernel))
  paths := by
    have : ∀ m ∈ exGitDb.msgs, ∀ t ∈ suffixes exGit.pre m.tags, exGit.verify (tagPath exGit m.id t) = true := by decide +kernel
    intro m hm t ht
    exact this m hm t (mem_suffixes.mpr ht)
  revs := by decide +kernel
  uuid := by decide +kernel

theorem exCanonical : Canonical exGit exTree := by
  intro p hp
  simp only [exTree, List.mem_cons, List.not_mem_nil, or_false] at hp
  rcases hp with rfl | rfl | rfl | rfl
  · exact Or.inr ⟨bs "FORMAT", by decide +kernel, by decide +kernel, Or.inl rfl⟩
  · exact Or.inl ⟨bs "a@b", bs "patch", by decide +kernel⟩
  · exact Or.inl ⟨bs "a@b", bs "bug", by decide +kernel⟩
  · exact Or.inl ⟨bs "other@host", bs "obsolete", by decide +kernel⟩

theorem exHistory : History exGit exRepo exGitDb := .start rfl rfl

theorem exHead : exGit.tree exRepo.head = exTree := unpack_pack _

/-- **C64** (status): whatever happened to the database (no message removed), to the index files and to
`HEAD`, and whichever runs with whichever prefixes went before, the status says exactly which tags with
the prefix a message of the database has that `HEAD` does not have, which ones `HEAD` has and the
message does not, and which ones `HEAD` has of messages that are not in the database. -/
theorem C64_status {E : Env} (hE : Sane E) (hp : 126 ∉ E.pre) (hm : E.module2 = true) {r : Repo} {db : Db} (h : History E r db)
    (hdb : Regular E db) (ht : Canonical E (E.tree r.head)) :
    ∃ r' st, getStatus E r db db = some (r', st) ∧ Right E (E.tree r.head) db st ∧ r'.head = r.head ∧ History E r' db := by
  obtain ⟨idx, st, hs, _, hr⟩ := getStatus_right hE hp hm hdb (history_honest hE h).1 ht
  exact ⟨_, st, hs, hr, rfl, .status E.pre h hp hdb hs⟩

example : Sane exGit ∧ 126 ∉ exGit.pre ∧ History exGit exRepo exGitDb ∧ Regular exGit exGitDb ∧ Canonical exGit (exGit.tree exRepo.head) :=
  ⟨exGit_sane, by decide +kernel, exHistory, exRegular, by rw [exHead]; exact exCanonical⟩

example : (getStatus exGit exRepo exGitDb exGitDb).map Prod.snd =
    some ⟨[(bs "x \"y\"/Ã©@z", bs "needs review"), (bs "x \"y\"/Ã©@z", bs "a/b")], [(bs "a@b", bs "bug")], [(bs "other@host", bs "obsolete")]⟩ := by
  decide +kernel

/-- **C64** (the private index): it has the database's tags with the prefix, nothing more and nothing
less, though only the messages that were changed since the last run are looked at. -/
theorem C64_index {E : Env} (hE : Sane E) (hp : 126 ∉ E.pre) {r : Repo} {db : Db} (h : History E r db) (hdb : Regular E db) :
    ∃ idx, indexTags E r.cache r.idx db = some idx ∧ Represents E E.pre idx db :=
  indexTags_exact hE hp hdb (history_honest hE h).1 r.idx

/-! ## Commit -/

/-- What a successful commit leaves in `HEAD`. -/
def Committed (E : Env) (db : Db) (old new : List Str) : Prop :=
  (∀ id t, Known db id → (InTree E new id t ↔ Has db id (E.pre ++ t))) ∧
  (∀ id t, ¬ Known db id → (InTree E new id t ↔ InTree E old id t)) ∧
  (∀ p, (∀ id t, p ≠ tagPath E id t) → (p ∈ new ↔ p ∈ old))

theorem committed_canonical {E : Env} {db : Db} {old new : List Str} (h : Committed E db old new) (hc : Canonical E old) : Canonical E new := by
  intro p hp
  by_cases hx : ∃ id t, p = tagPath E id t
  · exact Or.inl hx
  · have := (h.2.2 p (fun id t e => hx ⟨id, t, e⟩)).mp hp
    exact hc p this

/-- **C64** (commit): a commit that is not stopped leaves in `HEAD` the tags of the messages of the
database, keeps those of messages that are not there and all other files; and it is not an exception. -/
theorem C64_commit {E : Env} (hE : Sane E) (hp : 126 ∉ E.pre) (hm : E.module2 = true) {r : Repo} {db : Db} (h : History E r db)
    (hdb : Regular E db) (ht : Canonical E (E.tree r.head)) (force : Bool) :
    ∃ r' e, commit E r db force = some (r', e) ∧ History E r' db ∧
      ((e = .exit1 ∧ force = false ∧ r'.head = r.head) ∨
       ((e = .done ∨ (e = .nothing ∧ r'.head = r.head)) ∧ Committed E db (E.tree r.head) (E.tree r'.head))) := by
  have hh := history_honest hE h
  obtain ⟨idx, st, hs, _, hr⟩ := getStatus_right hE hp hm hdb hh.1 ht
  by_cases hc : isCommitted st = true
  · have e : commit E r db force = some ({ r with idx := some idx, cache := some ⟨E.pre, db.uuid, db.rev, some (E.sum idx)⟩ }, .nothing) := by
      unfold commit
      rw [hs]
      simp only [hc, if_true]
    refine ⟨_, _, e, .commit E.pre force h hp hdb e, Or.inr ⟨Or.inr ⟨rfl, rfl⟩, ?_⟩⟩
    exact ⟨(right_committed hr).mp hc, fun _ _ _ => Iff.rfl, fun _ _ => Iff.rfl⟩
  · by_cases hf : (!force && stops E db st) = true
    · have e : commit E r db force = some ({ r with idx := some idx, cache := some ⟨E.pre, db.uuid, db.rev, some (E.sum idx)⟩ }, .exit1) := by
        unfold commit
        rw [hs]
        simp only [hc, Bool.false_eq_true, if_false, hf, if_true]
      refine ⟨_, _, e, .commit E.pre force h hp hdb e, Or.inl ⟨rfl, ?_, rfl⟩⟩
      cases force with
      | true => simp at hf
      | false => rfl
    · obtain ⟨r', h1, _, _, _, h2, h3, _⟩ := commitStatus_right (r := { r with idx := some idx, cache := some ⟨E.pre, db.uuid, db.rev, some (E.sum idx)⟩ }) hE hdb hr hh.2
      have e : commit E r db force = some (r', .done) := by
        unfold commit
        rw [hs]
        simp only [hc, Bool.false_eq_true, if_false, hf, h1]
      refine ⟨_, _, e, .commit E.pre force h hp hdb e, Or.inr ⟨Or.inl rfl, ?_, ?_, h3⟩⟩
      · intro id t hk
        have := h2 id t
        grind
      · intro id t hk
        have := h2 id t
        grind

example : (commit exGit exRepo exGitDb true).map (fun x => (unpackList x.1.head [], x.2)) =
    some ([bs "FORMAT", bs "tags/1a/c0/a@b/patch", bs "tags/1a/c0/other@host/obsolete",
      bs "tags/1a/c0/x%20%22y%22%2f%c3%a9@z/needs%20review", bs "tags/1a/c0/x%20%22y%22%2f%c3%a9@z/a%2fb"], .done) := by decide +kernel

/-- **C64** (nothing left): after a commit the status is empty but for the messages that are not there,
and another commit has nothing to do. -/
theorem C64_commit_again {E : Env} (hE : Sane E) (hp : 126 ∉ E.pre) (hm : E.module2 = true) {r r' : Repo} {db : Db} {e : End} (h : History E r db)
    (hdb : Regular E db) (ht : Canonical E (E.tree r.head)) (force force' : Bool) (hc : commit E r db force = some (r', e)) (he : e ≠ .exit1) :
    (∃ r'' st, getStatus E r' db db = some (r'', st) ∧ st.added = [] ∧ st.deleted = []) ∧
    ∃ r'', commit E r' db force' = some (r'', .nothing) ∧ r''.head = r'.head := by
  obtain ⟨r1, e1, h1, h2, h3⟩ := C64_commit hE hp hm h hdb ht force
  rw [hc] at h1
  simp only [Option.some.injEq, Prod.mk.injEq] at h1
  obtain ⟨rfl, rfl⟩ := h1
  have h4 : Committed E db (E.tree r.head) (E.tree r'.head) := by
    rcases h3 with h3 | h3
    · exact absurd h3.1 he
    · exact h3.2
  obtain ⟨r2, st, hs, hr, hh, _⟩ := C64_status hE hp hm h2 hdb (committed_canonical h4 ht)
  have hi := (right_committed hr).mpr h4.1
  have hi' := hi
  unfold isCommitted at hi
  simp only [Bool.and_eq_true, List.isEmpty_iff] at hi
  refine ⟨⟨r2, st, hs, hi.1, hi.2⟩, r2, ?_, hh⟩
  unfold commit
  rw [hs]
  simp only [hi', if_true]

/-! ## Checkout -/

/-- The tags that a checkout has to take away or give can be: C12 and C07 have the reasons. -/
structure Checkable (E : Env) (db : Db) (tree : List Str) : Prop where
  remove : ∀ id t, Has db id (E.pre ++ t) → ¬ InTree E tree id t → Removable (E.pre ++ t)
  add : ∀ id t, Known db id → InTree E tree id t → ¬ Has db id (E.pre ++ t) → Addable (E.pre ++ t)

/-- What a successful checkout makes of the database. -/
def CheckedOut (E : Env) (tree : List Str) (old new : Db) : Prop :=
  (∀ id, Known new id ↔ Known old id) ∧
  (∀ id t, Known old id → (Has new id (E.pre ++ t) ↔ InTree E tree id t)) ∧
  (∀ id u, ¬ E.pre <+: u → (Has new id u ↔ Has old id u))

theorem exCheckable : Checkable exGit exGitDb exTree := by
  have key : ∀ s, s = bs "needs review" ∨ s = bs "a/b" ∨ s = bs "patch" ∨ s = bs "bug" → Addable (exGit.pre ++ s) := by
    intro s hs
    rcases hs with rfl | rfl | rfl | rfl <;> (unfold Addable Removable; decide +kernel)
  refine ⟨?_, ?_⟩
  · rintro id t ⟨m, hm, _, ht⟩ _
    have h1 : ∀ m ∈ exGitDb.msgs, ∀ t ∈ suffixes exGit.pre m.tags, t = bs "needs review" ∨ t = bs "a/b" ∨ t = bs "patch" ∨ t = bs "bug" := by decide +kernel
    exact (key t (h1 m hm t (mem_suffixes.mpr ht))).1
  · rintro id t hk ht _
    unfold InTree exTree at ht
    simp only [List.mem_cons, List.not_mem_nil, or_false] at ht
    have hk' : id = bs "a@b" ∨ id = bs "x \"y\"/Ã©@z" := by
      obtain ⟨m, hm, rfl⟩ := hk
      simp only [exGitDb, List.mem_cons, List.not_mem_nil, or_false] at hm
      rcases hm with rfl | rfl
      · exact Or.inl rfl
      · exact Or.inr rfl
    have e1 : bs "tags/1a/c0/a@b/patch" = tagPath exGit (bs "a@b") (bs "patch") := by decide +kernel
    have e2 : bs "tags/1a/c0/a@b/bug" = tagPath exGit (bs "a@b") (bs "bug") := by decide +kernel
    have e3 : bs "tags/1a/c0/other@host/obsolete" = tagPath exGit (bs "other@host") (bs "obsolete") := by decide +kernel
    rw [e1, e2, e3] at ht
    rcases ht with ht | ht | ht | ht
    · have := unpackPath_tagPath exGit_sane id t
      have hf : unpackPath exGit (bs "FORMAT") = some none := by decide +kernel
      rw [ht, hf] at this
      simp at this
    · exact key t (by rw [(tagPath_injective exGit_sane ht).2]; simp)
    · exact key t (by rw [(tagPath_injective exGit_sane ht).2]; simp)
    · have := (tagPath_injective exGit_sane ht).1
      subst this
      exact absurd hk' (by decide +kernel)

/-- **C64** (checkout): a checkout that is not stopped gives every message of the database exactly the
tags with the prefix that `HEAD` has for it, and changes no other tag; and it is not an exception. -/
theorem C64_checkout {E : Env} (hE : Sane E) (hp : 126 ∉ E.pre) (hm : E.module2 = true) {r : Repo} {db : Db} (h : History E r db)
    (hdb : Regular E db) (ht : Canonical E (E.tree r.head)) (hk : Checkable E db (E.tree r.head)) (force : Bool) :
    ∃ r' db' e, checkout E r db force = some (r', db', e) ∧ History E r' db' ∧ r'.head = r.head ∧ Later db db' ∧
      ((e = .exit1 ∧ force = false ∧ db' = db) ∨ (e = .done ∧ CheckedOut E (E.tree r.head) db db')) := by
  have hh := history_honest hE h
  obtain ⟨idx, st, hs, _, hr⟩ := getStatus_right hE hp hm hdb hh.1 ht
  have hH := History.status E.pre h hp hdb hs
  by_cases hf : (!force && stops E db st) = true
  · refine ⟨_, db, .exit1, by unfold checkout; rw [hs]; simp only [hf, if_true], hH, rfl, later_refl db, Or.inl ⟨rfl, ?_, rfl⟩⟩
    cases force with
    | true => simp at hf
    | false => rfl
  · obtain ⟨db', hb, hret⟩ := tagBatch_checkout E st.added st.deleted
      (fun x hx => by
        have := (hr.added x.1 x.2).mp hx
        exact hk.remove x.1 x.2 this.1 this.2)
      (fun x hx => by
        have := (hr.deleted x.1 x.2).mp hx
        exact hk.add x.1 x.2 this.2.1 this.1 this.2.2) db
    have hl := retag_later hret
    refine ⟨_, db', .done, by unfold checkout; rw [hs]; simp only [hf, if_false, hb, if_true]; rfl, .database hH hl, rfl, hl, Or.inr ⟨rfl, fun id => retag_known hret id, ?_, ?_⟩⟩
    · intro id t hkn
      constructor
      · rintro ⟨m', hm', rfl, ht'⟩
        obtain ⟨m, hmm, e1, _, e3, _⟩ := retag_back hret hm'
        rw [e1]
        rcases (e3 _).mp ht' with ⟨s, hs', e⟩ | ⟨h1, h2⟩
        · rw [List.append_cancel_left e]
          exact ((hr.deleted _ _).mp hs').1
        · apply Classical.byContradiction
          intro hn
          exact h2 ⟨t, (hr.added _ _).mpr ⟨⟨m, hmm, rfl, h1⟩, hn⟩, rfl⟩
      · intro hi
        obtain ⟨m, hmm, rfl⟩ := hkn
        obtain ⟨i, hi'⟩ := List.mem_iff_getElem?.mp hmm
        obtain ⟨m', hm', e1, _, e3, _⟩ := hret.msg i m hi'
        refine ⟨m', List.mem_of_getElem? hm', e1, (e3 _).mpr ?_⟩
        by_cases hh : E.pre ++ t ∈ m.tags
        · refine Or.inr ⟨hh, ?_⟩
          rintro ⟨s, hs', e⟩
          rw [← List.append_cancel_left e] at hs'
          exact ((hr.added _ _).mp hs').2 hi
        · refine Or.inl ⟨t, (hr.deleted _ _).mpr ⟨hi, ⟨m, hmm, rfl⟩, ?_⟩, rfl⟩
          rintro ⟨m2, hm2, e, ht2⟩
          have := hdb.unique m2 hm2 m hmm e
          subst this
          exact hh ht2
    · intro id u hu
      constructor
      · rintro ⟨m', hm', rfl, ht'⟩
        obtain ⟨m, hmm, e1, _, e3, _⟩ := retag_back hret hm'
        rcases (e3 _).mp ht' with ⟨s, _, e⟩ | ⟨h1, _⟩
        · exact absurd ⟨s, e.symm⟩ hu
        · exact ⟨m, hmm, e1.symm, h1⟩
      · rintro ⟨m, hmm, rfl, hu'⟩
        obtain ⟨i, hi'⟩ := List.mem_iff_getElem?.mp hmm
        obtain ⟨m', hm', e1, _, e3, _⟩ := hret.msg i m hi'
        refine ⟨m', List.mem_of_getElem? hm', e1, (e3 _).mpr (Or.inr ⟨hu', ?_⟩)⟩
        rintro ⟨s, _, e⟩
        exact hu ⟨s, e.symm⟩

example : (checkout exGit exRepo exGitDb true).map (fun x => (x.2.1.msgs.map (fun m => (m.id, m.tags, m.lastmod)), x.2.2)) =
    some ([(bs "a@b", [bs "inbox", bs "notmuch::patch", bs "notmuch::bug"], 9), (bs "x \"y\"/Ã©@z", [], 8)], .done) := by decide +kernel

/-- **C64** (from one database to another): tags committed from one database and checked out into
another are, for the messages that both have, the same. -/
theorem C64_transfer {E : Env} (hE : Sane E) (hp : 126 ∉ E.pre) (hm : E.module2 = true) {ra rb ra' rb' : Repo} {a b b' : Db} {e e' : End}
    (hra : History E ra a) (hrb : History E rb b) (ha : Regular E a) (hb : Regular E b) (ht : Canonical E (E.tree ra.head)) (fa fb : Bool)
    (hc : commit E ra a fa = some (ra', e)) (he : e ≠ .exit1) (hk : Checkable E b (E.tree ra'.head))
    (ho : checkout E { rb with head := ra'.head } b fb = some (rb', b', e')) (he' : e' ≠ .exit1) :
    ∀ id, Known a id → Known b id → ∀ t, Has b' id (E.pre ++ t) ↔ Has a id (E.pre ++ t) := by
  obtain ⟨r1, e1, h1, h2, h3⟩ := C64_commit hE hp hm hra ha ht fa
  rw [hc] at h1
  simp only [Option.some.injEq, Prod.mk.injEq] at h1
  obtain ⟨rfl, rfl⟩ := h1
  have h4 : Committed E a (E.tree ra.head) (E.tree ra'.head) := by
    rcases h3 with h3 | h3
    · exact absurd h3.1 he
    · exact h3.2
  obtain ⟨r2, d2, e2, h5, _, _, _, h6⟩ := C64_checkout (r := { rb with head := ra'.head }) hE hp hm (.head ra'.head hrb) hb (committed_canonical h4 ht) hk fb
  rw [ho] at h5
  simp only [Option.some.injEq, Prod.mk.injEq] at h5
  obtain ⟨rfl, rfl, rfl⟩ := h5
  have h7 : CheckedOut E (E.tree ra'.head) b b' := by
    rcases h6 with h6 | h6
    · exact absurd h6.1 he'
    · exact h6.2
  intro id h8 h9 t
  rw [h7.2.1 id t h9, h4.1 id t h8]

/-! ## The safe fraction -/

/-- **C64** (safe fraction): without `--force`, a commit or checkout whose changes concern more messages
than the given fraction of those with the prefix (not counting excluded messages), or when there is no
such message, changes neither `HEAD` nor the database; otherwise it is not stopped.  `as` and `ds` are
the messages for which something would be added or deleted. -/
theorem C64_safe_fraction {E : Env} {r r' : Repo} {db : Db} {st : Status} (hs : getStatus E r db db = some (r', st)) (hn : isCommitted st = false)
    (as ds : List Str) (ha : as.Nodup) (ha' : ∀ i, i ∈ as ↔ ∃ t, (i, t) ∈ st.added) (hd : ds.Nodup) (hd' : ∀ i, i ∈ ds ↔ ∃ t, (i, t) ∈ st.deleted)
    (total : Nat) (hT : total = (db.msgs.filter (fun m => m.tags.any (fun t => E.pre.isPrefixOf t) && !E.excluded m.tags)).length) :
    (total = 0 ∨ E.safe.1 * total < (as.length + ds.length) * E.safe.2 →
      commit E r db false = some (r', .exit1) ∧ checkout E r db false = some (r', db, .exit1) ∧ r'.head = r.head) ∧
    (¬ (total = 0 ∨ E.safe.1 * total < (as.length + ds.length) * E.safe.2) →
      commit E r db false = commit E r db true ∧ checkout E r db false = checkout E r db true) := by
  have hst : stops E db st = true ↔ (total = 0 ∨ E.safe.1 * total < (as.length + ds.length) * E.safe.2) := by
    unfold stops
    rw [lenDict_eq ha ha', lenDict_eq hd hd']
    have : countMessages E db = total := by rw [hT]; rfl
    rw [this]
    simp
  obtain ⟨idx, _, hr⟩ := getStatus_shape hs
  constructor
  · intro h
    have h := hst.mpr h
    refine ⟨?_, ?_, by rw [hr]⟩
    · unfold commit; rw [hs]; simp [hn, h]
    · unfold checkout; rw [hs]; simp [h]
  · intro h
    have h : stops E db st = false := by
      cases e : stops E db st with
      | false => rfl
      | true => exact absurd (hst.mp e) h
    refine ⟨?_, ?_⟩
    · unfold commit; rw [hs]; simp [hn, h]
    · unfold checkout; rw [hs]; simp [h]

/-- Both of the two messages would change: that is more than a tenth, but not more than all. -/
example : (commit exGit exRepo exGitDb false).map Prod.snd = some .exit1 ∧ (checkout exGit exRepo exGitDb false).map (fun x => x.2.2) = some .exit1 ∧
    (commit { exGit with safe := (1, 1) } exRepo exGitDb false).map Prod.snd = some .done := by
  refine ⟨?_, ?_, ?_⟩ <;> decide +kernel

/-- **C64** (merging): `merge` and `pull` do nothing when the database has changes that are not committed. -/
theorem C64_merge_uncommitted {E : Env} {r r' : Repo} {db : Db} {st : Status} (theirs : Option (Str × List Str)) (hs : getStatus E r db db = some (r', st))
    (hn : st.added ≠ [] ∨ st.deleted ≠ []) : merge E r db theirs = some (r', db, .exit1) ∧ r'.head = r.head ∧ r'.main = r.main := by
  have h : isCommitted st = false := by
    unfold isCommitted
    cases ha : st.added <;> cases hd : st.deleted <;> simp_all
  obtain ⟨idx, _, hr⟩ := getStatus_shape hs
  refine ⟨?_, by rw [hr], by rw [hr]⟩
  unfold merge
  rw [hs]
  simp [h]

/-- **C64** (merging): otherwise the database's tags become those of the merged tree. -/
theorem C64_merge {E : Env} (hE : Sane E) (hp : 126 ∉ E.pre) (hm : E.module2 = true) {r r' : Repo} {db db' : Db} {e : End} (h : History E r db)
    (hdb : Regular E db) (ht : Canonical E (E.tree r.head)) (c : Str) (main : List Str) (hc : Canonical E (E.tree c)) (hk : Checkable E db (E.tree c))
    (hmg : merge E r db (some (c, main)) = some (r', db', e)) (he : e ≠ .exit1) :
    e = .done ∧ r'.head = c ∧ CheckedOut E (E.tree c) db db' ∧ ∀ id t, Known db id → (InTree E (E.tree r.head) id t ↔ Has db id (E.pre ++ t)) := by
  obtain ⟨r1, st, hs, hr, _, hH⟩ := C64_status hE hp hm h hdb ht
  unfold merge at hmg
  rw [hs] at hmg
  simp only at hmg
  cases hi : isCommitted st with
  | false =>
    simp only [hi, Bool.not_false, if_true, Option.some.injEq, Prod.mk.injEq] at hmg
    exact absurd hmg.2.2.symm he
  | true =>
    simp only [hi, Bool.not_true, Bool.false_eq_true, if_false] at hmg
    obtain ⟨r2, d2, e2, h5, _, h6, _, h7⟩ := C64_checkout (r := { r1 with head := c, main := some main }) hE hp hm
      (.files _ (some main) (.head c hH)) hdb hc hk false
    rw [hmg] at h5
    simp only [Option.some.injEq, Prod.mk.injEq] at h5
    obtain ⟨rfl, rfl, rfl⟩ := h5
    rcases h7 with h7 | h7
    · exact absurd h7.1 he
    · exact ⟨h7.1, h6, h7.2, (right_committed hr).mp hi⟩


/-- **C64** (checkout and status): after a checkout that was not stopped the status is empty but for the
messages that are not there; a commit has nothing to do. -/
theorem C64_checkout_again {E : Env} (hE : Sane E) (hp : 126 ∉ E.pre) (hm : E.module2 = true) {r r' : Repo} {db db' : Db} {e : End} (h : History E r db)
    (hdb : Regular E db) (ht : Canonical E (E.tree r.head)) (hk : Checkable E db (E.tree r.head)) (force force' : Bool)
    (hc : checkout E r db force = some (r', db', e)) (he : e ≠ .exit1) (hdb' : Regular E db') :
    (∃ r'' st, getStatus E r' db' db' = some (r'', st) ∧ st.added = [] ∧ st.deleted = []) ∧
    ∃ r'', commit E r' db' force' = some (r'', .nothing) ∧ r''.head = r.head := by
  obtain ⟨r1, d1, e1, h1, h2, h3, _, h4⟩ := C64_checkout hE hp hm h hdb ht hk force
  rw [hc] at h1
  simp only [Option.some.injEq, Prod.mk.injEq] at h1
  obtain ⟨rfl, rfl, rfl⟩ := h1
  have h5 : CheckedOut E (E.tree r.head) db db' := by
    rcases h4 with h4 | h4
    · exact absurd h4.1 he
    · exact h4.2
  obtain ⟨r2, st, hs, hr, hh, _⟩ := C64_status hE hp hm h2 hdb' (by rw [h3]; exact ht)
  have hi := (right_committed hr).mpr (fun id t hk' => by rw [h3]; exact ((h5.2.1 id t ((h5.1 id).mp hk')).symm))
  have hi' := hi
  unfold isCommitted at hi
  simp only [Bool.and_eq_true, List.isEmpty_iff] at hi
  refine ⟨⟨r2, st, hs, hi.1, hi.2⟩, r2, ?_, hh.trans h3⟩
  unfold commit
  rw [hs]
  simp only [hi', if_true]

/-! ## Where notmuch-git fails -/

/-- **C64** (clone, negative): when `clone` goes on to check the tags out, there is no message with the
prefix; then the check of the safe fraction always stops it: a clone never gives a tag. -/
theorem C64_clone_stops {E : Env} {r r' : Repo} {db db' : Db} {e : End} (hc : cloneCheckout E r db = some (r', db', e)) :
    db' = db ∧ (e = .nothing ∨ e = .exit1) := by
  unfold cloneCheckout at hc
  split at hc
  · simp only [Option.some.injEq, Prod.mk.injEq] at hc
    exact ⟨hc.2.1.symm, Or.inl hc.2.2.symm⟩
  · rename_i hn
    have h0 : countMessages E db = 0 := by
      unfold countMessages
      rw [List.length_eq_zero_iff, List.filter_eq_nil_iff]
      intro m hm hh
      simp only [Bool.and_eq_true] at hh
      apply hn
      rw [List.any_eq_true]
      refine ⟨m, List.mem_filter.mpr ⟨hm, hh.1⟩, ?_⟩
      unfold hasPrefix at hh
      cases ht : m.tags with
      | nil => rw [ht] at hh; simp at hh
      | cons => rfl
    unfold checkout at hc
    split at hc
    · simp at hc
    · rename_i st _
      have : stops E db st = true := by unfold stops; rw [h0]; rfl
      simp only [this, Bool.not_false, Bool.and_self, if_true, Option.some.injEq, Prod.mk.injEq] at hc
      exact ⟨hc.2.1.symm, Or.inr hc.2.2.symm⟩

/-- A database without tags of the prefix. -/
def exPlain : Db := ⟨bs "u1", 7, [⟨bs "a@b", [bs "inbox"], [], 5⟩], []⟩

example : (cloneCheckout exGit exRepo exPlain).map (fun x => (x.2.1 == exPlain, x.2.2)) = some (true, .exit1) := by decide +kernel

/-- A database with one message `a`. -/
def oneDb (uuid : Str) (tags : List Str) (rev : Nat) : Db := ⟨uuid, rev, [⟨bs "a", tags, [], rev⟩], []⟩

theorem oneDb_regular {uuid : Str} {tags : List Str} {rev : Nat} (hv : ∀ t ∈ suffixes exGit.pre tags, exGit.verify (tagPath exGit (bs "a") t) = true)
    (hu : uuid ≠ []) : Regular exGit (oneDb uuid tags rev) := by
  have one : ∀ m ∈ (oneDb uuid tags rev).msgs, m = ⟨bs "a", tags, [], rev⟩ := by
    intro m hm; exact List.mem_singleton.mp hm
  refine ⟨?_, ?_, ?_, ?_, hu⟩
  · intro m hm m' hm' _
    rw [one m hm, one m' hm']
  · intro m hm
    rw [one m hm]
    refine ⟨(by decide +kernel : ∀ c ∈ bs "a", _), ?_⟩
    intro h
    have h45 : (45 : UInt8) ∈ bs "a" := h.subset (by decide +kernel)
    revert h45
    decide +kernel
  · intro m hm t ht
    rw [one m hm] at ht ⊢
    exact hv t (mem_suffixes.mpr ht)
  · intro m hm
    rw [one m hm]
    exact Nat.le_refl rev

/-- A tree with one tag of it, and a fresh repository. -/
def oneRepo : Repo := ⟨none, none, none, none, packList [bs "tags/1a/c0/a/x"]⟩

theorem oneTree : exGit.tree oneRepo.head = [tagPath exGit (bs "a") (bs "x")] := by
  rw [show exGit.tree oneRepo.head = _ from unpack_pack _]
  decide +kernel

theorem oneCanonical : Canonical exGit (exGit.tree oneRepo.head) := by
  rw [oneTree]
  intro p hp
  exact Or.inl ⟨bs "a", bs "x", List.mem_singleton.mp hp⟩

theorem oneInTree : InTree exGit (exGit.tree oneRepo.head) (bs "a") (bs "x") := by
  rw [oneTree]; exact List.mem_singleton.mpr rfl

/-- The repository after a run with the revision `rev` of the database. -/
def oneAfter (uuid : Str) (rev : Nat) : Repo :=
  { oneRepo with idx := some [bs "tags/1a/c0/a/x"], cache := some ⟨bs "notmuch::", uuid, rev, some (packList [bs "tags/1a/c0/a/x"])⟩ }

theorem oneHasNot (uuid : Str) (rev : Nat) (t : Str) : ¬ Has (oneDb uuid [] rev) (bs "a") t := by
  rintro ⟨m, hm, _, ht⟩
  rw [List.mem_singleton.mp hm] at ht
  simp at ht

/-- **C64** (another database, negative): when the database was made anew and has another UUID, the
private index is neither emptied nor are the messages' old tags cleared: tags that the new database does
not have are not reported as deleted.  The first run is with the old database, the second one with the
new one, where the message has no tag. -/
theorem C64_new_uuid : ∃ (E : Env) (r r1 r2 : Repo) (d d' : Db) (st1 st2 : Status) (id t : Str), Sane E ∧ Regular E d ∧ Regular E d' ∧
    History E r d ∧ Canonical E (E.tree r.head) ∧ d'.uuid ≠ d.uuid ∧ getStatus E r d d = some (r1, st1) ∧ getStatus E r1 d' d' = some (r2, st2) ∧
    InTree E (E.tree r.head) id t ∧ Known d' id ∧ ¬ Has d' id (E.pre ++ t) ∧ st2 = ⟨[], [], []⟩ := by
  refine ⟨exGit, oneRepo, oneAfter (bs "u1") 1, oneAfter (bs "u2") 1, oneDb (bs "u1") [bs "notmuch::x"] 1, oneDb (bs "u2") [] 1, ⟨[], [], []⟩, ⟨[], [], []⟩, bs "a", bs "x",
    exGit_sane, oneDb_regular (by decide +kernel) (by decide +kernel), oneDb_regular (by decide +kernel) (by decide +kernel),
    .start rfl rfl, oneCanonical, by decide +kernel, by decide +kernel, by decide +kernel, oneInTree, ⟨_, List.mem_singleton.mpr rfl, rfl⟩, oneHasNot _ _ _, rfl⟩

/-- **C64** (removed messages, negative): the tags of a message that was removed from the database stay
in the private index: they are not reported as missing. -/
theorem C64_removed_message : ∃ (E : Env) (r r1 r2 : Repo) (d d' : Db) (st1 st2 : Status) (id t : Str), Sane E ∧ Regular E d ∧ Regular E d' ∧
    History E r d ∧ Canonical E (E.tree r.head) ∧ d'.uuid = d.uuid ∧ d.rev ≤ d'.rev ∧ getStatus E r d d = some (r1, st1) ∧ getStatus E r1 d' d' = some (r2, st2) ∧
    InTree E (E.tree r.head) id t ∧ ¬ Known d' id ∧ st2 = ⟨[], [], []⟩ := by
  refine ⟨exGit, oneRepo, oneAfter (bs "u1") 1, oneAfter (bs "u1") 2, oneDb (bs "u1") [bs "notmuch::x"] 1, ⟨bs "u1", 2, [], []⟩, ⟨[], [], []⟩, ⟨[], [], []⟩, bs "a", bs "x",
    exGit_sane, oneDb_regular (by decide +kernel) (by decide +kernel), ⟨?_, ?_, ?_, ?_, by decide +kernel⟩,
    .start rfl rfl, oneCanonical, rfl, by decide +kernel, by decide +kernel, by decide +kernel, oneInTree, ?_, rfl⟩
  · intro m hm; simp at hm
  · intro m hm; simp at hm
  · intro m hm; simp at hm
  · intro m hm; simp at hm
  · rintro ⟨m, hm, _⟩; simp at hm

/-- **C64** (a change during the run, negative): the revision is read again when the run ends: a tag that
was taken away between the dump and that moment is not noticed by any later run until the message is
changed again. -/
theorem C64_race : ∃ (E : Env) (r r1 r2 : Repo) (d d' : Db) (st1 st2 : Status) (id t : Str), Sane E ∧ Regular E d ∧ Regular E d' ∧
    History E r d ∧ Canonical E (E.tree r.head) ∧ Later d d' ∧ getStatus E r d d' = some (r1, st1) ∧ getStatus E r1 d' d' = some (r2, st2) ∧
    InTree E (E.tree r.head) id t ∧ Known d' id ∧ ¬ Has d' id (E.pre ++ t) ∧ st2 = ⟨[], [], []⟩ := by
  refine ⟨exGit, oneRepo, oneAfter (bs "u1") 2, oneAfter (bs "u1") 2, oneDb (bs "u1") [bs "notmuch::x"] 1, oneDb (bs "u1") [] 2, ⟨[], [], []⟩, ⟨[], [], []⟩, bs "a", bs "x",
    exGit_sane, oneDb_regular (by decide +kernel) (by decide +kernel), oneDb_regular (by decide +kernel) (by decide +kernel),
    .start rfl rfl, oneCanonical, ⟨rfl, by decide +kernel, ?_, ?_⟩, by decide +kernel, by decide +kernel, oneInTree, ⟨_, List.mem_singleton.mpr rfl, rfl⟩, oneHasNot _ _ _, rfl⟩
  · intro m hm
    rw [List.mem_singleton.mp hm]
    exact ⟨_, List.mem_singleton.mpr rfl, rfl⟩
  · intro m hm hl
    rw [List.mem_singleton.mp hm] at hl
    exact absurd hl (by decide)

/-- **C64** (a prefix with `~`, negative): `notmuch dump` writes a tilde as `%7e`, notmuch-git does not:
with such a prefix no tag is ever seen, and a commit deletes those in `HEAD`. -/
theorem C64_tilde : ∃ (E : Env) (r : Repo) (db : Db) (st : Status) (r1 : Repo) (id t : Str), Sane E ∧ 126 ∈ E.pre ∧ E.module2 = true ∧ History E r db ∧ Regular E db ∧
    Canonical E (E.tree r.head) ∧ Has db id (E.pre ++ t) ∧ InTree E (E.tree r.head) id t ∧ getStatus E r db db = some (r1, st) ∧ (id, t) ∈ st.deleted := by
  have hreg := oneDb_regular (uuid := bs "u1") (tags := []) (rev := 1) (by decide +kernel) (by decide +kernel)
  refine ⟨{ exGit with pre := bs "~" }, oneRepo, oneDb (bs "u1") [bs "~x"] 1, ⟨[], [(bs "a", bs "x")], []⟩,
    { oneRepo with idx := some [], cache := some ⟨bs "~", bs "u1", 1, some []⟩ }, bs "a", bs "x",
    ⟨exGit_sane.tree, exGit_sane.sum, exGit_sane.hash⟩, by decide +kernel, rfl, .start rfl rfl, ⟨?_, ?_, ?_, ?_, by decide +kernel⟩, oneCanonical,
    ⟨_, List.mem_singleton.mpr rfl, rfl, by decide +kernel⟩, oneInTree, by decide +kernel, by decide +kernel⟩
  · intro m hm m' hm' _
    rw [List.mem_singleton.mp hm, List.mem_singleton.mp hm']
  · intro m hm
    rw [List.mem_singleton.mp hm]
    exact hreg.readable ⟨bs "a", [], [], 1⟩ (List.mem_singleton.mpr rfl)
  · intro m hm t ht
    rw [List.mem_singleton.mp hm] at ht ⊢
    have : ∀ t ∈ suffixes (bs "~") [bs "~x"], exGit.verify (tagPath exGit (bs "a") t) = true := by decide +kernel
    exact this t (mem_suffixes.mpr ht)
  · intro m hm
    rw [List.mem_singleton.mp hm]
    exact Nat.le_refl 1

/-- **C64** (without the module `notmuch2`, negative): the output of `notmuch search` is compared with
`None`, which it never is, so that all messages are taken to be known: a commit deletes from `HEAD` the
tags of the messages that are not in the database. -/
theorem C64_no_module : ∃ (E : Env) (r r' : Repo) (db : Db) (id t : Str), Sane E ∧ E.module2 = false ∧ ¬ Known db id ∧ InTree E (E.tree r.head) id t ∧
    commit E r db true = some (r', .done) ∧ ¬ InTree E (E.tree r'.head) id t := by
  refine ⟨{ exGit with module2 := false }, exRepo, ((commit { exGit with module2 := false } exRepo exGitDb true).get (by decide +kernel)).1, exGitDb, bs "other@host", bs "obsolete",
    ⟨exGit_sane.tree, exGit_sane.sum, exGit_sane.hash⟩, rfl, ?_, ?_, ?_, ?_⟩
  · rintro ⟨m, hm, e⟩
    have : ∀ m ∈ exGitDb.msgs, m.id ≠ bs "other@host" := by decide +kernel
    exact this m hm e
  · show tagPath exGit (bs "other@host") (bs "obsolete") ∈ exGit.tree exRepo.head
    rw [exHead]
    decide +kernel
  · decide +kernel
  · unfold InTree
    decide +kernel

/-- **C64** (names that git refuses, negative): a tag whose rest after the prefix is empty, `.`, `..` or
`.git` makes every run fail. -/
theorem C64_bad_names : ∀ t ∈ [bs "notmuch::", bs "notmuch::.", bs "notmuch::..", bs "notmuch::.git"],
    ∀ force, commit exGit oneRepo (oneDb (bs "u1") [t] 1) force = none ∧ checkout exGit oneRepo (oneDb (bs "u1") [t] 1) force = none ∧
      getStatus exGit oneRepo (oneDb (bs "u1") [t] 1) (oneDb (bs "u1") [t] 1) = none := by
  decide +kernel

/-- **C64** (ids that break the lines, negative): the same is true of a message with such a tag whose id
has the separator of the lines, or a line break for Python that is none for `notmuch dump`. -/
theorem C64_separator : ∀ id ∈ [bs "a -- id:b", bs "a\x0cb", bs "a\x1cb"],
    getStatus exGit oneRepo ⟨bs "u1", 1, [⟨id, [bs "notmuch::x"], [], 1⟩], []⟩ ⟨bs "u1", 1, [⟨id, [bs "notmuch::x"], [], 1⟩], []⟩ = none := by
  decide +kernel

/-- **C64** (a tag that cannot be set): with an empty prefix, a tag of HEAD that begins with `-` is not set and the command fails, but the tags of the messages after it are set. -/
theorem C64_bad_line :
    (checkout { exGit with pre := [] } ⟨none, none, none, none, packList [bs "tags/1a/c0/a@b/-x", bs "tags/1a/c0/c@d/y"]⟩ ⟨bs "u1", 1, [⟨bs "a@b", [], [], 1⟩, ⟨bs "c@d", [], [], 1⟩], []⟩ true).map
      (fun r => r.2.1.msgs.map (fun m => (m.id, m.tags))) = some [(bs "a@b", []), (bs "c@d", [bs "y"])] := by
  decide +kernel

end Notmuch.Props
