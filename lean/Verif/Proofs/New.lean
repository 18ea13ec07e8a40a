import Verif.Spec.New
import Verif.Proofs.TermList

/-! # `notmuch new`: lemmas -/

namespace Notmuch.New
open Notmuch.StringMap Notmuch.StringMapSpec
open Notmuch.TermList (addTerm mem_addTerm sorted_addTerm Sorted sorted_filter sorted_nodup lt_irrefl' lt_trans')

/-! ## Paths and what is scanned -/

theorem append_singleton_ne_nil (p : Path) (n : Str) : p ++ [n] ≠ [] := by simp

theorem concat_inj {p q : Path} {n m : Str} (h : p ++ [n] = q ++ [m]) : p = q ∧ n = m := by
  have := List.append_inj' h rfl
  exact ⟨this.1, by simpa using this.2⟩

theorem scanned_inv {E : Env} {p : Path} {n : Str} (h : Scanned E (p ++ [n])) :
    Scanned E p ∧ Counts E p n ∧ E.fs.kind (p ++ [n]) = .dir ∧ ¬ (IsMaildir E.fs p ∧ n = bs "tmp") ∧ ¬ (p = [] ∧ n = bs ".notmuch") := by
  generalize hq : p ++ [n] = q at h
  cases h with
  | root _ => simp at hq
  | sub h1 h2 h3 h4 h5 =>
    obtain ⟨rfl, rfl⟩ := concat_inj hq
    exact ⟨h1, h2, h3, h4, h5⟩

theorem scanned_prefix {E : Env} {q : Path} (h : Scanned E q) : ∀ {p : Path}, p <+: q → Scanned E p := by
  induction h with
  | root h =>
    intro p hp
    rw [List.prefix_nil] at hp
    subst hp
    exact .root h
  | sub h1 h2 h3 h4 h5 ih =>
    intro p hp
    rcases (List.prefix_concat_iff.1 hp) with rfl | hp
    · exact .sub h1 h2 h3 h4 h5
    · exact ih hp

theorem scanned_kind {E : Env} {q : Path} (h : Scanned E q) : E.fs.kind q = .dir := by
  cases h with
  | root h => exact h
  | sub _ _ h _ _ => exact h

/-! ## The database -/

theorem mem_files_add {db : Db} {d q : Path} {n x : Str} : x ∈ (db.addFile d n).files q ↔ x ∈ db.files q ∨ (q = d ∧ x = n) := by
  simp only [Db.addFile]
  split
  · rename_i h
    rw [mem_addTerm]
    simp only [h, true_and]
    exact Or.comm
  · rename_i h
    simp [h]

theorem prefix_concat_drop {q d : Path} {c : Str} : q ++ [c] <+: d ↔ q <+: d ∧ (d.drop q.length).head? = some c := by
  constructor
  · rintro ⟨r, rfl⟩
    refine ⟨⟨[c] ++ r, by simp⟩, ?_⟩
    rw [List.append_assoc, List.drop_left]
    simp
  · rintro ⟨⟨r, rfl⟩, h⟩
    rw [List.drop_left] at h
    cases r with
    | nil => simp at h
    | cons a r =>
      simp only [List.head?_cons, Option.some.injEq] at h
      subst h
      exact ⟨r, by simp⟩

theorem mem_subdirs_add {db : Db} {d q : Path} {n c : Str} : c ∈ (db.addFile d n).subdirs q ↔ c ∈ db.subdirs q ∨ q ++ [c] <+: d := by
  simp only [Db.addFile, addSub]
  rw [prefix_concat_drop]
  split
  · rename_i h
    have h' : q <+: d := List.isPrefixOf_iff_prefix.1 h
    split
    · rename_i h2
      simp [h2]
    · rename_i a r h2
      rw [mem_addTerm, h2]
      simp only [List.head?_cons, Option.some.injEq, h', true_and]
      constructor
      · rintro (h | h)
        · exact .inr h.symm
        · exact .inl h
      · rintro (h | h)
        · exact .inr h
        · exact .inl h.symm
  · rename_i h
    have h' : ¬ q <+: d := fun e => h (List.isPrefixOf_iff_prefix.2 e)
    simp [h']

theorem known_add {db : Db} {d q : Path} {n : Str} {t : Nat} : (db.addFile d n).known q = some t ↔
    db.known q = some t ∨ (db.known q = none ∧ t = 0 ∧ q <+: d) := by
  simp only [Db.addFile]
  split
  · rename_i h
    have h' : q <+: d := List.isPrefixOf_iff_prefix.1 h
    cases db.known q with
    | none => simp [h', eq_comm]
    | some u => simp
  · rename_i h
    have h' : ¬ q <+: d := fun e => h (List.isPrefixOf_iff_prefix.2 e)
    simp [h']

theorem isSome_known_add {db : Db} {d q : Path} {n : Str} : ((db.addFile d n).known q).isSome ↔ (db.known q).isSome ∨ q <+: d := by
  simp only [Db.addFile]
  split
  · rename_i h
    simp [List.isPrefixOf_iff_prefix.1 h]
  · rename_i h
    have h' : ¬ q <+: d := fun e => h (List.isPrefixOf_iff_prefix.2 e)
    simp [h']

theorem sorted_addSub {d q : Path} {l : List Str} (h : Sorted l) : Sorted (addSub d q l) := by
  unfold addSub
  split
  · split
    · exact h
    · exact sorted_addTerm h
  · exact h

theorem DbOk.addFile {db : Db} (h : DbOk db) (d : Path) (n : Str) : DbOk (db.addFile d n) where
  files p := by
    simp only [Db.addFile]
    split
    · exact sorted_addTerm (h.files p)
    · exact h.files p
  subdirs p := sorted_addSub (h.subdirs p)
  sub p c := by rw [mem_subdirs_add, isSome_known_add, h.sub]
  parent p c := by
    rw [isSome_known_add, isSome_known_add]
    rintro (h1 | h1)
    · exact .inl (h.parent p c h1)
    · exact .inr ((List.prefix_append _ _).trans h1)
  file p x := by
    rw [mem_files_add, isSome_known_add]
    rintro (h1 | ⟨rfl, _⟩)
    · exact .inl (h.file p x h1)
    · exact .inr (List.prefix_rfl)

theorem DbOk.removeFile {db : Db} (h : DbOk db) (d : Path) (n : Str) : DbOk (db.removeFile d n) where
  files p := by
    simp only [Db.removeFile]
    split
    · exact sorted_filter _ (h.files p)
    · exact h.files p
  subdirs := h.subdirs
  sub := h.sub
  parent := h.parent
  file p x := by
    simp only [Db.removeFile]
    split
    · intro hx; exact h.file p x (List.mem_filter.1 hx).1
    · exact h.file p x

theorem DbOk.deleteDir {db : Db} (h : DbOk db) (d : Path) (hf : db.files d = []) (hs : db.subdirs d = []) : DbOk (db.deleteDir d) where
  files := h.files
  subdirs p := sorted_filter _ (h.subdirs p)
  sub p c := by
    simp only [Db.deleteDir, List.mem_filter, decide_eq_true_eq, h.sub]
    by_cases e : p ++ [c] = d
    · simp [e]
    · simp [e]
  parent p c := by
    simp only [Db.deleteDir]
    by_cases e : p ++ [c] = d
    · rw [if_pos e]; simp
    · rw [if_neg e]
      intro h1
      by_cases e2 : p = d
      · subst e2
        have := (h.sub p c).2 h1
        rw [hs] at this
        simp at this
      · rw [if_neg e2]; exact h.parent p c h1
  file p x := by
    simp only [Db.deleteDir]
    intro h1
    by_cases e2 : p = d
    · subst e2; rw [hf] at h1; simp at h1
    · rw [if_neg e2]; exact h.file p x h1

theorem DbOk.setMtime {db : Db} (h : DbOk db) (d : Path) (t : Nat) (hk : (db.known d).isSome) : DbOk (db.setMtime d t) := by
  have hs : ∀ q, ((db.setMtime d t).known q).isSome = (db.known q).isSome := by
    intro q
    simp only [Db.setMtime]
    by_cases e : q = d
    · rw [if_pos e, e, hk]; rfl
    · rw [if_neg e]
  exact ⟨h.files, h.subdirs, fun p c => by rw [hs]; exact h.sub p c, fun p c => by rw [hs, hs]; exact h.parent p c, fun p x => by rw [hs]; exact h.file p x⟩

/-- A directory document has the documents of the directories above it. -/
theorem DbOk.known_prefix {db : Db} (h : DbOk db) {p q : Path} (hp : p <+: q) (hq : (db.known q).isSome) : (db.known p).isSome := by
  obtain ⟨r, rfl⟩ := hp
  have key : ∀ (r' : Path), (db.known (p ++ r'.reverse)).isSome → (db.known p).isSome := by
    intro r'
    induction r' with
    | nil => intro h; simpa using h
    | cons a r' ih =>
      rw [List.reverse_cons, ← List.append_assoc]
      intro hh
      exact ih (h.parent _ _ hh)
  apply key r.reverse
  simpa using hq

theorem after_append (db : Db) (a b : List Op) : after db (a ++ b) = after (after db a) b := by unfold after; rw [List.foldl_append]

/-- Adding files of the mail store. -/
def IsAdd (E : Env) (o : Op) : Prop := ∃ p n, o = .add p n ∧ Mail E p n

/-- What a series of additions does. -/
structure Added (E : Env) (db db' : Db) : Prop where
  ok : DbOk db → DbOk db'
  filesMono : ∀ p n, n ∈ db.files p → n ∈ db'.files p
  filesNew : ∀ p n, n ∈ db'.files p → n ∈ db.files p ∨ Mail E p n
  knownMono : ∀ p t, db.known p = some t → db'.known p = some t
  knownNew : ∀ p t, db'.known p = some t → db.known p = some t ∨ (db.known p = none ∧ t = 0 ∧ Scanned E p)
  subMono : ∀ p c, c ∈ db.subdirs p → c ∈ db'.subdirs p
  subNew : ∀ p c, c ∈ db'.subdirs p → c ∈ db.subdirs p ∨ Scanned E (p ++ [c])

theorem Added.refl (E : Env) (db : Db) : Added E db db :=
  ⟨id, fun _ _ => id, fun _ _ => .inl, fun _ _ => id, fun _ _ => .inl, fun _ _ => id, fun _ _ => .inl⟩

theorem Added.trans {E : Env} {a b c : Db} (h : Added E a b) (g : Added E b c) : Added E a c where
  ok := g.ok ∘ h.ok
  filesMono p n := g.filesMono p n ∘ h.filesMono p n
  filesNew p n x := by
    rcases g.filesNew p n x with y | y
    · exact h.filesNew p n y
    · exact .inr y
  knownMono p t := g.knownMono p t ∘ h.knownMono p t
  knownNew p t x := by
    rcases g.knownNew p t x with y | ⟨y1, y2, y3⟩
    · exact h.knownNew p t y
    · refine .inr ⟨?_, y2, y3⟩
      cases e : a.known p with
      | none => rfl
      | some u => rw [h.knownMono p u e] at y1; cases y1
  subMono p n := g.subMono p n ∘ h.subMono p n
  subNew p n x := by
    rcases g.subNew p n x with y | y
    · exact h.subNew p n y
    · exact .inr y

theorem added_one {E : Env} (db : Db) {p : Path} {n : Str} (hm : Mail E p n) : Added E db (db.addFile p n) where
  ok h := h.addFile p n
  filesMono q x h := mem_files_add.2 (.inl h)
  filesNew q x h := by
    rcases mem_files_add.1 h with h | ⟨rfl, rfl⟩
    · exact .inl h
    · exact .inr hm
  knownMono q t h := known_add.2 (.inl h)
  knownNew q t h := by
    rcases known_add.1 h with h | ⟨h1, h2, h3⟩
    · exact .inl h
    · exact .inr ⟨h1, h2, scanned_prefix hm.1.1 h3⟩
  subMono q c h := mem_subdirs_add.2 (.inl h)
  subNew q c h := by
    rcases mem_subdirs_add.1 h with h | h
    · exact .inl h
    · exact .inr (scanned_prefix hm.1.1 h)

theorem added_after {E : Env} : ∀ (ops : List Op) (db : Db), (∀ o ∈ ops, IsAdd E o) → Added E db (after db ops)
  | [], db, _ => Added.refl E db
  | o :: ops, db, h => by
    obtain ⟨p, n, rfl, hm⟩ := h o (by simp)
    exact (added_one db hm).trans (added_after ops _ (fun o ho => h o (by simp [ho])))

theorem rightAt_added {E : Env} {db db' : Db} (h : Added E db db') {p : Path} (r : RightAt E db p) : RightAt E db' p where
  has n hn := h.filesMono p n (r.has n hn)
  only n hn := by
    rcases h.filesNew p n hn with h1 | h1
    · exact r.only n h1
    · exact h1.1
  subs c hc := by
    rcases h.subNew p c hc with h1 | h1
    · exact r.subs c h1
    · exact (scanned_inv h1).2.1

theorem fresh_added {E : Env} (hm : ∀ p, E.fs.mtime p ≠ 0) {db db' : Db} (h : Added E db db') (f : Fresh E db) : Fresh E db' := by
  intro p hp hk
  rcases h.knownNew p _ hk with h1 | ⟨_, h2, _⟩
  · exact rightAt_added h (f p hp h1)
  · exact absurd h2 (hm p)

end Notmuch.New
