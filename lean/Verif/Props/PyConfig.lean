import Verif.Proofs.PyConfig
import Verif.Props.Config

namespace Notmuch.Props
open Notmuch.PyConfig Notmuch.PyConfigSpec Notmuch.Config
open Notmuch.StringMap (Map Pair cmppair)
open Notmuch.StringMapSpec (QSort)

private theorem value_no_nul (o : Opening) (hm : ∀ x ∈ o.mdata, 0 ∉ x.1) (hf : ∀ x ∈ o.file, 0 ∉ x.1 ∧ 0 ∉ x.2.1) : NoNul (value o) := by
  intro k hk h0
  apply hk
  have ne : ∀ t : Str, (0 : UInt8) ∉ t → k ≠ t := fun t ht e => ht (e ▸ h0)
  have h1 : fileValue o.file k = none := by
    have : o.file.filter (fun x => x.1 ++ bs "." ++ x.2.1 = k) = [] := by
      rw [List.filter_eq_nil_iff]
      intro x hx e
      have e : x.1 ++ bs "." ++ x.2.1 = k := by simpa using e
      rw [← e] at h0
      rcases List.mem_append.1 h0 with h | h
      · rcases List.mem_append.1 h with h | h
        · exact (hf x hx).1 h
        · exact absurd h (by decide +kernel)
      · exact (hf x hx).2 h
    unfold fileValue
    rw [this]
    rfl
  have h2 : dbValue o.mdata k = none := by
    unfold dbValue
    rw [List.find?_eq_none.2]
    · rfl
    · intro x hx e
      have e : x.1 = k := by simpa using e
      exact hm x hx (e ▸ h0)
  have h3 : default o.env o.pwName o.pwUser k = none := by
    unfold Config.default
    repeat rw [if_neg (ne _ (by decide +kernel))]
  have h4 : configured o k = none := by
    unfold configured
    have hp : k ≠ bs "database.path" := ne _ (by decide +kernel)
    rw [h1, h2, if_neg hp, if_neg (fun h => hp h.1)]
    rfl
  unfold value
  rw [h3, h4]
  repeat rw [if_neg (ne _ (by decide +kernel))]
  rfl

/-- **C83**: after opening a database (with database.path given, or not in the database), `db.config` is a dictionary of the values that are not empty: whatever a program does with it, in whatever order
and however long, each operation gives and changes what it would of a dictionary with these items, except that deleting a key that is not there is no error, and setting an empty value deletes. -/
theorem C83_mapping (qs : List Pair → List Pair) (hq : QSort cmppair qs) (o : Opening) (hnd : (o.mdata.map (·.1)).Nodup)
    (ha : o.arg = true ∨ bs "database.path" ∉ o.mdata.map (·.1)) (hm : ∀ x ∈ o.mdata, 0 ∉ x.1) (hf : ∀ x ∈ o.file, 0 ∉ x.1 ∧ 0 ∉ x.2.1) :
    ∃ m d, openConfig qs o = some m ∧ Good d ∧ (∀ k v, look d k = some v ↔ value o k = some v ∧ v ≠ []) ∧
      ∀ (writable : Bool) (ops : List Op), (∀ x ∈ ops, OpOk x) → ∃ s' d' rs, run qs ⟨m, o.mdata, writable⟩ ops = some (s', rs) ∧ Runs writable d ops d' rs := by
  obtain ⟨m, e, h⟩ := rep_open hq o hnd ha
  refine ⟨m, dict qs m, e, dict_good hq h, dict_look hq h, ?_⟩
  intro w ops hops
  obtain ⟨s', rs, e2, h2⟩ := run_spec hq ops ⟨m, o.mdata, w⟩ (value o) h (value_no_nul o hm hf) hops
  exact ⟨s', _, rs, e2, h2⟩

/-- **C83** (what the specification means): keys come in order, each once, and just those with a value. -/
theorem C83_keys (w : Bool) (d d' : Dict) (l : List Str) (hd : Good d) (h : Does w d .keys d' (.keys l)) : l.Nodup ∧ (∀ k, k ∈ l ↔ look d k ≠ none) ∧ d' = d := by
  cases h
  refine ⟨List.pairwise_map.2 (hd.1.imp (fun h => h.2)), ?_, rfl⟩
  intro k
  constructor
  · intro hk
    obtain ⟨x, hx, rfl⟩ := List.mem_map.1 hk
    rw [(look_mem hd x.1 x.2).2 hx]
    simp
  · intro hk
    cases hl : look d k with
    | none => exact absurd hl hk
    | some v => exact List.mem_map.2 ⟨(k, v), (look_mem hd k v).1 hl, rfl⟩

/-- **C83** (the result is determined): the specification leaves no choice. -/
theorem C83_determined (w : Bool) (d d1 d2 : Dict) (o : Op) (r1 r2 : Result) (h1 : Does w d o d1 r1) (h2 : Does w d o d2 r2) : r1 = r2 ∧ d1 = d2 := by
  have ext : ∀ {k : Str} {x : Option Str} {a b : Dict}, Good a → look a k = x → (∀ k', k' ≠ k → look a k' = look d k') → Good b → look b k = x → (∀ k', k' ≠ k → look b k' = look d k') → a = b := by
    intro k x a b g1 e1 f1 g2 e2 f2
    apply good_ext g1 g2
    intro y
    by_cases hy : y = k
    · rw [hy, e1, e2]
    · rw [f1 y hy, f2 y hy]
  cases h1 <;> cases h2 <;> first
    | exact ⟨rfl, rfl⟩
    | exact ⟨rfl, ext (by assumption) (by assumption) (by assumption) (by assumption) (by assumption) (by assumption)⟩
    | contradiction
    | simp_all

/-- Not so: what follows a NUL in a key is ignored. -/
theorem C83_nul_counterexample (qs : List Pair → List Pair) (s : State) (k t : Str) (h : 0 ∉ k) : getItem qs s (k ++ 0 :: t) = getItem qs s k := by
  have : cstr (k ++ 0 :: t) = cstr k := by
    unfold cstr
    induction k with
    | nil => simp
    | cons c k ih =>
      have hc : c ≠ 0 := fun e => h (e ▸ List.mem_cons_self ..)
      have ih := ih (fun hm => h (List.mem_cons_of_mem _ hm))
      rw [List.cons_append, List.takeWhile_cons_of_pos (by simpa using hc), List.takeWhile_cons_of_pos (by simpa using hc), ih]
  unfold getItem
  rw [this]

private def exDup : Opening :=
  ⟨⟨bs "/h", fun _ => none⟩, none, false, bs "/b", bs "/b/xapian", [], [(bs "database.path", bs "/a")], fun _ => false, bs "Ann", bs "ann"⟩

/-- Not so: with database.path stored in the database and none given the key is there twice, and after deleting it is still listed, although looking for it finds nothing; so clearing stops there and
leaves the rest. -/
theorem C83_duplicate_counterexample : ∃ (o : Opening) (m : Map), (o.mdata.map (·.1)).Nodup ∧ openConfig exSort o = some m ∧
    (run exSort ⟨m, o.mdata, true⟩ [.keys, .del (bs "database.path"), .contains (bs "database.path"), .keys, .clear, .keys]).map (·.2) =
      some [.keys [bs "database.autocommit", bs "database.backup_dir", bs "database.hook_dir", bs "database.mail_root", bs "database.path", bs "database.path", bs "maildir.synchronize_flags",
          bs "new.tags", bs "user.name", bs "user.primary_email"], .done, .bool false,
        .keys [bs "database.autocommit", bs "database.backup_dir", bs "database.hook_dir", bs "database.mail_root", bs "database.path", bs "maildir.synchronize_flags", bs "new.tags",
          bs "user.name", bs "user.primary_email"], .done,
        .keys [bs "database.path", bs "maildir.synchronize_flags", bs "new.tags", bs "user.name", bs "user.primary_email"]] := by
  have h : (openConfig exSort exDup).isSome = true := by decide +kernel
  refine ⟨exDup, (openConfig exSort exDup).getD StringMap.create, by decide +kernel, ?_, ?_⟩
  · cases hx : openConfig exSort exDup with
    | none => rw [hx] at h; cases h
    | some y => rfl
  · decide +kernel

private def st : State := ⟨⟨true, [(bs "a", bs "1"), (bs "b", []), (bs "c", bs "3")]⟩, [], true⟩

/-- The hypotheses of C83_mapping hold of a database with configuration in both places. -/
example : ∃ o : Opening, o.mdata = [(bs "new.tags", bs "new")] ∧ o.file = [(bs "user", bs "name", bs "Bob")] ∧ (o.mdata.map (·.1)).Nodup ∧ (o.arg = true ∨ bs "database.path" ∉ o.mdata.map (·.1)) ∧
    (∀ x ∈ o.mdata, 0 ∉ x.1) ∧ (∀ x ∈ o.file, 0 ∉ x.1 ∧ 0 ∉ x.2.1) ∧ value o (bs "user.name") = some (bs "Bob") :=
  ⟨{ exDup with mdata := [(bs "new.tags", bs "new")], file := [(bs "user", bs "name", bs "Bob")] }, rfl, rfl, by decide +kernel, by decide +kernel, by decide +kernel, by decide +kernel, by decide +kernel⟩

/-- Some operations; the same with a database for reading only. -/
theorem C83_example :
    (run exSort st [.keys, .get (bs "b"), .set (bs "b") (bs "2"), .len, .popitem, .keys, .del (bs "zz"), .contains (bs "c"), .set (bs "c") [], .contains (bs "c"), .clear, .len]).map (·.2) =
      some [.keys [bs "a", bs "c"], .keyError, .done, .number 3, .item (bs "a") (bs "1"), .keys [bs "b", bs "c"], .done, .bool true, .done, .bool false, .done, .number 0] ∧
    (run exSort { st with writable := false } [.set (bs "x") (bs "y"), .clear, .get (bs "a")]).map (·.2) = some [.notmuchError, .notmuchError, .value (bs "1")] := by
  constructor <;> decide +kernel

end Notmuch.Props
