import Verif.Model.PyConfig
import Verif.Spec.StringMap

/-! # What a mapping should do, for C83: a dictionary in which no value is empty -/

namespace Notmuch.PyConfigSpec
open Notmuch.PyConfig
open Notmuch.StringMapSpec (LexLe)

/-- A dictionary as a list of its items in the order of keys. -/
abbrev Dict := List (Str × Str)

/-- In order, each key once, no value empty. -/
def Good (d : Dict) : Prop := d.Pairwise (fun a b => LexLe a.1 b.1 ∧ a.1 ≠ b.1) ∧ ∀ x ∈ d, x.2 ≠ []

/-- Looking up. -/
def look (d : Dict) (k : Str) : Option Str := (d.find? (fun x => x.1 = k)).map (·.2)

/-- What an operation should do to a dictionary, and give; a change of a database opened for reading only is an error. -/
inductive Does : Bool → Dict → Op → Dict → Result → Prop
  | get {w d k v} : look d k = some v → Does w d (.get k) d (.value v)
  | getNone {w d k} : look d k = none → Does w d (.get k) d .keyError
  | contains {w d k} : Does w d (.contains k) d (.bool (look d k).isSome)
  | set {d d' k v} : v ≠ [] → Good d' → look d' k = some v → (∀ k', k' ≠ k → look d' k' = look d k') → Does true d (.set k v) d' .done
  | setEmpty {d d' k} : Good d' → look d' k = none → (∀ k', k' ≠ k → look d' k' = look d k') → Does true d (.set k []) d' .done
  | del {d d' k} : Good d' → look d' k = none → (∀ k', k' ≠ k → look d' k' = look d k') → Does true d (.del k) d' .done
  | setError {d k v} : Does false d (.set k v) d .notmuchError
  | delError {d k} : Does false d (.del k) d .notmuchError
  | keys {w d} : Does w d .keys d (.keys (d.map (·.1)))
  | len {w d} : Does w d .len d (.number d.length)
  | popitem {k v d} : Does true ((k, v) :: d) .popitem d (.item k v)
  | popNone {w} : Does w [] .popitem [] .keyError
  | popError {x d} : Does false (x :: d) .popitem (x :: d) .notmuchError
  | clear {d} : Does true d .clear [] .done
  | clearNone : Does false [] .clear [] .done
  | clearError {x d} : Does false (x :: d) .clear (x :: d) .notmuchError

/-- A history. -/
inductive Runs : Bool → Dict → List Op → Dict → List Result → Prop
  | nil {w d} : Runs w d [] d []
  | cons {w d o d' r os d'' rs} : Does w d o d' r → Runs w d' os d'' rs → Runs w d (o :: os) d'' (r :: rs)

/-- The bytes a program gives have no NUL. -/
def OpOk : Op → Prop
  | .get k => 0 ∉ k
  | .contains k => 0 ∉ k
  | .set k v => 0 ∉ k ∧ 0 ∉ v
  | .del k => 0 ∉ k
  | _ => True

end Notmuch.PyConfigSpec
