import Verif.Model.DumpRestore

/-!
# What dump followed by restore must achieve
-/

namespace Notmuch.DumpSpec
open Notmuch.DumpRestore

/-- What every stored message satisfies: a non-empty id without NUL, admissible tags, properties
whose key has no `=`.  The id has no line break: dump documents that it skips such messages. -/
structure ValidMsg (m : Msg) : Prop where
  id_ne : m.id ≠ []
  id_nul : 0 ∉ m.id
  id_nl : 10 ∉ m.id
  tag_ok : ∀ t ∈ m.tags, t.length ≤ 200 ∧ 0 ∉ t
  prop_ok : ∀ kv ∈ m.props, 61 ∉ kv.1 ∧ 0 ∉ kv.1 ∧ 0 ∉ kv.2

/-- Configuration items have a key and a value. -/
def ValidConfig (c : List (Str × Str)) : Prop :=
  (∀ kv ∈ c, kv.1 ≠ [] ∧ kv.2 ≠ [] ∧ 0 ∉ kv.1 ∧ 0 ∉ kv.2) ∧ (c.map (·.1)).Nodup

structure ValidDb (db : Db) : Prop where
  msgs : ∀ m ∈ db.msgs, ValidMsg m
  ids : (db.msgs.map (·.id)).Nodup
  config : ValidConfig db.config

/-- Ids and tags that the sup format can carry. -/
structure SupMsg (m : Msg) : Prop where
  id_ne : m.id ≠ []
  id_sp : 32 ∉ m.id
  id_nl : 10 ∉ m.id
  id_hash : m.id.head? ≠ some 35
  tag_ok : ∀ t ∈ m.tags, t ≠ [] ∧ 32 ∉ t ∧ 41 ∉ t ∧ 10 ∉ t ∧ t.length ≤ 200

/-- The stored message with that id (ids are unique). -/
def Has (db : Db) (id : Str) (m : Msg) : Prop := m ∈ db.msgs ∧ m.id = id

/-- The database reached, whether or not restore reports success. -/
def _root_.Notmuch.DumpRestore.Res.db? : Res → Option Db
  | .ok db => some db
  | .fail db => some db
  | .ub => none

end Notmuch.DumpSpec
