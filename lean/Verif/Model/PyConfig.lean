import Verif.Model.Config

/-!
# bindings/python-cffi/notmuch2/_config.py: the configuration as a mapping

Keys and values are bytes: what Python makes of bytes that are not UTF-8 is left out.  `qs` is `qsort`; `none` of a run is an access outside an array in C.
The mixin methods are those of `collections.abc.MutableMapping`.  Xapian throws no exception.
-/

namespace Notmuch.PyConfig
open Notmuch.StringMap

/-- What C sees of bytes that Python passes as `char*`. -/
def cstr (s : Str) : Str := s.takeWhile (· ≠ 0)

/-- A database with its configuration loaded. -/
structure State where
  map : Map
  mdata : List (Str × Str)
  writable : Bool

/-- Results of Python, and its exceptions. -/
inductive Result
  | done
  | value (v : Str)
  | item (k v : Str)
  | bool (b : Bool)
  | keys (l : List Str)
  | number (n : Nat)
  | keyError
  | notmuchError
deriving DecidableEq

/-- `if val == '': raise KeyError`, bindings/python-cffi/notmuch2/_config.py:74-75. -/
def notEmpty (v : Str) : Option Str := if v = [] then none else some v

/-- `__getitem__`, bindings/python-cffi/notmuch2/_config.py:65-76; looking may sort the map. -/
def getItem (qs : List Pair → List Pair) (s : State) (key : Str) : Option (State × Option Str) :=
  match StringMap.get qs s.map (cstr key) with
  | none => none
  | some (m, v) => some ({ s with map := m }, notEmpty (v.getD []))

/-- `__setitem__`, bindings/python-cffi/notmuch2/_config.py:78-85, and `notmuch_database_set_config`, lib/config.cc:59-90; `false` is the error of a database that is not writable. -/
def setItem (qs : List Pair → List Pair) (s : State) (key val : Str) : Option (State × Bool) :=
  if s.writable then (Config.setConfig qs s.map s.mdata (cstr key) (cstr val)).map (fun r => ({ s with map := r.1, mdata := r.2 }, true))
  else some (s, false)

/-- `__delitem__`, bindings/python-cffi/notmuch2/_config.py:87-88. -/
def delItem (qs : List Pair → List Pair) (s : State) (key : Str) : Option (State × Bool) := setItem qs s key []

/-- `ConfigIter.__next__` until the end, bindings/python-cffi/notmuch2/_config.py:21-34: keys with an empty value are skipped. -/
def iterate (m : Map) : Nat → Iter → List Str
  | 0, _ => []
  | n + 1, it =>
    match iterPair m it with
    | none => []
    | some p => if p.2 ≠ [] then p.1 :: iterate m n (iterNext m it) else iterate m n (iterNext m it)

/-- `list (config)`: `__iter__`, bindings/python-cffi/notmuch2/_config.py:90-98, and `notmuch_config_get_pairs`, lib/config.cc:359-367. -/
def listKeys (qs : List Pair → List Pair) (s : State) : Option (State × List Str) :=
  match iterCreate qs s.map (bs "") false with
  | none => none
  | some (m, it) => some ({ s with map := m }, iterate m m.pairs.length it)

/-- `MutableMapping.popitem`: the first key. -/
def popItem (qs : List Pair → List Pair) (s : State) : Option (State × Result) :=
  match listKeys qs s with
  | none => none
  | some (s, []) => some (s, .keyError)
  | some (s, k :: _) =>
    match getItem qs s k with
    | none => none
    | some (s, none) => some (s, .keyError)
    | some (s, some v) =>
      match delItem qs s k with
      | none => none
      | some (s, ok) => some (s, if ok then .item k v else .notmuchError)

/-- `MutableMapping.clear`: `popitem` until there is a KeyError. -/
def clear (qs : List Pair → List Pair) : Nat → State → Option (State × Result)
  | 0, _ => none
  | n + 1, s =>
    match popItem qs s with
    | none => none
    | some (s, .keyError) => some (s, .done)
    | some (s, .item _ _) => clear qs n s
    | some (s, r) => some (s, r)

/-- What a program may do with the mapping. -/
inductive Op
  | get (k : Str)
  | contains (k : Str)
  | set (k v : Str)
  | del (k : Str)
  | keys
  | len
  | popitem
  | clear

/-- One of them; `contains` is `Mapping.__contains__`, `len` is `__len__`, bindings/python-cffi/notmuch2/_config.py:100-101. -/
def step (qs : List Pair → List Pair) (s : State) : Op → Option (State × Result)
  | .get k => (getItem qs s k).map (fun r => (r.1, match r.2 with | some v => .value v | none => .keyError))
  | .contains k => (getItem qs s k).map (fun r => (r.1, .bool r.2.isSome))
  | .set k v => (setItem qs s k v).map (fun r => (r.1, if r.2 then .done else .notmuchError))
  | .del k => (delItem qs s k).map (fun r => (r.1, if r.2 then .done else .notmuchError))
  | .keys => (listKeys qs s).map (fun r => (r.1, .keys r.2))
  | .len => (listKeys qs s).map (fun r => (r.1, .number r.2.length))
  | .popitem => popItem qs s
  | .clear => clear qs (s.map.pairs.length + 1) s

/-- A history: what each operation gives. -/
def run (qs : List Pair → List Pair) : State → List Op → Option (State × List Result)
  | s, [] => some (s, [])
  | s, o :: os =>
    match step qs s o with
    | none => none
    | some (s, r) => (run qs s os).map (fun x => (x.1, r :: x.2))

end Notmuch.PyConfig
