import Verif.Base.Bytes

/-!
# lib/string-map.c: the sorted array behind message properties and configuration

`qs` stands for `qsort` with `cmppair` (lib/string-map.c:84-95): the theorems assume of it only that it
sorts.  Reading the array outside its bounds, and a search that does not end, give `none`.
Running out of memory is not modelled.
-/

namespace Notmuch.StringMap

/-- `notmuch_string_pair_t`, lib/string-map.c:30-33. -/
abbrev Pair := Str × Str

/-- `struct _notmuch_string_map`, lib/string-map.c:35-39.  `length` is the length of `pairs`; the
sentinel after the last pair is left out. -/
structure Map where
  sorted : Bool
  pairs : List Pair

/-- `strcmp`: comparison as unsigned bytes. -/
def strcmp : Str → Str → Ordering
  | [], [] => .eq
  | [], _ :: _ => .lt
  | _ :: _, [] => .gt
  | a :: as, b :: bs => if a < b then .lt else if b < a then .gt else strcmp as bs

/-- `strncmp (a, b, strlen (a))`. -/
def strncmpLen : Str → Str → Ordering
  | [], _ => .eq
  | _ :: _, [] => .gt
  | a :: as, b :: bs => if a < b then .lt else if b < a then .gt else strncmpLen as bs

/-- `_notmuch_string_map_create`, lib/string-map.c:47-61. -/
def create : Map := ⟨true, []⟩

/-- `_notmuch_string_map_append`, lib/string-map.c:63-85. -/
def append (m : Map) (key value : Str) : Map := ⟨false, m.pairs ++ [(key, value)]⟩

/-- `cmppair`, lib/string-map.c:87-98. -/
def cmppair (a b : Pair) : Ordering :=
  match strcmp a.1 b.1 with
  | .eq => strcmp a.2 b.2
  | c => c

/-- `_notmuch_string_map_sort`, lib/string-map.c:100-112. -/
def sort (qs : List Pair → List Pair) (m : Map) : Map :=
  if m.pairs.length = 0 then m
  else if m.sorted then m
  else ⟨true, qs m.pairs⟩

/-- `string_cmp`, lib/string-map.c:114-121. -/
def stringCmp (a b : Str) (exact : Bool) : Ordering :=
  if exact then strcmp a b else strncmpLen a b

/-- The loop of `bsearch_first`, lib/string-map.c:133-141. -/
def bsearchLoop (arr : List Pair) (key : Str) (exact : Bool) : Nat → Nat → Nat → Option Nat
  | 0, _, _ => none
  | fuel + 1, first, last =>
    if last > first then
      let mid := (first + last) / 2
      match arr[mid]? with
      | none => none
      | some p =>
        if stringCmp key p.1 exact = .gt then bsearchLoop arr key exact fuel (mid + 1) last
        else bsearchLoop arr key exact fuel first mid
    else some first

/-- `bsearch_first`, lib/string-map.c:123-149: `some none` is NULL. -/
def bsearchFirst (arr : List Pair) (key : Str) (exact : Bool) : Option (Option Nat) :=
  if arr.length = 0 then some none
  else
    match bsearchLoop arr key exact (arr.length + 1) 0 (arr.length - 1) with
    | none => none
    | some first =>
      match arr[first]? with
      | none => none
      | some p => if stringCmp key p.1 exact = .eq then some (some first) else some none

/-- `_notmuch_string_map_set`, lib/string-map.c:151-167. -/
def set (qs : List Pair → List Pair) (m : Map) (key val : Str) : Option Map :=
  let m := sort qs m
  match bsearchFirst m.pairs key true with
  | none => none
  | some none => some (append m key val)
  | some (some i) =>
    match m.pairs[i]? with
    | none => none
    | some p => some { m with pairs := m.pairs.set i (p.1, val) }

/-- `_notmuch_string_map_get`, lib/string-map.c:169-182: the map is sorted in place. -/
def get (qs : List Pair → List Pair) (m : Map) (key : Str) : Option (Map × Option Str) :=
  let m := sort qs m
  match bsearchFirst m.pairs key true with
  | none => none
  | some none => some (m, none)
  | some (some i) =>
    match m.pairs[i]? with
    | none => none
    | some p => some (m, some p.2)

/-- `struct _notmuch_string_map_iterator`, lib/string-map.c:41-45; `current` is an index into the array. -/
structure Iter where
  current : Option Nat
  exact : Bool
  key : Str

/-- `_notmuch_string_map_iterator_create`, lib/string-map.c:184-203. -/
def iterCreate (qs : List Pair → List Pair) (m : Map) (key : Str) (exact : Bool) : Option (Map × Iter) :=
  let m := sort qs m
  match bsearchFirst m.pairs key exact with
  | none => none
  | some c => some (m, ⟨c, exact, key⟩)

/-- `_notmuch_string_map_iterator_valid`, lib/string-map.c:205-217; past the last pair is the
sentinel. -/
def iterValid (m : Map) (it : Iter) : Bool :=
  match it.current with
  | none => false
  | some i =>
    match m.pairs[i]? with
    | none => false
    | some p => stringCmp it.key p.1 it.exact = .eq

/-- `_notmuch_string_map_iterator_move_to_next`, lib/string-map.c:219-227. -/
def iterNext (m : Map) (it : Iter) : Iter :=
  if iterValid m it then { it with current := it.current.map (· + 1) } else it

/-- `_notmuch_string_map_iterator_key` and `_value`, lib/string-map.c:229-245. -/
def iterPair (m : Map) (it : Iter) : Option Pair :=
  if iterValid m it then
    match it.current with
    | none => none
    | some i => m.pairs[i]?
  else none

end Notmuch.StringMap
