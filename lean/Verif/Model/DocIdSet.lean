import Verif.Base.Bytes

/-!
# lib/query.cc: sets of document ids

A read or write outside the bitmap gives `none`.  `unsigned int` has 32 bits.
-/

namespace Notmuch.DocIdSet

/-- `struct _notmuch_doc_id_set`, lib/query.cc:46-49. -/
structure DocIdSet where
  bitmap : List UInt8
  bound : Nat

/-- `DOCIDSET_WORD`, `DOCIDSET_BIT`, lib/query.cc:51-52 (`CHAR_BIT` is 8). -/
def word (bit : Nat) : Nat := bit / 8
def bit (bit : Nat) : Nat := bit % 8

/-- `1 << DOCIDSET_BIT (doc_id)`. -/
def mask (docId : Nat) : UInt8 := 1 <<< UInt8.ofNat (bit docId)

/-- `bitmap[DOCIDSET_WORD (doc_id)] = f (bitmap[DOCIDSET_WORD (doc_id)])`. -/
def modify (bitmap : List UInt8) (docId : Nat) (f : UInt8 → UInt8) : Option (List UInt8) :=
  match bitmap[word docId]? with
  | none => none
  | some b => some (bitmap.set (word docId) (f b))

/-- The second loop of `_notmuch_doc_id_set_init`, lib/query.cc:551-554. -/
def setAll : List UInt8 → List Nat → Option (List UInt8)
  | bitmap, [] => some bitmap
  | bitmap, d :: ds =>
    match modify bitmap d (fun b => b ||| mask d) with
    | none => none
    | some bitmap' => setAll bitmap' ds

/-- `_notmuch_doc_id_set_init`, lib/query.cc:532-557.  `arr` is the array; running out of memory is
not modelled. -/
def init (arr : List Nat) : Option DocIdSet :=
  let max := arr.foldl Nat.max 0
  match setAll (List.replicate (word max + 1) 0) arr with
  | none => none
  | some bitmap => some ⟨bitmap, (max + 1) % 4294967296⟩

/-- `_notmuch_doc_id_set_contains`, lib/query.cc:559-566. -/
def contains (s : DocIdSet) (docId : Nat) : Option Bool :=
  if docId ≥ s.bound then some false
  else
    match s.bitmap[word docId]? with
    | none => none
    | some b => some (b &&& mask docId != 0)

/-- `_notmuch_doc_id_set_remove`, lib/query.cc:568-574. -/
def remove (s : DocIdSet) (docId : Nat) : Option DocIdSet :=
  if docId < s.bound then
    match modify s.bitmap docId (fun b => b &&& ~~~ mask docId) with
    | none => none
    | some bitmap => some { s with bitmap := bitmap }
  else some s

end Notmuch.DocIdSet
