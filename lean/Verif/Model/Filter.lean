import Verif.Base.Bytes

/-!
# The text filters: lib/index.cc (what is not indexed) and gmime-filter-reply.c (quoting)

A filter is called with one piece of the text after the other.  The last piece comes with `filter_complete`, which does the same
(lib/index.cc:220-226, gmime-filter-reply.c:172-178).
-/

namespace Notmuch.Filter

/-! ## lib/index.cc -/

/-- `scanner_state_t`, lib/index.cc:28-34. -/
structure Row where
  state : Nat
  a : UInt8
  b : UInt8
  ifMatch : Nat
  ifNot : Nat

/-- `uuencode_states`, lib/index.cc:45-59. -/
def uuencode : Array Row := #[⟨0, 98, 98, 1, 0⟩, ⟨1, 101, 101, 2, 0⟩, ⟨2, 103, 103, 3, 0⟩, ⟨3, 105, 105, 4, 0⟩, ⟨4, 110, 110, 5, 0⟩, ⟨5, 32, 32, 6, 0⟩,
  ⟨6, 48, 55, 7, 0⟩, ⟨7, 48, 55, 8, 0⟩, ⟨8, 48, 55, 9, 0⟩, ⟨9, 32, 32, 10, 0⟩, ⟨10, 10, 10, 11, 10⟩, ⟨11, 77, 77, 12, 0⟩, ⟨12, 32, 96, 12, 11⟩]

/-- `html_states`, lib/index.cc:79-86. -/
def html : Array Row := #[⟨0, 60, 60, 1, 0⟩, ⟨1, 39, 39, 4, 2⟩, ⟨1, 34, 34, 5, 3⟩, ⟨1, 62, 62, 0, 1⟩, ⟨4, 39, 39, 1, 4⟩, ⟨5, 34, 34, 1, 5⟩]

/-- The inner loop of `filter_filter`, lib/index.cc:199-206: `none` when a row is missing or the loop has not ended after `fuel` rounds. -/
def next (rows : Array Row) : Nat → Nat → UInt8 → Option Nat
  | 0, _, _ => none
  | fuel + 1, st, c =>
    match rows[st]? with
    | none => none
    | some r =>
      let st' := if r.a ≤ c && c ≤ r.b then r.ifMatch else r.ifNot
      match rows[st']? with
      | none => none
      | some r' => if st' = r'.state then some st' else next rows fuel st' c

/-- `filter_filter`, lib/index.cc:173-218: the state and the output.  `char` may be signed, which is the same here, as the tables are ASCII. -/
def discard (rows : Array Row) (skip : Nat) : Nat → Str → Option (Nat × Str)
  | st, [] => some (st, [])
  | st, c :: s =>
    match next rows (rows.size + 1) st c with
    | none => none
    | some st' =>
      match discard rows skip st' s with
      | none => none
      | some (e, out) => some (e, if st < skip then c :: out else out)

/-- The filter for a part, lib/index.cc:263-280. -/
def discardNew (isHtml : Bool) : Array Row × Nat := if isHtml then (html, 1) else (uuencode, 11)

/-- The text in pieces. -/
def discardAll (f : Array Row × Nat) : Nat → List Str → Option (Nat × Str)
  | st, [] => some (st, [])
  | st, s :: l =>
    match discard f.1 f.2 st s with
    | none => none
    | some (st, out) =>
      match discardAll f st l with
      | none => none
      | some (st, out') => some (st, out ++ out')

/-! ## gmime-filter-reply.c -/

/-- `filter_filter` when quoting, gmime-filter-reply.c:122-139; the state is `saw_nl`. -/
def quote : Bool → Str → Bool × Str
  | nl, [] => (nl, [])
  | nl, c :: s =>
    let r := quote (c = 10) s
    (r.1, (if nl then [62, 32] else []) ++ (if c ≠ 13 then [c] else []) ++ r.2)

/-- `saw_nl` and `saw_angle`. -/
structure Unq where
  nl : Bool
  angle : Bool
  deriving DecidableEq

/-- `filter_filter` when taking quotes away, gmime-filter-reply.c:140-165. -/
def unquote : Unq → Str → Unq × Str
  | st, [] => (st, [])
  | st, c :: s =>
    if st.nl then
      if c = 62 then unquote ⟨false, true⟩ s
      else
        let r := unquote ⟨false, st.angle⟩ s
        (r.1, c :: r.2)
    else if st.angle then
      if c = 32 then unquote ⟨false, false⟩ s
      else
        let r := unquote ⟨false, false⟩ s
        (r.1, c :: r.2)
    else if c ≠ 13 then
      let r := unquote ⟨c = 10, false⟩ s
      (r.1, c :: r.2)
    else unquote st s

/-- The text in pieces. -/
def quoteAll : Bool → List Str → Bool × Str
  | nl, [] => (nl, [])
  | nl, s :: l =>
    let r := quote nl s
    let r' := quoteAll r.1 l
    (r'.1, r.2 ++ r'.2)

def unquoteAll : Unq → List Str → Unq × Str
  | st, [] => (st, [])
  | st, s :: l =>
    let r := unquote st s
    let r' := unquoteAll r.1 l
    (r'.1, r.2 ++ r'.2)

end Notmuch.Filter
