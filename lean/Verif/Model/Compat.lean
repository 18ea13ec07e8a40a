import Verif.Base.Bytes

/-!
# Replacements for functions of the C library: compat/timegm.c, compat/strsep.c, compat/strcasestr.c, compat/getdelim.c

`int` has 32 bits, `size_t` and `ssize_t` have 64.  What C does not define (overflow of `int`, an access outside of an object) is `none` or `fault`.
-/

namespace Notmuch.Compat

/-! ## timegm -/

/-- The fields of `struct tm` that are used. -/
structure Tm where
  year : Int
  mon : Int
  mday : Int
  hour : Int
  min : Int
  sec : Int
  deriving DecidableEq

/-- The result of an operation on `int`. -/
def int (x : Int) : Option Int := if -2147483648 ≤ x ∧ x < 2147483648 then some x else none

/-- `leapyear`, compat/timegm.c:23-27. -/
def leapyear (year : Int) : Bool := year.tmod 4 == 0 && (year.tmod 100 != 0 || year.tmod 400 == 0)

/-- `monthlen`, compat/timegm.c:39-42. -/
def monthlen (leap : Bool) : List Int :=
  if leap then [31, 29, 31, 30, 31, 30, 31, 31, 30, 31, 30, 31] else [31, 28, 31, 30, 31, 30, 31, 31, 30, 31, 30, 31]

/-- The loop over years, compat/timegm.c:46-50, with the number of rounds that are left.  Simplified: `1900 + year` is not checked, which is less than the days. -/
def yearLoop : Nat → Int → Int → Option Int
  | 0, _, days => some days
  | n + 1, year, days =>
    match if leapyear (1900 + year) then int (days + 1) else some days with
    | none => none
    | some days => yearLoop n (year + 1) days

/-- The loop over months, compat/timegm.c:51-53. -/
def monthLoop (leap : Bool) : Nat → Nat → Int → Option Int
  | 0, _, days => some days
  | n + 1, month, days =>
    match (monthlen leap)[month]? with
    | none => none
    | some l =>
      match int (days + l) with
      | none => none
      | some days => monthLoop leap n (month + 1) days

/-- `timegm`, compat/timegm.c:35-56. -/
def timegm (tm : Tm) : Option Int := do
  let d ← int (tm.year - 70)
  let d ← int (365 * d)
  let d ← yearLoop (tm.year - 70).toNat 70 d
  let d ← monthLoop (leapyear (1900 + (if 70 < tm.year then tm.year else 70))) tm.mon.toNat 0 d
  let d ← int (d + (tm.mday - 1))
  let t ← int (d * 24)
  let t ← int (t + tm.hour)
  let t ← int (t * 60)
  let t ← int (t + tm.min)
  let t ← int (t * 60)
  int (t + tm.sec)

/-! ## strsep -/

/-- The first byte, from a position on, for which `f` is true, before the end of the string: `strchr` (not for the NUL) and `strpbrk`. -/
def search (f : UInt8 → Bool) : Str → Nat → Option Nat
  | [], _ => none
  | c :: cs, i => if c = 0 then none else if f c then some i else search f cs (i + 1)

/-- `strsep`, compat/strsep.c:23-61.  `*stringp` is a position in the memory, or `NULL`; so are the results: what is returned, the memory, and `*stringp`. -/
def strsep (mem : Str) (stringp : Option Nat) (delim : Str) : Option Nat × Str × Option Nat :=
  match stringp with
  | none => (none, mem, none)
  | some b =>
    let e :=
      match delim with
      | [] => none
      | [ch] =>
        if mem[b]? = some ch then some b
        else if mem[b]? = some 0 then none
        else search (· == ch) (mem.drop (b + 1)) (b + 1)
      | ds => search (fun c => ds.contains c) (mem.drop b) b
    match e with
    | some e => (some b, mem.set e 0, some (e + 1))
    | none => (some b, mem, none)

/-! ## strcasestr -/

/-- `strncasecmp (a, b, n) == 0` in the C locale. -/
def strncaseeq : Str → Str → Nat → Bool
  | _, _, 0 => true
  | [], [], _ + 1 => true
  | a :: as, b :: bs, n + 1 => toLower a == toLower b && strncaseeq as bs n
  | _, _, _ + 1 => false

/-- The loop of `strcasestr`, compat/strcasestr.c:33-40, with the position. -/
def strcasestrLoop (needle : Str) : Str → Nat → Option Nat
  | [], i => if 0 ≥ needle.length then (if strncaseeq [] needle needle.length then some i else none) else none
  | c :: cs, i =>
    if (c :: cs).length ≥ needle.length then
      if strncaseeq (c :: cs) needle needle.length then some i else strcasestrLoop needle cs (i + 1)
    else none

/-- `strcasestr`, compat/strcasestr.c:27-42: the position that is found. -/
def strcasestr (haystack needle : Str) : Option Nat := strcasestrLoop needle haystack 0

/-! ## getdelim -/

/-- `*lineptr` (how many bytes it points to, or `NULL`) and `*n`. -/
structure LineBuf where
  block : Option Nat
  n : Nat
  deriving DecidableEq

/-- What a call of `getdelim` does: what is returned, the buffer with the bytes before the NUL that it wrote (if it did), and what is left to read; or an access outside of the block. -/
inductive Read where
  | ret (r : Int) (buf : LineBuf) (line : Option Str) (rest : Str)
  | fault
  deriving DecidableEq

/-- `needed`, compat/getdelim.c:86-91. -/
def needed (n : Nat) : Nat := min (2 ^ 63) ((2 * n + 1) % 2 ^ 64)

/-- `(*lineptr)[i] = c` is in the block. -/
def LineBuf.holds (b : LineBuf) (i : Nat) : Bool :=
  match b.block with
  | none => false
  | some s => i < s

/-- The end of `getdelim`, compat/getdelim.c:116-117; `eof` is whether the loop ended with `result` -1, which it is anyway. -/
def finish (b : LineBuf) (cur rest : Str) : Read :=
  if b.holds cur.length then .ret (if cur.length ≠ 0 then cur.length else -1) b (some cur) rest else .fault

/-- The loop, compat/getdelim.c:75-115; `alloc` says whether `realloc` can give so many bytes.  `cur` is what was written, its length is `cur_len`. -/
def getdelimLoop (alloc : Nat → Bool) (delim : UInt8) : Str → LineBuf → Str → Read
  | [], b, cur => finish b cur []
  | c :: rest, b, cur =>
    if cur.length + 1 ≥ b.n then
      if cur.length + 1 ≥ needed b.n then .ret (-1) b none rest
      else if alloc (needed b.n) = false then .ret (-1) b none rest
      else if c = delim then finish ⟨some (needed b.n), needed b.n⟩ (cur ++ [c]) rest
      else getdelimLoop alloc delim rest ⟨some (needed b.n), needed b.n⟩ (cur ++ [c])
    else if b.holds cur.length = false then .fault
    else if c = delim then finish b (cur ++ [c]) rest
    else getdelimLoop alloc delim rest b (cur ++ [c])

/-- `getdelim`, compat/getdelim.c:54-125, for a stream without errors. -/
def getdelim (alloc : Nat → Bool) (delim : UInt8) (b : LineBuf) (stream : Str) : Read :=
  if b.block = none ∨ b.n = 0 then
    if alloc 120 then getdelimLoop alloc delim stream ⟨some 120, 120⟩ [] else .ret (-1) ⟨b.block, 120⟩ none stream
  else getdelimLoop alloc delim stream b []

/-- `getline`, compat/getline.c:25-29, called again and again until it returns -1, as in notmuch-count.c:144; the number of calls is bounded by the length of the stream. -/
def getlines (alloc : Nat → Bool) : Nat → LineBuf → Str → Option (List Str)
  | 0, _, _ => none
  | k + 1, b, s =>
    match getdelim alloc 10 b s with
    | .fault => none
    | .ret r b line rest =>
      if r = -1 then some []
      else match line with
        | none => none
        | some l => (getlines alloc k b rest).map (l :: ·)

end Notmuch.Compat
