import Verif.Base.Dec

/-!
# sprinter-json.c and sprinter-sexp.c: the structured output formats

Bytes: 34 `"`, 92 `\`, 44 `,`, 58 `:`, 91 `[`, 93 `]`, 123 `{`, 125 `}`, 40 `(`, 41 `)`, 10 newline, 32 space.
-/

namespace Notmuch.Sprinter

/-- The calls of `struct sprinter`, sprinter.h:11-65.  `set_prefix` does nothing here.  The argument of `string` may be NULL. -/
inductive Call
  | beginMap
  | beginList
  | endAgg
  | string (s : Option Str)
  | stringLen (s : Str)
  | integer (i : Int)
  | boolean (b : Bool)
  | null
  | mapKey (k : Str)
  | separator
  deriving DecidableEq

/-- `struct json_state` and `struct sexp_state`, sprinter-json.c:20-27, sprinter-sexp.c:40-46. -/
structure Frame where
  first : Bool
  close : UInt8
  deriving DecidableEq

/-- `struct sprinter_json`, sprinter-json.c:7-18, `struct sprinter_sexp`, sprinter-sexp.c:28-38, and what was written. -/
structure St where
  stack : List Frame
  sep : Bool
  out : Str
  deriving DecidableEq

def St.put (st : St) (s : Str) : St := { st with out := st.out ++ s }

/-- `%04x` of a byte, sprinter-json.c:121. -/
def hex4 (c : UInt8) : Str :=
  let digit (n : Nat) : UInt8 := if n < 10 then UInt8.ofNat (48 + n) else UInt8.ofNat (87 + n)
  [48, 48, digit (c.toNat / 16), digit (c.toNat % 16)]

/-- `%03o` of a byte, sprinter-sexp.c:132. -/
def oct3 (c : UInt8) : Str := [UInt8.ofNat (48 + c.toNat / 64), UInt8.ofNat (48 + c.toNat / 8 % 8), UInt8.ofNat (48 + c.toNat % 8)]

/-- `%" PRId64`. -/
def printInt (i : Int) : Str := if i < 0 then 45 :: dec i.natAbs else dec i.natAbs

/-- The C string behind a pointer: up to the first NUL; NULL counts as empty (sprinter-json.c:127-131). -/
def cstr : Option Str → Str
  | none => []
  | some s => s.takeWhile (· ≠ 0)

namespace Json

/-- `json_begin_value`, sprinter-json.c:31-49. -/
def beginValue (st : St) : St :=
  match st.stack with
  | [] => st
  | f :: fs =>
    if !f.first then
      if st.sep then { st with out := st.out ++ [44, 10], sep := false } else st.put [44, 32]
    else { st with stack := { f with first := false } :: fs }

/-- `json_begin_aggregate`, sprinter-json.c:53-64. -/
def beginAggregate (st : St) (op cl : UInt8) : St :=
  let st := beginValue st
  { st with out := st.out ++ [op], stack := ⟨true, cl⟩ :: st.stack }

/-- `json_end`, sprinter-json.c:78-89; `none` when there is nothing to end (a NULL pointer is followed). -/
def endAgg (st : St) : Option St :=
  match st.stack with
  | [] => none
  | f :: fs => some { st with out := st.out ++ (if fs = [] then [f.close, 10] else [f.close]), stack := fs }

/-- The table and the loop of `json_string_len`, sprinter-json.c:99-122. -/
def escape (c : UInt8) : Str :=
  if c = 34 then [92, 34]
  else if c = 92 then [92, 92]
  else if c = 8 then [92, 98]
  else if c = 12 then [92, 102]
  else if c = 10 then [92, 110]
  else if c = 9 then [92, 116]
  else if 32 ≤ c then [c]
  else [92, 117] ++ hex4 c

/-- `json_string_len`, sprinter-json.c:96-124. -/
def stringLen (st : St) (s : Str) : St := (beginValue st).put ([34] ++ s.flatMap escape ++ [34])

/-- `json_map_key`, sprinter-json.c:158-166: outside of an aggregate a NULL pointer is followed. -/
def mapKey (st : St) (k : Str) : Option St :=
  let st := (stringLen st (cstr (some k))).put [58, 32]
  match st.stack with
  | [] => none
  | f :: fs => some { st with stack := { f with first := true } :: fs }

/-- The functions of the table, sprinter-json.c:66-76, 126-155, 173-179. -/
def step (st : St) : Call → Option St
  | .beginMap => some (beginAggregate st 123 125)
  | .beginList => some (beginAggregate st 91 93)
  | .endAgg => endAgg st
  | .string s => some (stringLen st (cstr s))
  | .stringLen s => some (stringLen st s)
  | .integer i => some ((beginValue st).put (printInt i))
  | .boolean b => some ((beginValue st).put (if b then bs "true" else bs "false"))
  | .null => some ((beginValue st).put (bs "null"))
  | .mapKey k => mapKey st k
  | .separator => some { st with sep := true }

/-- A series of calls. -/
def run (st : St) : List Call → Option St
  | [] => some st
  | c :: cs =>
    match step st c with
    | none => none
    | some st => run st cs

end Json

namespace Sexp

/-- `sexp_begin_value`, sprinter-sexp.c:50-67. -/
def beginValue (st : St) : St :=
  match st.stack with
  | [] => st
  | f :: fs =>
    if !f.first then
      if st.sep then { st with out := st.out ++ [10], sep := false } else st.put [32]
    else { st with stack := { f with first := false } :: fs }

/-- `sexp_begin_aggregate`, sprinter-sexp.c:71-81. -/
def beginAggregate (st : St) : St :=
  let st := beginValue st
  { st with out := st.out ++ [40], stack := ⟨true, 41⟩ :: st.stack }

/-- `sexp_end`, sprinter-sexp.c:95-106. -/
def endAgg (st : St) : Option St :=
  match st.stack with
  | [] => none
  | _ :: fs => some { st with out := st.out ++ (if fs = [] then [41, 10] else [41]), stack := fs }

/-- The table and the loop of `sexp_string_len`, sprinter-sexp.c:115-133. -/
def escape (c : UInt8) : Str :=
  if c = 34 then [92, 34]
  else if c = 92 then [92, 92]
  else if c = 10 then [92, 110]
  else if 32 ≤ c then [c]
  else [92] ++ oct3 c

/-- `sexp_string_len`, sprinter-sexp.c:108-135. -/
def stringLen (st : St) (s : Str) : St := (beginValue st).put ([34] ++ s.flatMap escape ++ [34])

/-- `sexp_keyword`, sprinter-sexp.c:147-166: other names are an internal error. -/
def keyword (st : St) (k : Str) : Option St :=
  if (cstr (some k)).all (fun c => isAlnum c || c = 45 || c = 95) then some (st.put ([58] ++ cstr (some k))) else none

/-- The functions of the table, sprinter-sexp.c:83-93, 137-143, 168-199, 206-212. -/
def step (st : St) : Call → Option St
  | .beginMap => some (beginAggregate st)
  | .beginList => some (beginAggregate st)
  | .endAgg => endAgg st
  | .string s => some (stringLen st (cstr s))
  | .stringLen s => some (stringLen st s)
  | .integer i => some ((beginValue st).put (printInt i))
  | .boolean b => some ((beginValue st).put (if b then bs "t" else bs "nil"))
  | .null => some ((beginValue st).put (bs "nil"))
  | .mapKey k => keyword (beginValue st) k
  | .separator => some { st with sep := true }

/-- A series of calls. -/
def run (st : St) : List Call → Option St
  | [] => some st
  | c :: cs =>
    match step st c with
    | none => none
    | some st => run st cs

end Sexp

/-- `sprinter_json_create`, sprinter-json.c:181-203, `sprinter_sexp_create`, sprinter-sexp.c:214-238. -/
def start : St := ⟨[], false, []⟩

end Notmuch.Sprinter
