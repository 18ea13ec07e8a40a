import Verif.Base.Dec
import Verif.Model.Sprinter

/-! # Specification: reading JSON (RFC 8259) and S-expressions (C40) -/

namespace Notmuch.Sprinter

/-- A value. -/
inductive Val
  | null
  | bool (b : Bool)
  | int (i : Int)
  | str (s : Str)
  | list (l : List Val)
  | obj (l : List (Str × Val))

mutual
/-- The calls that print a value. -/
def Val.calls : Val → List Call
  | .null => [.null]
  | .bool b => [.boolean b]
  | .int i => [.integer i]
  | .str s => [.stringLen s]
  | .list l => .beginList :: (Val.callsList l ++ [.endAgg])
  | .obj l => .beginMap :: (Val.callsObj l ++ [.endAgg])

def Val.callsList : List Val → List Call
  | [] => []
  | v :: l => v.calls ++ Val.callsList l

def Val.callsObj : List (Str × Val) → List Call
  | [] => []
  | (k, v) :: l => .mapKey k :: (v.calls ++ Val.callsObj l)
end

/-- A call of `string` prints what is before a NUL, a call of `separator` prints nothing that counts. -/
def norm : List Call → List Call
  | [] => []
  | .separator :: cs => norm cs
  | .string s :: cs => .stringLen (cstr s) :: norm cs
  | .mapKey k :: cs => .mapKey (cstr (some k)) :: norm cs
  | c :: cs => c :: norm cs

/-! ## JSON -/

/-- White space of JSON. -/
def isWs (c : UInt8) : Bool := c = 32 || c = 9 || c = 10 || c = 13

def skipWs (s : Str) : Str := s.dropWhile isWs

/-- A code point in UTF-8; surrogates are not handled. -/
def utf8 (n : Nat) : Option Str :=
  if n < 0x80 then some [UInt8.ofNat n]
  else if n < 0x800 then some [UInt8.ofNat (0xC0 + n / 64), UInt8.ofNat (0x80 + n % 64)]
  else if 0xD800 ≤ n ∧ n < 0xE000 then none
  else some [UInt8.ofNat (0xE0 + n / 4096), UInt8.ofNat (0x80 + n / 64 % 64), UInt8.ofNat (0x80 + n % 64)]

/-- Reading a string after the opening quote: the bytes, and what follows the closing quote. -/
def readString : Str → Option (Str × Str)
  | [] => none
  | 34 :: s => some ([], s)
  | 92 :: 117 :: a :: b :: c :: d :: s =>
    if isXDigit a && isXDigit b && isXDigit c && isXDigit d then
      match utf8 (((xval a * 16 + xval b) * 16 + xval c) * 16 + xval d), readString s with
      | some u, some (t, r) => some (u ++ t, r)
      | _, _ => none
    else none
  | 92 :: e :: s =>
    let c : Option UInt8 :=
      if e = 34 then some 34 else if e = 92 then some 92 else if e = 47 then some 47 else if e = 98 then some 8
      else if e = 102 then some 12 else if e = 110 then some 10 else if e = 114 then some 13 else if e = 116 then some 9 else none
    match c, readString s with
    | some c, some (t, r) => some (c :: t, r)
    | _, _ => none
  | c :: s =>
    if c < 32 then none
    else
      match readString s with
      | some (t, r) => some (c :: t, r)
      | none => none

/-- Reading a number; there are no fractions or exponents here, and no leading zeros are allowed. -/
def readNat (s : Str) : Option (Nat × Str) :=
  let d := s.takeWhile isDigit
  let r := s.dropWhile isDigit
  if d = [] ∨ (d.head? = some 48 ∧ d ≠ [48]) then none
  else if r.head? = some 46 ∨ r.head? = some 101 ∨ r.head? = some 69 then none
  else some (decVal d, r)

def readInt : Str → Option (Int × Str)
  | 45 :: s => (readNat s).map (fun x => (-(x.1 : Int), x.2))
  | s => (readNat s).map (fun x => ((x.1 : Int), x.2))

/-- The rest of an array after a value. -/
def readElems (value : Str → Option (Val × Str)) : Nat → Str → Option (List Val × Str)
  | 0, _ => none
  | fuel + 1, s =>
    match skipWs s with
    | 93 :: r => some ([], r)
    | 44 :: r =>
      match value r with
      | none => none
      | some (v, r) =>
        match readElems value fuel r with
        | none => none
        | some (vs, r) => some (v :: vs, r)
    | _ => none

/-- A name, a colon and a value. -/
def readMember (value : Str → Option (Val × Str)) (s : Str) : Option ((Str × Val) × Str) :=
  match skipWs s with
  | 34 :: r =>
    match readString r with
    | none => none
    | some (k, r) =>
      match skipWs r with
      | 58 :: r => (value r).map (fun x => ((k, x.1), x.2))
      | _ => none
  | _ => none

/-- The rest of an object after a member. -/
def readMembers (value : Str → Option (Val × Str)) : Nat → Str → Option (List (Str × Val) × Str)
  | 0, _ => none
  | fuel + 1, s =>
    match skipWs s with
    | 125 :: r => some ([], r)
    | 44 :: r =>
      match readMember value r with
      | none => none
      | some (v, r) =>
        match readMembers value fuel r with
        | none => none
        | some (vs, r) => some (v :: vs, r)
    | _ => none

/-- Reading a value; the first argument bounds nesting and length. -/
def readValue : Nat → Str → Option (Val × Str)
  | 0, _ => none
  | fuel + 1, s =>
    match skipWs s with
    | 91 :: r =>
      if (skipWs r).head? = some 93 then some (.list [], (skipWs r).tail)
      else
        match readValue fuel r with
        | none => none
        | some (v, r) => (readElems (readValue fuel) fuel r).map (fun x => (.list (v :: x.1), x.2))
    | 123 :: r =>
      if (skipWs r).head? = some 125 then some (.obj [], (skipWs r).tail)
      else
        match readMember (readValue fuel) r with
        | none => none
        | some (m, r) => (readMembers (readValue fuel) fuel r).map (fun x => (.obj (m :: x.1), x.2))
    | 34 :: r => (readString r).map (fun x => (.str x.1, x.2))
    | 116 :: 114 :: 117 :: 101 :: r => some (.bool true, r)
    | 102 :: 97 :: 108 :: 115 :: 101 :: r => some (.bool false, r)
    | 110 :: 117 :: 108 :: 108 :: r => some (.null, r)
    | r => (readInt r).map (fun x => (.int x.1, x.2))

/-- The text is the value, with white space after it. -/
def IsJson (text : Str) (v : Val) : Prop := ∃ N, ∀ fuel, N ≤ fuel → ∃ rest, readValue fuel text = some (v, rest) ∧ skipWs rest = []

/-! ## S-expressions -/

/-- What a Lisp reader makes of a text; the symbol `nil` is the empty list. -/
inductive Lisp
  | sym (s : Str)
  | int (i : Int)
  | str (s : Str)
  | list (l : List Lisp)

mutual
/-- A value as a Lisp object: false, null and the empty list or map are all `nil`, a map is a property list. -/
def Val.lisp : Val → Lisp
  | .null => .list []
  | .bool b => if b then .sym (bs "t") else .list []
  | .int i => .int i
  | .str s => .str s
  | .list l => .list (Val.lispList l)
  | .obj l => .list (Val.lispObj l)

def Val.lispList : List Val → List Lisp
  | [] => []
  | v :: l => v.lisp :: Val.lispList l

def Val.lispObj : List (Str × Val) → List Lisp
  | [] => []
  | (k, v) :: l => .sym (58 :: k) :: v.lisp :: Val.lispObj l
end

mutual
/-- The names in a value are made of letters, digits, `-` and `_`. -/
def Val.KeysOk : Val → Prop
  | .list l => Val.KeysOkList l
  | .obj l => Val.KeysOkObj l
  | _ => True

def Val.KeysOkList : List Val → Prop
  | [] => True
  | v :: l => v.KeysOk ∧ Val.KeysOkList l

def Val.KeysOkObj : List (Str × Val) → Prop
  | [] => True
  | (k, v) :: l => (∀ c ∈ k, isAlnum c = true ∨ c = 45 ∨ c = 95) ∧ v.KeysOk ∧ Val.KeysOkObj l
end

def isOctal (c : UInt8) : Bool := 48 ≤ c && c ≤ 55

/-- Reading a Lisp string after the opening quote: `\n` is a newline, a backslash and up to three octal digits are the byte, a backslash and
another character are that character. -/
def readLispString : Str → Option (Str × Str)
  | [] => none
  | 34 :: s => some ([], s)
  | 92 :: a :: b :: c :: s =>
    if isOctal a && isOctal b && isOctal c then (readLispString s).map (fun x => (UInt8.ofNat ((a.toNat - 48) * 64 + (b.toNat - 48) * 8 + (c.toNat - 48)) :: x.1, x.2))
    else if isOctal a && isOctal b then (readLispString (c :: s)).map (fun x => (UInt8.ofNat ((a.toNat - 48) * 8 + (b.toNat - 48)) :: x.1, x.2))
    else if isOctal a then (readLispString (b :: c :: s)).map (fun x => (UInt8.ofNat (a.toNat - 48) :: x.1, x.2))
    else (readLispString (b :: c :: s)).map (fun x => ((if a = 110 then 10 else a) :: x.1, x.2))
  | 92 :: a :: s => (readLispString s).map (fun x => ((if isOctal a then UInt8.ofNat (a.toNat - 48) else if a = 110 then 10 else a) :: x.1, x.2))
  | c :: s => (readLispString s).map (fun x => (c :: x.1, x.2))

/-- The characters of a symbol or number. -/
def isAtomChar (c : UInt8) : Bool := isAlnum c || c = 45 || c = 95 || c = 58

/-- A symbol or number. -/
def atomOf (a : Str) : Lisp :=
  if a = bs "nil" then .list []
  else
    match a with
    | 45 :: d => if d ≠ [] ∧ d.all isDigit then .int (-(decVal d : Int)) else .sym a
    | d => if d.all isDigit then .int (decVal d) else .sym a

/-- The rest of a list. -/
def readLispElems (value : Str → Option (Lisp × Str)) : Nat → Str → Option (List Lisp × Str)
  | 0, _ => none
  | fuel + 1, s =>
    match skipWs s with
    | [] => none
    | 41 :: r => some ([], r)
    | c :: r =>
      match value (c :: r) with
      | none => none
      | some (v, r) => (readLispElems value fuel r).map (fun x => (v :: x.1, x.2))

def readLisp : Nat → Str → Option (Lisp × Str)
  | 0, _ => none
  | fuel + 1, s =>
    match skipWs s with
    | [] => none
    | 40 :: r => (readLispElems (readLisp fuel) fuel r).map (fun x => (.list x.1, x.2))
    | 34 :: r => (readLispString r).map (fun x => (.str x.1, x.2))
    | c :: r =>
      if isAtomChar c then some (atomOf ((c :: r).takeWhile isAtomChar), (c :: r).dropWhile isAtomChar) else none

def IsLisp (text : Str) (v : Lisp) : Prop := ∃ N, ∀ fuel, N ≤ fuel → ∃ rest, readLisp fuel text = some (v, rest) ∧ skipWs rest = []

end Notmuch.Sprinter
