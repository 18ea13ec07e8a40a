import Verif.Base.Bytes

/-!
# util/string-util.c
-/

namespace Notmuch.StringUtil

/-- `strtok_len`, util/string-util.c:29-39: the token (a non-empty run of non-delimiters after
leading delimiters) and what follows it; `none` when no token is left. -/
def strtokLen (delim : UInt8 → Bool) (s : Str) : Option (Str × Str) :=
  let s := s.dropWhile delim
  let tok := s.takeWhile (fun c => !delim c)
  if tok.isEmpty then none else some (tok, s.dropWhile (fun c => !delim c))

/-- The scanning loop of `strsplit_len`, util/string-util.c:51-56, over the text that starts at
`s[count]`: final values of `count` and `last_nonspace`. -/
def splitScan (delim : UInt8) : Str → (escaping : Bool) → (count last : Nat) → Nat × Nat
  | [], _, count, last => (count, last)
  | c :: s, escaping, count, last =>
    if escaping || c != delim then
      splitScan delim s (c == 92) (count + 1) (if isSpace c then last else count)
    else (count, last)

/-- `strsplit_len`, util/string-util.c:41-63: the text from the returned pointer on and `*len`. -/
def strsplitLen (s : Str) (delim : UInt8) : Option (Str × Nat) :=
  let s := s.dropWhile (fun c => c == delim || isSpace c)
  let r := splitScan delim s false 0 0
  if r.1 = 0 then none else some (s, r.2 + 1)

/-- `sanitize_string`, util/string-util.c:73-94 (non-NULL argument). -/
def sanitize (s : Str) : Str :=
  s.map (fun c => if c = 9 ∨ c = 10 then 32 else if c < 32 then 63 else c)

/-- `is_unquoted_terminator`, util/string-util.c:96-100. -/
def isUnquotedTerminator (c : UInt8) : Bool := c == 0 || c ≤ 32 || c == 41

/-- `need_quoting` of `make_boolean_term`, util/string-util.c:111-120. -/
def needQuoting (term : Str) : Bool :=
  term.isEmpty ||
  term.any (fun c => isUnquotedTerminator c || c == 34 || c == 40 || c > 127)

/-- `needed` of `make_boolean_term`, util/string-util.c:108 and 122-130. -/
def makeNeeded (pre : Option Str) (term : Str) : Nat :=
  (if needQuoting term then 3 + (term.map (fun c => if c = 34 then 2 else 1)).sum
   else term.length + 1) +
  (match pre with | some p => p.length + 1 | none => 0)

/-- Size of the buffer after the reallocation test, util/string-util.c:132-135.  `buf` is the
size of the buffer passed in (`none` for a NULL buffer, whatever `*len` says). -/
def makeBufSize (buf : Option Nat) (pre : Option Str) (term : Str) : Nat :=
  match buf with
  | none => 2 * makeNeeded pre term
  | some len => if makeNeeded pre term > len then 2 * makeNeeded pre term else len

/-- The quoting loop, util/string-util.c:158-162. -/
def quoteBody : Str → Str
  | [] => []
  | c :: s => if c = 34 then 34 :: c :: quoteBody s else c :: quoteBody s

/-- The text produced by `make_boolean_term` (without NUL), util/string-util.c:142-166. -/
def makeBooleanTerm (pre : Option Str) (term : Str) : Str :=
  (match pre with | some p => p ++ [58] | none => []) ++
  (if needQuoting term then 34 :: quoteBody term ++ [34] else term)

/-- The de-quoting loop of `parse_boolean_term`, util/string-util.c:207-219, from the byte after
the opening quote: bytes written to `out` and, when the closing quote was found, the text after
it with leading blanks skipped. -/
def dequote : Str → Str × Option Str
  | [] => ([], none)
  | c :: s =>
    if c = 34 then
      match s with
      | d :: s' =>
        if d ≠ 34 then ([], some (skipSpace s))
        else let r := dequote s'; (d :: r.1, r.2)
      | [] => ([], some [])
    else let r := dequote s; (c :: r.1, r.2)

/-- The part of `parse_boolean_term` after the colon, util/string-util.c:196-243. -/
def parseTermBody (pos : Str) : Option Str :=
  match pos with
  | 34 :: body =>
    match dequote body with
    | (out, some []) => some out
    | _ => none
  | _ =>
    let t := pos.takeWhile (fun c => !isUnquotedTerminator c)
    let rest := pos.dropWhile (fun c => !isUnquotedTerminator c)
    if skipSpace rest = [] then some t else none

/-- `parse_boolean_term`, util/string-util.c:176-251: `none` is the `EINVAL` failure
(allocation is assumed to succeed). -/
def parseBooleanTerm (str : Str) : Option (Str × Str) :=
  let str := skipSpace str
  let pre := str.takeWhile (· != 58)
  match str.dropWhile (· != 58) with
  | [] => none
  | _ :: pos => if pre.isEmpty then none else (parseTermBody pos).map (fun t => (pre, t))

/-- `strip_trailing`, util/string-util.c:287-298. -/
def stripTrailing (s : Str) (ch : UInt8) : Str :=
  (s.reverse.dropWhile (· == ch)).reverse

/-- `strcase_equal`, util/string-util.c:266-270 (`strcasecmp` of the C locale). -/
def strcaseEqual (a b : Str) : Bool := a.map toLower == b.map toLower

/-- `strcase_hash`, util/string-util.c:272-286 (djb2, 32-bit unsigned arithmetic; bytes below
128, where `char` and `unsigned char` agree). -/
def strcaseHash (s : Str) : UInt32 :=
  s.foldl (fun h c => ((h <<< 5) + h) + (toLower c).toNat.toUInt32) 5381

end Notmuch.StringUtil
