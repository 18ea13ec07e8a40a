import Verif.Base.Bytes

/-!
# util/hex-escape.c

`hex_encode`, `hex_decode` and `hex_decode_inplace`.  `maybe_realloc` is modelled by the
size it is asked for (`encodeNeeded`, `decodeNeeded`); allocation is assumed to succeed.
-/

namespace Notmuch.Hex

/-- `output_charset`, util/hex-escape.c:28-29. -/
def outputCharset : Str :=
  bs "ABCDEFGHIJKLMNOPQRSTUVWXYZabcdefghijklmnopqrstuvwxyz0123456789+-_@=.,"

/-- `escape_char` (`%`), util/hex-escape.c:31. -/
def escapeChar : UInt8 := 37

/-- `is_output`, util/hex-escape.c:33-37.  (`strchr` would also accept the NUL, but the
callers only ask about bytes of a NUL-terminated string.) -/
def isOutput (c : UInt8) : Bool := outputCharset.contains c

/-- One digit as printed by `%02x` (lower case). -/
def hexDigit (n : Nat) : UInt8 := if n < 10 then UInt8.ofNat (48 + n) else UInt8.ofNat (87 + n)

/-- The three bytes written by `sprintf (q, "%%%02x", c)`, util/hex-escape.c:85. -/
def escapeByte (c : UInt8) : Str := [escapeChar, hexDigit (c.toNat / 16), hexDigit (c.toNat % 16)]

/-- The size computed by the first loop of `hex_encode`, util/hex-escape.c:63-69. -/
def encodeNeeded : Str → Nat
  | [] => 1
  | c :: s => (if isOutput c then 1 else 3) + encodeNeeded s

/-- The text written by the second loop of `hex_encode` (without the NUL),
util/hex-escape.c:77-91. -/
def encode : Str → Str
  | [] => []
  | c :: s => if isOutput c then c :: encode s else escapeByte c ++ encode s

/-- `hex_decode_internal` with separate input and output buffers, util/hex-escape.c:98-130:
the bytes written to `out` (without the final NUL, which is only written on success) and
whether the result is `HEX_SUCCESS`.  Reading `in[1]`/`in[2]` at the end of the string
gives the NUL, which is no hex digit. `strtoul` of two hex digits always stops after both. -/
def decodeRun : Str → Str × Bool
  | [] => ([], true)
  | c :: s =>
    if c = escapeChar then
      match s with
      | h1 :: h2 :: s' =>
        if !isXDigit h1 || !isXDigit h2 then ([], false)
        else
          let r := decodeRun s'
          (UInt8.ofNat (16 * xval h1 + xval h2) :: r.1, r.2)
      | _ => ([], false)
    else
      let r := decodeRun s
      (c :: r.1, r.2)

/-- Result of decoding: `none` is `HEX_SYNTAX_ERROR`. -/
def decode (s : Str) : Option Str :=
  if (decodeRun s).2 then some (decodeRun s).1 else none

/-- The size computed by `hex_decode`, util/hex-escape.c:146-150.  The C variable is a
`size_t` that is decremented at an escape and incremented at the two digits that follow;
`Int` shows that no wrap-around is hidden (see `C03_decode_size`). -/
def decodeNeededLoop : Str → Int → Int
  | [], n => n
  | c :: s, n =>
    match s with
    | h1 :: h2 :: _ =>
      if c = escapeChar && isXDigit h1 && isXDigit h2 then decodeNeededLoop s (n - 1)
      else decodeNeededLoop s (n + 1)
    | _ => decodeNeededLoop s (n + 1)

def decodeNeeded (s : Str) : Int := decodeNeededLoop s 1

/-- `hex_decode_internal` called with `in == out` (`hex_decode_inplace`,
util/hex-escape.c:132-138): `buf` is the whole buffer including the NUL, `i` the read
index, `o` the write index.  Returns the final buffer, the write index and the status. -/
def decodeInplaceRun (buf : List UInt8) (i o : Nat) : List UInt8 × Nat × Bool :=
  if i < buf.length then
    let c := buf.getD i 0
    if c = 0 then (buf.set o 0, o, true)
    else if c = escapeChar then
      let h1 := buf.getD (i + 1) 0
      let h2 := buf.getD (i + 2) 0
      if !isXDigit h1 || !isXDigit h2 then (buf, o, false)
      else decodeInplaceRun (buf.set o (UInt8.ofNat (16 * xval h1 + xval h2))) (i + 3) (o + 1)
    else decodeInplaceRun (buf.set o c) (i + 1) (o + 1)
  else (buf, o, false) -- unreachable for a NUL-terminated buffer (proved)
termination_by buf.length - i
decreasing_by all_goals simp; omega

/-- `hex_decode_inplace` on a NUL-terminated string: the string left in the buffer. -/
def decodeInplace (s : Str) : Option Str :=
  let r := decodeInplaceRun (s ++ [0]) 0 0
  if r.2.2 then some (r.1.take r.2.1) else none

end Notmuch.Hex
