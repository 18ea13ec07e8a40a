import Verif.Base.Bytes

/-!
# lib/message-id.c, lib/add-message.cc, lib/message-file.c: message ids in headers

A pointer into a string is the rest of the string; at its end `*s` is NUL.  Moving the pointer over the
NUL gives `none`, and so does writing or reading outside an allocated buffer.  Loops have fuel; running
out of it gives `none`, so the theorems also say that the loops end.
-/

namespace Notmuch.MessageId

/-- `*s`. -/
def deref : Str → UInt8
  | [] => 0
  | c :: _ => c

/-- `s++`. -/
def adv : Str → Option Str
  | [] => none
  | _ :: s => some s

/-- The loop of lib/message-id.c:25-36, inside a comment; `nesting` is an `int` there. -/
def skipComment : Nat → Str → Nat → Option Str
  | 0, _, _ => none
  | fuel + 1, s, nesting =>
    if deref s ≠ 0 ∧ nesting ≠ 0 then
      if deref s = 40 then (adv s).bind (fun s => skipComment fuel s (nesting + 1))
      else if deref s = 41 then (adv s).bind (fun s => skipComment fuel s (nesting - 1))
      else if deref s = 92 then
        match adv s with
        | none => none
        | some s1 =>
          if deref s1 ≠ 0 then (adv s1).bind (fun s => skipComment fuel s nesting)
          else skipComment fuel s1 nesting
      else (adv s).bind (fun s => skipComment fuel s nesting)
    else some s

/-- `skip_space_and_comments`, lib/message-id.c:12-40. -/
def skipSpaceAndComments : Nat → Str → Option Str
  | 0, _ => none
  | fuel + 1, s =>
    if deref s ≠ 0 ∧ (isSpace (deref s) ∨ deref s = 40) then
      let s1 := skipSpace s
      if deref s1 = 40 then
        match adv s1 with
        | none => none
        | some s2 =>
          match skipComment (s2.length + 1) s2 1 with
          | none => none
          | some s3 => skipSpaceAndComments fuel s3
      else skipSpaceAndComments fuel s1
    else some s

/-- `memmove (&buf[i], &buf[i + 1], len)`. -/
def memmoveDown (buf : Str) (i len : Nat) : Option Str :=
  if i + 1 + len ≤ buf.length then some (buf.take i ++ (buf.drop (i + 1)).take len ++ buf.drop (i + len)) else none

/-- Collapsing whitespace, lib/message-id.c:88-91, in the buffer of the string and its NUL. -/
def collapse : Nat → Str → Nat → Nat → Option Str
  | 0, _, _, _ => none
  | fuel + 1, buf, i, len =>
    match buf[i]? with
    | none => none
    | some c =>
      if c = 0 then some buf
      else if c = 32 ∨ c = 9 then
        match memmoveDown buf i len with
        | none => none
        | some buf' => collapse fuel buf' (i + 1) (len - 1)
      else collapse fuel buf (i + 1) (len - 1)

/-- `_notmuch_message_id_parse`, lib/message-id.c:42-95: the id (or NULL) and what `*next` is set to (or
left alone).  `s` and `end` are positions in the text after the `<`; `end - s + 1` bytes are copied by
`talloc_strndup`, which stops at the NUL. -/
def parse (messageId : Option Str) : Option (Option Str × Option Str) :=
  match messageId with
  | none => some (none, none)
  | some t =>
    if deref t = 0 then some (none, none)
    else
      match skipSpaceAndComments (t.length + 1) t with
      | none => none
      | some s0 =>
        let s1 := s0.dropWhile (fun c => c ≠ 0 ∧ c ≠ 60)
        if deref s1 = 60 then
          match adv s1 with
          | none => none
          | some s2 =>
            match skipSpaceAndComments (s2.length + 1) s2 with
            | none => none
            | some s =>
              let endPos := (s.takeWhile (fun c => c ≠ 0 ∧ c ≠ 62)).length
              let atEnd := s.drop endPos
              let next := if deref atEnd ≠ 0 then atEnd.drop 1 else atEnd
              let endPos' := if endPos > 0 ∧ deref atEnd = 62 then endPos - 1 else endPos
              if endPos' = 0 then some (none, some next)
              else
                let result := s.take (endPos' + 1)
                match collapse (result.length + 2) (result ++ [0]) 0 result.length with
                | none => none
                | some buf => some (some (buf.takeWhile (· ≠ 0)), some next)
        else some (none, some s1)

/-- `_notmuch_message_id_parse_strict`, lib/message-id.c:97-124. -/
def parseStrict (messageId : Option Str) : Option Str :=
  match messageId with
  | none => none
  | some t =>
    if deref t = 0 then none
    else
      let s := skipSpace t
      if deref s = 60 then
        let s := s.drop 1
        let inner := s.takeWhile (fun c => c ≠ 0 ∧ c ≠ 62)
        if inner.any isSpace then none
        else
          let e := s.drop inner.length
          if deref e ≠ 62 then none
          else if deref (skipSpace (e.drop 1)) ≠ 0 then none
          else some inner
      else none

/-- The loop of `parse_references`, lib/add-message.cc:24-31: the references added to the hash table, in
order, and the last one. -/
def referencesLoop (messageId : Str) : Nat → Str → List Str → Option Str → Option (List Str × Option Str)
  | 0, _, _, _ => none
  | fuel + 1, refs, hash, last =>
    if deref refs ≠ 0 then
      match parse (some refs) with
      | none => none
      | some (ref, next) =>
        let refs' := next.getD refs
        match ref with
        | some r =>
          if r ≠ messageId then referencesLoop messageId fuel refs' (hash ++ [r]) (some r)
          else referencesLoop messageId fuel refs' hash last
        | none => referencesLoop messageId fuel refs' hash last
    else some (hash, last)

/-- `parse_references`, lib/add-message.cc:13-38. -/
def parseReferences (messageId : Str) (refs : Option Str) (hash : List Str) : Option (List Str × Option Str) :=
  match refs with
  | none => some (hash, none)
  | some refs => if deref refs = 0 then some (hash, none) else referencesLoop messageId (refs.length + 1) refs hash none

/-- The first part of `_notmuch_database_link_message_to_parents`, lib/add-message.cc:231-262: the ids
added to the table of parents (which is a set) and the id of the `replyto` term. -/
def parents (thisId : Str) (refs inReplyTo : Option Str) : Option (List Str × Option Str) :=
  match parseReferences thisId refs [] with
  | none => none
  | some (h1, lastRef) =>
    let strict := parseStrict inReplyTo
    match parseReferences thisId inReplyTo h1 with
    | none => none
    | some (h2, inReplyToId) =>
      some (h2, match strict with
        | some i => some i
        | none => match lastRef with
          | some i => some i
          | none => inReplyToId)

/-- The message id of a file, lib/message-file.c:355-384: from the `Message-ID` header (empty or NULL if
there is none) or from the SHA-1 of the file. -/
def messageId (header : Option Str) (sha1 : Option Str) : Option (Option Str) :=
  let fromSha1 := sha1.map (fun s => bs "notmuch-sha1-" ++ s)
  match header with
  | none => some fromSha1
  | some h =>
    if deref h ≠ 0 then
      match parse (some h) with
      | none => none
      | some (some i, _) => some (some i)
      | some (none, _) => some (some h)
    else some fromSha1

end Notmuch.MessageId
