import Verif.Model.Sexp

/-!
# Specification: queries as s-expressions (C52)

What a query means, rule by rule, after notmuch-sexp-queries(7): a set of messages.  The tables are those of the manual, but for `mimetype`, which it has as `or`.
-/

namespace Notmuch.Sexp

open Notmuch.StringUtil (stripTrailing)

/-- Where a query is: outside of all fields, or in one. -/
inductive Place where
  | top
  | field (n : Str)
  | user (n : Str)

def phraseFields : List Str := [bs "attachment", bs "body", bs "from", bs "mimetype", bs "subject", bs "to"]
def termFields : List Str := [bs "folder", bs "id", bs "is", bs "mid", bs "path", bs "property", bs "tag", bs "thread"]
/-- The fields of which a message has one. -/
def orFields : List Str := [bs "folder", bs "id", bs "mid", bs "path", bs "thread"]
def andFields : List Str := [bs "attachment", bs "body", bs "from", bs "is", bs "mimetype", bs "property", bs "subject", bs "tag", bs "to"]
def wildcardFields : List Str :=
  [bs "attachment", bs "from", bs "folder", bs "id", bs "is", bs "mid", bs "mimetype", bs "path", bs "property", bs "subject", bs "tag", bs "thread", bs "to"]
def regexFields : List Str := [bs "from", bs "folder", bs "id", bs "is", bs "mid", bs "path", bs "property", bs "subject", bs "tag", bs "thread"]
def expandFields : List Str :=
  [bs "attachment", bs "from", bs "folder", bs "is", bs "mimetype", bs "property", bs "subject", bs "tag", bs "thread", bs "to"]

/-- What the terms of the place begin with. -/
def Place.pre (c : Ctx) : Place → Str
  | .top => []
  | .field n => c.termPrefix n
  | .user n => c.termPrefix n

def Place.wildcards : Place → Prop
  | .top => True
  | .field n => n ∈ wildcardFields
  | .user _ => True

/-- The message has a term of the place that begins with `s`, whose letters are made small. -/
def StartsWith (c : Ctx) (π : Place) (s : Str) (d : Doc) : Prop := ∃ t ∈ d.terms, π.pre c ++ c.lower s <+: t

/-- These terms follow each other in the message. -/
def Phrase (d : Doc) : List Str → Prop
  | [] => False
  | [t] => t ∈ d.terms
  | ts => d.adjacent ts = true

/-- The message has this text: a word that is not quoted is stemmed, anything else is a phrase. -/
def HasText (c : Ctx) (pre : Str) (quoted : Bool) (v : Str) (d : Doc) : Prop :=
  (quoted = false ∧ c.isWord v = true ∧ bs "Z" ++ pre ++ c.stem (c.lower v) ∈ d.terms) ∨
  (¬(quoted = false ∧ c.isWord v = true) ∧ Phrase d ((c.words v).map (fun w => pre ++ c.lower w)))

/-- The text that an atom stands for. -/
inductive Text : Env → Sexp → Str → Prop
  | atom {e : Env} {q : Bool} {v : Str} : param (.atom q v) = none → Text e (.atom q v) v
  | param {e e' : Env} {sx sx' : Sexp} {n s : Str} : param sx = some n → resolve e n = some (sx', e') → Text e' sx' s → Text e sx s

/-- The name is that of no saved query and no user defined field. -/
def Builtin (c : Ctx) (name : Str) : Prop := c.squery name = none ∧ c.user name = false

/-- A bound of a range: `*` and the empty text are none. -/
def noBound (s : Str) : Prop := s = bs "*" ∨ s = []

instance (s : Str) : Decidable (noBound s) := inferInstanceAs (Decidable (s = bs "*" ∨ s = []))

/-- The message's time is in the range.  A range without lower bound begins after the epoch. -/
def InDates (c : Ctx) (a b : Str) (d : Doc) : Prop :=
  (if noBound a then 0 < d.timestamp else ∃ t, c.date a false = some t ∧ t ≤ d.timestamp) ∧
  (if noBound b then True else ∃ t, c.date (if b = bs "!" ∧ ¬ noBound a then a else b) true = some t ∧ d.timestamp ≤ t)

def DatesUnderstood (c : Ctx) (a b : Str) : Prop :=
  (noBound a ∨ (c.date a false).isSome = true) ∧ (noBound b ∨ (c.date (if b = bs "!" ∧ ¬ noBound a then a else b) true).isSome = true)

/-- These are the decimal digits of the number. -/
inductive Digits : Str → Nat → Prop
  | nil : Digits [] 0
  | snoc {s : Str} {n d : Nat} : Digits s n → d < 10 → Digits (s ++ [UInt8.ofNat (48 + d)]) (10 * n + d)

/-- The message's revision is in the range; negative numbers count from the present one. -/
def InRevisions (c : Ctx) (a b : Str) (d : Doc) : Prop :=
  (if noBound a then 0 ≤ d.lastMod else ∃ t, stol a = some t ∧ (if t < 0 then t + c.revision else t) ≤ d.lastMod) ∧
  (if noBound b then True else ∃ t, stol b = some t ∧ d.lastMod ≤ (if t < 0 then t + c.revision else t))

def RevisionsUnderstood (a b : Str) : Prop := (noBound a ∨ (stol a).isSome = true) ∧ (noBound b ∨ (stol b).isSome = true)

/-- The parameters of a macro with the arguments; if two have the same name, the last counts. -/
def bindAll (e : Env) (names : List Str) (args : List Sexp) : Env := (names.zip args).foldl (fun new na => .bind na.1 na.2 e new) .nil

/-- The meaning of a query. -/
inductive Means (c : Ctx) : Place → Env → Sexp → (Doc → Prop) → Prop
  /-- `()` -/
  | everything {π : Place} {e : Env} : Means c π e (.list []) (fun _ => True)
  | param {π : Place} {e e' : Env} {sx sx' : Sexp} {n : Str} {S : Doc → Prop} :
      param sx = some n → resolve e n = some (sx', e') → Means c π e' sx' S → Means c π e sx S
  /-- `*` -/
  | star {π : Place} {e : Env} : π.wildcards → Means c π e (.atom false (bs "*")) (StartsWith c π [])
  /-- the exact text, in a term field; trailing slashes do not count in paths -/
  | exact {e : Env} {n v : Str} {q : Bool} : param (.atom q v) = none → (q = true ∨ v ≠ bs "*") → n ∈ termFields →
      Means c (.field n) e (.atom q v) (fun d => c.termPrefix n ++ (if n = bs "folder" ∨ n = bs "path" then stripTrailing v 47 else v) ∈ d.terms)
  /-- words, in a phrase field -/
  | words {e : Env} {n v : Str} {q : Bool} : param (.atom q v) = none → (q = true ∨ v ≠ bs "*") → n ∈ phraseFields →
      Means c (.field n) e (.atom q v) (HasText c (c.termPrefix n) q v)
  | userWords {e : Env} {n v : Str} {q : Bool} : param (.atom q v) = none → (q = true ∨ v ≠ bs "*") → Means c (.user n) e (.atom q v) (HasText c (c.termPrefix n) q v)
  /-- words anywhere -/
  | anywhere {e : Env} {v : Str} {q : Bool} : param (.atom q v) = none → (q = true ∨ v ≠ bs "*") →
      Means c .top e (.atom q v) (fun d => ∃ n, (n ∈ phraseFields ∨ n ∈ termFields) ∧ HasText c (c.termPrefix n) q v d)
  | and {π : Place} {e : Env} {q : Bool} {args : List Sexp} {F : Sexp → Doc → Prop} : Builtin c (bs "and") → (∀ x ∈ args, Means c π e x (F x)) →
      Means c π e (.list (.atom q (bs "and") :: args)) (fun d => ∀ x ∈ args, F x d)
  | or {π : Place} {e : Env} {q : Bool} {args : List Sexp} {F : Sexp → Doc → Prop} : Builtin c (bs "or") → (∀ x ∈ args, Means c π e x (F x)) →
      Means c π e (.list (.atom q (bs "or") :: args)) (fun d => ∃ x ∈ args, F x d)
  | not {π : Place} {e : Env} {q : Bool} {args : List Sexp} {F : Sexp → Doc → Prop} : Builtin c (bs "not") → (∀ x ∈ args, Means c π e x (F x)) →
      Means c π e (.list (.atom q (bs "not") :: args)) (fun d => ∀ x ∈ args, ¬ F x d)
  /-- fields are not in fields -/
  | andField {e : Env} {q : Bool} {n : Str} {args : List Sexp} {F : Sexp → Doc → Prop} : Builtin c n → n ∈ andFields → (∀ x ∈ args, Means c (.field n) e x (F x)) →
      Means c .top e (.list (.atom q n :: args)) (fun d => ∀ x ∈ args, F x d)
  | orField {e : Env} {q : Bool} {n : Str} {args : List Sexp} {F : Sexp → Doc → Prop} : Builtin c n → n ∈ orFields → (∀ x ∈ args, Means c (.field n) e x (F x)) →
      Means c .top e (.list (.atom q n :: args)) (fun d => ∃ x ∈ args, F x d)
  | userField {e : Env} {q : Bool} {n : Str} {args : List Sexp} {F : Sexp → Doc → Prop} : c.squery n = none → c.user n = true →
      (∀ x ∈ args, Means c (.user n) e x (F x)) → Means c .top e (.list (.atom q n :: args)) (fun d => ∀ x ∈ args, F x d)
  | anyRange {e : Env} {q : Bool} {n : Str} : Builtin c n → (n = bs "date" ∨ n = bs "lastmod") → Means c .top e (.list [.atom q n]) (fun _ => True)
  | date {e : Env} {q q1 q2 : Bool} {a b : Str} : Builtin c (bs "date") → DatesUnderstood c a b →
      Means c .top e (.list [.atom q (bs "date"), .atom q1 a, .atom q2 b]) (InDates c a b)
  | date1 {e : Env} {q q1 : Bool} {a : Str} : Builtin c (bs "date") → DatesUnderstood c a a → Means c .top e (.list [.atom q (bs "date"), .atom q1 a]) (InDates c a a)
  | lastmod {e : Env} {q q1 q2 : Bool} {a b : Str} : Builtin c (bs "lastmod") → RevisionsUnderstood a b →
      Means c .top e (.list [.atom q (bs "lastmod"), .atom q1 a, .atom q2 b]) (InRevisions c a b)
  | lastmod1 {e : Env} {q q1 : Bool} {a : Str} : Builtin c (bs "lastmod") → RevisionsUnderstood a a →
      Means c .top e (.list [.atom q (bs "lastmod"), .atom q1 a]) (InRevisions c a a)
  | infixed {e : Env} {q q1 : Bool} {a : Str} : Builtin c (bs "infix") → c.parseInfix a = .ok →
      Means c .top e (.list [.atom q (bs "infix"), .atom q1 a]) (fun d => c.infixHolds a d = true)
  /-- `reported`: a text that the parser cannot read matches nothing, if this was not the first -/
  | infixFailed {e : Env} {q q1 : Bool} {a : Str} : Builtin c (bs "infix") → c.parseInfix a = .exception → c.reported = true →
      Means c .top e (.list [.atom q (bs "infix"), .atom q1 a]) (fun _ => False)
  | named {e : Env} {q q1 : Bool} {a : Str} : Builtin c (bs "query") → c.parseInfix (c.named a) = .ok →
      Means c .top e (.list [.atom q (bs "query"), .atom q1 a]) (fun d => c.infixHolds (c.named a) d = true)
  | startsWith {π : Place} {e : Env} {q q1 : Bool} {a s : Str} : Builtin c (bs "starts-with") → Text e (.atom q1 a) s → π.wildcards →
      Means c π e (.list [.atom q (bs "starts-with"), .atom q1 a]) (StartsWith c π s)
  /-- a regular expression on the whole header -/
  | regexHeader {e : Env} {q q1 : Bool} {m n a s : Str} {slot : Slot} {f : Str → Bool} : Builtin c m → (m = bs "regex" ∨ m = bs "rx") → Text e (.atom q1 a) s → c.regex s = some f →
      (n, slot) ∈ [(bs "from", Slot.sender), (bs "subject", Slot.subject), (bs "mid", Slot.messageId)] →
      Means c (.field n) e (.list [.atom q m, .atom q1 a]) (fun d => d.value slot ≠ [] ∧ f (d.value slot) = true)
  /-- a regular expression on the text of a term -/
  | regexTerm {e : Env} {q q1 : Bool} {m n a s : Str} {f : Str → Bool} : Builtin c m → (m = bs "regex" ∨ m = bs "rx") → Text e (.atom q1 a) s → c.regex s = some f →
      n ∈ regexFields → n ≠ bs "from" → n ≠ bs "subject" → n ≠ bs "mid" →
      Means c (.field n) e (.list [.atom q m, .atom q1 a]) (fun d => ∃ t, c.termPrefix n ++ t ∈ d.terms ∧ f t = true ∧ ∃ d' ∈ c.docs, c.termPrefix n ++ t ∈ d'.terms)
  /-- messages that have a value of the field in common with one that matches all of the queries -/
  | matching {e : Env} {q : Bool} {m n : Str} {args : List Sexp} {F : Sexp → Doc → Prop} : Builtin c m → (m = bs "matching" ∨ m = bs "of") → n ∈ expandFields →
      (∀ x ∈ args, Means c .top .nil x (F x)) →
      Means c (.field n) e (.list (.atom q m :: args))
        (fun d => ∃ t, c.termPrefix n ++ t ∈ d.terms ∧ ∃ d' ∈ c.docs, c.termPrefix n ++ t ∈ d'.terms ∧ ∀ x ∈ args, F x d')
  /-- a saved query; arguments do not count -/
  | saved {π : Place} {e : Env} {q : Bool} {n : Str} {h : Sexp} {rest args : List Sexp} {S : Doc → Prop} : c.squery n = some (some (.list (h :: rest))) →
      (∀ b, h ≠ .atom b (bs "macro")) → Means c π e (.list (h :: rest)) S → Means c π e (.list (.atom q n :: args)) S
  /-- a macro; whatever follows its body does not count -/
  | macro {π : Place} {e : Env} {q b : Bool} {n : Str} {names : List Str} {body : Sexp} {junk args : List Sexp} {S : Doc → Prop} :
      c.squery n = some (some (.list (.atom b (bs "macro") :: .list (names.map (.atom false)) :: body :: junk))) → names.length = args.length →
      Means c π (bindAll e names args) body S → Means c π e (.list (.atom q n :: args)) S

/-! ## Putting arguments in place of parameters -/

mutual
/-- The query with `g x` instead of `,x`, if there is one.  What comes first in a list is the name of something, and stays. -/
def subst (g : Str → Option Sexp) : Sexp → Sexp
  | .atom q v => ((param (.atom q v)).bind g).getD (.atom q v)
  | .list [] => .list []
  | .list (h :: args) => .list (h :: substAll g args)
def substAll (g : Str → Option Sexp) : List Sexp → List Sexp
  | [] => []
  | x :: l => subst g x :: substAll g l
end

mutual
/-- There are no parameters. -/
def noParams : Sexp → Bool
  | .atom q v => (param (.atom q v)).isNone
  | .list [] => true
  | .list (_ :: args) => noParamsAll args
def noParamsAll : List Sexp → Bool
  | [] => true
  | x :: l => noParams x && noParamsAll l
end

/-- Those who do not look at parameters. -/
def literalHeads : List Str := [bs "date", bs "lastmod", bs "infix", bs "query", bs "matching", bs "of"]

/-- The name of the operation. -/
def headName : Sexp → Str
  | .atom _ v => v
  | .list _ => []

mutual
/-- Parameters are only where they are looked at. -/
def plain : Sexp → Bool
  | .atom _ _ => true
  | .list [] => true
  | .list (h :: args) => if headName h ∈ literalHeads then noParamsAll args else plainAll args
def plainAll : List Sexp → Bool
  | [] => true
  | x :: l => plain x && plainAll l
end

/-- A saved query has parameters only if it is a macro. -/
def SavedPlain : Sexp → Prop
  | .list (.atom _ v :: rest) => if v = bs "macro" then ∀ params body junk, rest = params :: body :: junk → plain body = true else noParamsAll rest = true
  | s => noParams s = true

/-- The argument for a parameter; if two parameters have the same name, the last counts. -/
def argOf (names : List Str) (args : List Sexp) (x : Str) : Option Sexp := (((names.zip args).filter (fun p => p.1 = x)).getLast?).map (·.2)

/-! ## Saved queries that do not use themselves -/

mutual
/-- The names of operations in a query. -/
def heads : Sexp → List Str
  | .atom _ _ => []
  | .list [] => []
  | .list (h :: args) => headName h :: headsAll args
def headsAll : List Sexp → List Str
  | [] => []
  | x :: l => heads x ++ headsAll l
end

/-- The names of operations in a saved query. -/
def calls : Sexp → List Str
  | .list (.atom b v :: rest) => if v = bs "macro" then (match rest with | _ :: body :: _ => heads body | _ => []) else heads (.list (.atom b v :: rest))
  | s => heads s

/-- There is no circle: each saved query uses only those of smaller rank. -/
def Acyclic (c : Ctx) : Prop := ∃ rank : Str → Nat, ∀ n s, c.squery n = some (some s) → ∀ m ∈ calls s, (c.squery m).isSome = true → rank m < rank n

/-! ## Queries that are no danger -/

mutual
/-- `matching` and `of` are in fields only; `b`: this one is in a field. -/
def safe (c : Ctx) : Bool → Sexp → Bool
  | _, .atom _ _ => true
  | _, .list [] => true
  | b, .list (h :: args) =>
    if (c.squery (headName h)).isSome then safeAll c false args
    else if headName h = bs "matching" ∨ headName h = bs "of" then b && safeAll c false args
    else if c.user (headName h) || (phraseFields ++ termFields).contains (headName h) then safeAll c true args
    else safeAll c b args
def safeAll (c : Ctx) : Bool → List Sexp → Bool
  | _, [] => true
  | b, x :: l => safe c b x && safeAll c b l
end

/-- A saved query is a list with something in it, and is no danger itself. -/
def SavedSafe (c : Ctx) : Sexp → Prop
  | .list (.atom b v :: rest) =>
    if v = bs "macro" then ∀ params body junk, rest = params :: body :: junk → safe c false body = true else safe c false (.list (.atom b v :: rest)) = true
  | .list (.list _ :: _) => True
  | _ => False

end Notmuch.Sexp
