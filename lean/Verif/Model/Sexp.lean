import Verif.Model.StringUtil

/-!
# Queries as s-expressions: lib/parse-sexp.cc, lib/lastmod-fp.cc, lib/parse-time-vrp.cc, lib/regexp-fields.cc

What the libraries do is a parameter (`Ctx`): parsing of s-expressions (sfsexp), stemming and case (Xapian), regular expressions (the C library), infix queries
(Xapian's query parser) and dates (`parse_time_string`).  Errors from reading the database are not modelled, nor is it that `strip_trailing` changes an atom in
place.  Evaluation takes fuel, since saved queries may use each other without end.
-/

namespace Notmuch.Sexp

open Notmuch.StringUtil (stripTrailing)

/-- `sexp_t`: an atom (`aty` is SEXP_BASIC or not) or a list. -/
inductive Sexp where
  | atom (quoted : Bool) (val : Str)
  | list (l : List Sexp)

/-- `_sexp_flag_t`, lib/parse-sexp.cc:24-37. -/
inductive Flag where
  | field
  | boolean
  | single
  | wildcard
  | regex
  | doRegex
  | expand
  | doExpand
  | orphan
  | range
  | pathname
  deriving DecidableEq

/-- The operators of Xapian that the table has. -/
inductive Op where
  | and
  | or
  | andNot
  | wildcard
  | invalid
  deriving DecidableEq

/-- `_sexp_prefix_t`, lib/parse-sexp.cc:55-60; `all`: the initial query is MatchAll, else MatchNothing. -/
structure Prefix where
  name : Str
  op : Op
  all : Bool
  flags : List Flag
  deriving DecidableEq

open Flag in
/-- `prefixes`, lib/parse-sexp.cc:62-123. -/
def prefixes : List Prefix :=
  [⟨bs "and", .and, true, []⟩,
   ⟨bs "attachment", .and, true, [field, wildcard, expand]⟩,
   ⟨bs "body", .and, true, [field]⟩,
   ⟨bs "date", .invalid, true, [range]⟩,
   ⟨bs "from", .and, true, [field, wildcard, regex, expand]⟩,
   ⟨bs "folder", .or, false, [field, boolean, wildcard, regex, expand, pathname]⟩,
   ⟨bs "id", .or, false, [field, boolean, wildcard, regex]⟩,
   ⟨bs "infix", .invalid, true, [single, orphan]⟩,
   ⟨bs "is", .and, true, [field, boolean, wildcard, regex, expand]⟩,
   ⟨bs "lastmod", .invalid, true, [range]⟩,
   ⟨bs "matching", .and, true, [doExpand]⟩,
   ⟨bs "mid", .or, false, [field, boolean, wildcard, regex]⟩,
   ⟨bs "mimetype", .and, true, [field, wildcard, expand]⟩,
   ⟨bs "not", .andNot, true, []⟩,
   ⟨bs "of", .and, true, [doExpand]⟩,
   ⟨bs "or", .or, false, []⟩,
   ⟨bs "path", .or, false, [field, boolean, wildcard, regex, pathname]⟩,
   ⟨bs "property", .and, true, [field, boolean, wildcard, regex, expand]⟩,
   ⟨bs "query", .invalid, false, [single, orphan]⟩,
   ⟨bs "regex", .invalid, true, [single, doRegex]⟩,
   ⟨bs "rx", .invalid, true, [single, doRegex]⟩,
   ⟨bs "starts-with", .wildcard, true, [single]⟩,
   ⟨bs "subject", .and, true, [field, wildcard, regex, expand]⟩,
   ⟨bs "tag", .and, true, [field, boolean, wildcard, regex, expand]⟩,
   ⟨bs "thread", .or, false, [field, boolean, wildcard, regex, expand]⟩,
   ⟨bs "to", .and, true, [field, wildcard, expand]⟩]

/-- The values that queries ask for. -/
inductive Slot where
  | timestamp
  | lastMod
  | sender
  | subject
  | messageId
  deriving DecidableEq

/-- What a query sees of a message: its terms, which sequences of terms are next to each other somewhere, and its values. -/
structure Doc where
  terms : List Str
  adjacent : List Str → Bool
  timestamp : Int
  lastMod : Int
  value : Slot → Str

/-- `Xapian::Query`: what is made by lib/parse-sexp.cc; `infixQ` is what Xapian's parser makes of a text. -/
inductive Query where
  | all
  | nothing
  | term (t : Str)
  | comb (op : Op) (l r : Query)
  | phrase (ts : List Str)
  | wildcard (pre : Str)
  | range (slot : Slot) (lo : Int) (hi : Option Int)
  | regexValue (slot : Slot) (pattern : Str)
  | anyTerm (ts : List Str)
  | infixQ (text : Str)

/-- What Xapian's parser says to a text. -/
inductive Infix where
  | ok
  | syntaxError
  | exception
  deriving DecidableEq

/-- The database and the libraries. -/
structure Ctx where
  docs : List Doc
  /-- `_notmuch_database_prefix`, `_find_prefix` -/
  termPrefix : Str → Str
  /-- the saved query of this name, if there is one: `none` inside is a text that is not an s-expression -/
  squery : Str → Option (Option Sexp)
  /-- whether there is a user defined field of this name -/
  user : Str → Bool
  /-- query.* in the configuration, `[]` if there is none -/
  named : Str → Str
  isWord : Str → Bool
  words : Str → List Str
  lower : Str → Str
  stem : Str → Str
  /-- `regcomp` and `regexec`: `none` if it does not compile -/
  regex : Str → Option (Str → Bool)
  parseInfix : Str → Infix
  infixHolds : Str → Doc → Bool
  /-- `parse_time_string`; `true` is PARSE_TIME_ROUND_UP_INCLUSIVE -/
  date : Str → Bool → Option Int
  /-- `notmuch_database_get_revision` -/
  revision : Int
  /-- `exception_reported` of the database -/
  reported : Bool

/-- Whether a message matches, as the documentation of Xapian says. -/
def Query.holds (c : Ctx) : Query → Doc → Bool
  | .all, _ => true
  | .nothing, _ => false
  | .term t, d => d.terms.contains t
  | .comb .and l r, d => l.holds c d && r.holds c d
  | .comb .or l r, d => l.holds c d || r.holds c d
  | .comb .andNot l r, d => l.holds c d && !r.holds c d
  | .comb _ _ _, _ => false
  | .phrase [], _ => false
  | .phrase [t], d => d.terms.contains t
  | .phrase ts, d => d.adjacent ts
  | .wildcard pre, d => d.terms.any (fun t => pre.isPrefixOf t)
  | .range .timestamp lo hi, d => decide (lo ≤ d.timestamp) && hi.all (fun h => decide (d.timestamp ≤ h))
  | .range .lastMod lo hi, d => decide (lo ≤ d.lastMod) && hi.all (fun h => decide (d.lastMod ≤ h))
  | .range _ _ _, _ => false
  | .regexValue slot p, d => !(d.value slot).isEmpty && ((c.regex p).map (fun f => f (d.value slot))).getD false
  | .anyTerm ts, d => ts.any (fun t => d.terms.contains t)
  | .infixQ s, d => c.infixHolds s d

inductive Status where
  | badSyntax
  | illegalArgument
  | xapianException
  deriving DecidableEq

/-- What the functions give; `crash` is a null pointer that is followed, or an exception that nobody catches. -/
inductive Res where
  | ok (q : Query)
  | err (s : Status)
  | crash

/-- `_sexp_binding_t`, lib/parse-sexp.cc:17-22. -/
inductive Env where
  | nil
  | bind (name : Str) (sx : Sexp) (context next : Env)

/-- `resolve_binding`, lib/parse-sexp.cc:192-206. -/
def resolve : Env → Str → Option (Sexp × Env)
  | .nil, _ => none
  | .bind n sx ctx next, name => if name = n then some (sx, ctx) else resolve next name

/-- Whether an atom is a parameter, and its name: `sx->aty == SEXP_BASIC && sx->val[0] == ','`. -/
def param : Sexp → Option Str
  | .atom false (44 :: n) => some n
  | _ => none

/-- The text of an atom that is no parameter, lib/parse-sexp.cc:231-239: `none` is BAD_QUERY_SYNTAX. -/
def atomText : Sexp → Option Str
  | .atom _ v => some v
  | .list _ => none

/-- The loop of `_sexp_expand_term`, lib/parse-sexp.cc:220-230, from a parameter on: each binding is looked up in the context of the one before. -/
def expandParam : Env → Str → Option Str
  | .nil, _ => none
  | .bind n sx ctx next, name =>
    if name = n then
      match param sx with
      | some m => expandParam ctx m
      | none => atomText sx
    else expandParam next name

/-- `_sexp_expand_term`, lib/parse-sexp.cc:208-240. -/
def expandTerm (e : Env) (sx : Sexp) : Option Str :=
  match param sx with
  | some n => expandParam e n
  | none => atomText sx

/-- `_sexp_parse_wildcard`, lib/parse-sexp.cc:242-262. -/
def parseWildcard (c : Ctx) (parent : Option Prefix) (m : Str) : Res :=
  match parent with
  | none => .ok (.wildcard (c.lower m))
  | some p => if p.flags.contains .wildcard then .ok (.wildcard (c.termPrefix p.name ++ c.lower m)) else .err .badSyntax

/-- `_sexp_parse_one_term`, lib/parse-sexp.cc:264-279, with `_sexp_parse_phrase`, lib/parse-sexp.cc:159-190. -/
def oneTerm (c : Ctx) (pre : Str) (quoted : Bool) (v : Str) : Query :=
  if !quoted && c.isWord v then .term (bs "Z" ++ pre ++ c.stem (c.lower v)) else .phrase ((c.words v).map (fun w => pre ++ c.lower w))

/-- `_find_slot`, lib/regexp-fields.cc:133-144. -/
def findSlot (field : Str) : Option Slot :=
  if field = bs "from" then some .sender
  else if field = bs "subject" then some .subject
  else if field = bs "mid" then some .messageId
  else none

/-- The terms of the database that begin with a prefix, in any order. -/
def allTerms (c : Ctx) (pre : Str) : List Str := (c.docs.flatMap (·.terms)).filter (fun t => pre.isPrefixOf t)

/-- `_notmuch_regexp_to_query`, lib/regexp-fields.cc:160-196, with the slot unknown. -/
def regexToQuery (c : Ctx) (field pattern : Str) : Res :=
  match c.regex pattern with
  | none => .err .illegalArgument
  | some f =>
    match findSlot field with
    | some slot => .ok (.regexValue slot pattern)
    | none => .ok (.anyTerm ((allTerms c (c.termPrefix field)).filter (fun t => f (t.drop (c.termPrefix field).length))))

/-- `_sexp_parse_regex`, lib/parse-sexp.cc:281-310. -/
def parseRegex (c : Ctx) (parent : Option Prefix) (e : Env) (sx : Sexp) : Res :=
  match parent with
  | none => .err .badSyntax
  | some p =>
    if p.flags.contains .regex then
      match expandTerm e sx with
      | none => .err .badSyntax
      | some s => regexToQuery c p.name s
    else .err .badSyntax

/-- `_notmuch_query_expand`, lib/query.cc:828-874: the terms of the field in the messages that match. -/
def queryExpand (c : Ctx) (field : Str) (q : Query) : Query :=
  .anyTerm (((c.docs.filter (fun d => q.holds c d)).flatMap (·.terms)).filter (fun t => (c.termPrefix field).isPrefixOf t))

/-- `_sexp_parse_infix`, lib/parse-sexp.cc:333-354; if an exception was reported before, this one is not. -/
def infixRes (c : Ctx) (s : Str) : Res :=
  match c.parseInfix s with
  | .ok => .ok (.infixQ s)
  | .syntaxError => .err .badSyntax
  | .exception => if c.reported then .ok .nothing else .err .xapianException

/-- `_notmuch_query_name_to_query`, lib/query-fp.cc:27-41: nobody catches what the parser throws. -/
def namedRes (c : Ctx) (n : Str) : Res :=
  match c.parseInfix (c.named n) with
  | .ok => .ok (.infixQ (c.named n))
  | _ => .crash

/-- Value of decimal digits. -/
def decimal (s : Str) : Nat := s.foldl (fun n c => 10 * n + (c.toNat - 48)) 0

/-- `std::stol`: white space, a sign, digits, and anything after them; `none` if it throws. -/
def stol (s : Str) : Option Int :=
  let t := skipSpace s
  let neg := t.head? = some 45
  let u := if t.head? = some 45 ∨ t.head? = some 43 then t.tail else t
  let ds := u.takeWhile isDigit
  let n : Int := if neg then -(decimal ds : Int) else decimal ds
  if ds = [] then none
  else if n < -(2 : Int) ^ 63 ∨ n ≥ (2 : Int) ^ 63 then none
  else some n

/-- A bound relative to the revision of the database. -/
def relative (c : Ctx) (n : Int) : Int := if n < 0 then n + c.revision else n

/-- `_notmuch_lastmod_strings_to_query`, lib/lastmod-fp.cc:26-70; LONG_MAX is above all revisions. -/
def lastmodRange (c : Ctx) (lo hi : Str) : Res :=
  match (if lo = [] then some 0 else stol lo), (if hi = [] then some none else (stol hi).map some) with
  | some l, some h => .ok (.range .lastMod (relative c l) (h.map (relative c)))
  | _, _ => .err .badSyntax

/-- `_notmuch_date_strings_to_query`, lib/parse-time-vrp.cc:28-69; of whole numbers, those that are at least DBL_MIN are at least 1. -/
def dateRange (c : Ctx) (lo hi : Str) : Res :=
  match (if lo = [] then some 1 else c.date lo false),
      (if hi = [] then some none else (c.date (if hi = bs "!" ∧ lo ≠ [] then lo else hi) true).map some) with
  | some l, some h => .ok (.range .timestamp l h)
  | _, _ => .err .badSyntax

/-- `*` is no bound, lib/parse-sexp.cc:535-553. -/
def starEmpty (s : Str) : Str := if s = bs "*" then [] else s

/-- The end of `_sexp_parse_range`, lib/parse-sexp.cc:556-578. -/
def rangeQuery (c : Ctx) (p : Prefix) (lo hi : Str) : Res :=
  if p.name = bs "date" then dateRange c lo hi
  else if p.name = bs "lastmod" then lastmodRange c lo hi
  else .err .badSyntax

/-- `_sexp_parse_range`, lib/parse-sexp.cc:516-578. -/
def parseRange (c : Ctx) (p : Prefix) : List Sexp → Res
  | [] => .ok .all
  | [.atom _ a] => rangeQuery c p (starEmpty a) (starEmpty a)
  | [.atom _ a, .atom _ b] => rangeQuery c p (starEmpty a) (starEmpty b)
  | _ => .err .badSyntax

/-- An atom that is no parameter, lib/parse-sexp.cc:593-628. -/
def evalAtom (c : Ctx) (parent : Option Prefix) (quoted : Bool) (v : Str) : Res :=
  if !quoted && v = bs "*" then parseWildcard c parent []
  else
    match parent with
    | some p =>
      let a := if p.flags.contains .pathname then stripTrailing v 47 else v
      if p.flags.contains .boolean then .ok (.term (c.termPrefix p.name ++ a)) else .ok (oneTerm c (c.termPrefix p.name) quoted a)
    | none =>
      .ok ((prefixes.filter (fun p => p.flags.contains .field)).foldl (fun acc p => .comb .or acc (oneTerm c (c.termPrefix p.name) quoted v)) .nothing)

/-- The arguments of a macro, lib/parse-sexp.cc:428-449: `none` is BAD_QUERY_SYNTAX. -/
def bindParams (e : Env) : List Sexp → List Sexp → Env → Option Env
  | [], [], new => some new
  | .atom false n :: ps, a :: as, new => bindParams e ps as (.bind n a e new)
  | _, _, _ => none

/-- `_sexp_combine_query`, lib/parse-sexp.cc:131-157, with `f` for `_sexp_to_xapian_query`. -/
def combine (f : Sexp → Option Res) (op : Op) : Query → List Sexp → Option Res
  | left, [] => some (.ok left)
  | left, x :: l =>
    match f x with
    | some (.ok q) => combine f op (.comb op left q) l
    | r => r

def isAtom : Sexp → Bool
  | .atom _ _ => true
  | .list _ => false

/-- The text of an atom. -/
def text : Sexp → Str
  | .atom _ v => v
  | .list _ => []

/-- `prefix->initial`. -/
def initial (p : Prefix) : Query := if p.all then .all else .nothing

/-- The loop over the table, lib/parse-sexp.cc:656-722; `f` is `_sexp_to_xapian_query`. -/
def evalPrefix (c : Ctx) (f : Option Prefix → Env → Sexp → Option Res) (parent : Option Prefix) (e : Env) (name : Str) (args : List Sexp) : Option Res :=
  match prefixes.find? (fun p => p.name = name) with
  | none => some (.err .badSyntax)
  | some p =>
    let isField := p.flags.contains .field || p.flags.contains .range
    if isField && parent.isSome then some (.err .badSyntax)
    else
      let parent := if isField then some p else parent
      if parent.isSome && p.flags.contains .orphan then some (.err .badSyntax)
      else if p.flags.contains .single && !(args.length == 1 && args.all isAtom) then some (.err .badSyntax)
      else if p.flags.contains .range then some (parseRange c p args)
      else if p.name = bs "infix" then some (infixRes c (text (args.headD (.list []))))
      else if p.name = bs "query" then some (namedRes c (text (args.headD (.list []))))
      else if p.op = .wildcard then
        match expandTerm e (args.headD (.list [])) with
        | none => some (.err .badSyntax)
        | some s => some (parseWildcard c parent s)
      else if p.flags.contains .doRegex then some (parseRegex c parent e (args.headD (.list [])))
      else if p.flags.contains .doExpand then
        match parent with
        | none => some .crash
        | some pp =>
          if pp.flags.contains .expand then
            match combine (f none .nil) p.op (initial p) args with
            | some (.ok q) => some (.ok (queryExpand c pp.name q))
            | r => r
          else some (.err .badSyntax)
      else combine (f parent e) p.op (initial p) args

/-- `maybe_saved_squery` with a saved query, lib/parse-sexp.cc:486-491, and `maybe_apply_macro`, lib/parse-sexp.cc:395-459. -/
def applySaved (f : Option Prefix → Env → Sexp → Option Res) (parent : Option Prefix) (e : Env) (args : List Sexp) : Sexp → Option Res
  | .atom _ _ => some .crash
  | .list [] => some .crash
  | .list (h :: rest) =>
    if isAtom h && text h = bs "macro" then
      match rest with
      | .list params :: body :: _ =>
        match bindParams e params args .nil with
        | none => some (.err .badSyntax)
        | some new => f parent new body
      | _ => some (.err .badSyntax)
    else f parent e (.list (h :: rest))

/-- A user defined field, lib/parse-sexp.cc:356-378. -/
def userPrefix (name : Str) : Prefix := ⟨name, .and, true, [.field, .wildcard]⟩

/-- A list with an atom first, lib/parse-sexp.cc:642-725. -/
def evalHead (c : Ctx) (f : Option Prefix → Env → Sexp → Option Res) (parent : Option Prefix) (e : Env) (name : Str) (args : List Sexp) : Option Res :=
  match c.squery name with
  | some none => some (.err .badSyntax)
  | some (some s) => applySaved f parent e args s
  | none =>
    if c.user name then
      if parent.isSome then some (.err .badSyntax) else combine (f (some (userPrefix name)) e) .and .all args
    else if name = bs "macro" then some (.err .badSyntax)
    else evalPrefix c f parent e name args

/-- `_sexp_to_xapian_query`, lib/parse-sexp.cc:584-726, with fuel: `none` if there was not enough. -/
def eval (c : Ctx) : Nat → Option Prefix → Env → Sexp → Option Res
  | 0, _, _, _ => none
  | n + 1, parent, e, sx =>
    match sx with
    | .atom q v =>
      match param (.atom q v) with
      | some name =>
        match resolve e name with
        | none => some (.err .badSyntax)
        | some (sx', e') => eval c n parent e' sx'
      | none => some (evalAtom c parent q v)
    | .list [] => some (.ok .all)
    | .list (.list _ :: _) => some (.err .badSyntax)
    | .list (.atom _ name :: args) => evalHead c (eval c n) parent e name args

/-- `_notmuch_sexp_string_to_xapian_query`, lib/parse-sexp.cc:728-742, of a text that is an s-expression. -/
def query (c : Ctx) (n : Nat) (sx : Sexp) : Option Res := eval c n none .nil sx

end Notmuch.Sexp
