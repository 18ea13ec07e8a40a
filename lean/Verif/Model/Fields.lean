import Verif.Model.Sexp

/-!
# Model: the fields of infix queries (lib/prefix.cc, lib/regexp-fields.cc, lib/thread-fp.cc, lib/query-fp.cc, lib/sexp-fp.cc, lib/parse-time-vrp.cc, lib/lastmod-fp.cc, lib/query.cc)

Xapian's query parser finds the operators, the words and the fields of a text; what it finds is a tree (`Tree`), and it calls notmuch's field and range processors for the fields.  The parser
itself is a parameter (`Parser`), and so are the libraries that Model/Sexp.lean takes as parameters (`Ctx`).  That a processor throws `Xapian::QueryParserError` makes the whole query fail with
NOTMUCH_STATUS_XAPIAN_EXCEPTION; another exception is not caught, which is `crash`.  Evaluation takes fuel, since saved queries may use each other, and themselves, without end.
-/

namespace Notmuch.Fields

open Notmuch.Sexp

/-! ## The fields -/

/-- `notmuch_field_flag_t`, lib/database-private.h:163-169, without EXTERNAL. -/
inductive Flag where
  | probabilistic
  | processor
  | stripTrailingSlash
  deriving DecidableEq

/-- `prefix_t`, lib/prefix.cc. -/
structure Field where
  name : Str
  flags : List Flag

open Flag in
/-- `prefix_table`, lib/prefix.cc:39-85, the fields that are EXTERNAL, which are those that queries can have. -/
def table : List Field :=
  [⟨bs "body", [probabilistic]⟩, ⟨bs "thread", [processor]⟩, ⟨bs "tag", [processor]⟩, ⟨bs "is", [processor]⟩, ⟨bs "id", []⟩, ⟨bs "mid", [processor]⟩,
   ⟨bs "path", [processor, stripTrailingSlash]⟩, ⟨bs "property", []⟩, ⟨bs "folder", [processor, stripTrailingSlash]⟩, ⟨bs "date", [processor]⟩, ⟨bs "query", [processor]⟩, ⟨bs "sexp", [processor]⟩,
   ⟨bs "from", [probabilistic, processor]⟩, ⟨bs "to", [probabilistic]⟩, ⟨bs "attachment", [probabilistic]⟩, ⟨bs "mimetype", [probabilistic]⟩, ⟨bs "subject", [probabilistic, processor]⟩]

/-- The field processors that `_setup_query_field` chooses from, lib/prefix.cc:132-158. -/
inductive Processor where
  | date
  | query
  | thread
  | sexp
  | regexp

/-- `_setup_query_field`, lib/prefix.cc:132-158; the names are compared with `strncmp` and the length of the literal. -/
def processorOf (name : Str) : Processor :=
  if (bs "date").isPrefixOf name then .date
  else if (bs "query").isPrefixOf name then .query
  else if (bs "thread").isPrefixOf name then .thread
  else if (bs "sexp").isPrefixOf name then .sexp
  else .regexp

/-! ## Xapian's parser -/

/-- The operators that NOTMUCH_QUERY_PARSER_FLAGS allows (lib/database-private.h): AND (also between words without an operator), OR, AND NOT, XOR. -/
inductive BinOp where
  | and
  | or
  | andNot
  | xor

/-- What Xapian's parser finds: words and phrases, in text or in a probabilistic field without a processor, of which it makes a query itself; a field with a processor, or a boolean one; a range. -/
inductive Tree where
  | words (q : Query)
  | field (name value : Str)
  | range (name lo hi : Str)
  | comb (op : BinOp) (l r : Tree)
  | not (t : Tree)

/-- The library: Xapian's QueryParser, set up in lib/prefix.cc:121-170 and lib/open.cc:533-556, and sfsexp, lib/parse-sexp.cc:680-693. -/
structure Parser where
  /-- `parse_query (text, NOTMUCH_QUERY_PARSER_FLAGS)`, without the processors: `none` is a syntax error -/
  parse : Str → Option Tree
  /-- `parse_query (text, NOTMUCH_QUERY_PARSER_FLAGS, prefix)` -/
  parseIn : Str → Str → Option Query
  /-- sfsexp: `none` is a text that is not an s-expression -/
  readSexp : Str → Option Sexp

/-! ## The processors -/

/-- A `Xapian::Error` that `_notmuch_query_string_to_xapian_query` catches, lib/query.cc:189-205. -/
def thrown : Res := .err .xapianException

/-- `status` is not zero: a `QueryParserError` is thrown, lib/thread-fp.cc:43-49, lib/sexp-fp.cc:34-37, lib/regexp-fields.cc:217-219. -/
def rethrow : Res → Res
  | .ok q => .ok q
  | .err _ => thrown
  | .crash => .crash

/-- lib/regexp-fields.cc:229-234: whether the text is put into quotation marks. -/
def quoteText (str : Str) : Bool :=
  (str.head? ≠ some 40 || str.getLast? ≠ some 41) && (str.getLast? ≠ some 42 || str.contains 32)

/-- `RegexpFieldProcessor::operator()`, lib/regexp-fields.cc:198-258. -/
def regexpField (c : Ctx) (p : Parser) (name : Str) (probabilistic : Bool) (str : Str) : Res :=
  let pre := c.termPrefix name
  if str = [] then
    if probabilistic then .ok (.comb .andNot .all (.wildcard pre)) else .ok (.term pre)
  else if str.head? = some 47 then
    if 1 < str.length ∧ str.getLast? = some 47 then rethrow (regexToQuery c name (str.tail.dropLast)) else thrown
  else if probabilistic then
    match p.parseIn pre (if quoteText str then 34 :: str ++ [34] else str) with
    | some q => .ok q
    | none => thrown
  else .ok (.term (pre ++ (if 1 < str.length ∧ str.getLast? = some 47 then str.dropLast else str)))

/-- `DateFieldProcessor::operator()`, lib/parse-time-vrp.cc:84-108. -/
def dateField (c : Ctx) (str : Str) : Res :=
  match c.date str false, c.date str true with
  | some lo, some hi => .ok (.range .timestamp lo (some hi))
  | _, _ => thrown

/-- A field of a query: with a processor, or a boolean one (`_setup_query_field`, lib/prefix.cc:121-158).  `f` evaluates another query text, and `n` is fuel for s-expressions.  `none`: not enough fuel. -/
def fieldQuery (c : Ctx) (p : Parser) (n : Nat) (f : Str → Option Res) (name str : Str) : Option Res :=
  match table.find? (fun x => x.name = name) with
  | none => some (.ok (.term (c.termPrefix name ++ str)))
  | some x =>
    if x.flags.contains .processor then
      match processorOf name with
      | .date => some (dateField c str)
      /- `QueryFieldProcessor::operator()`, lib/query-fp.cc:43-56 -/
      | .query => f (c.named str)
      /- `ThreadFieldProcessor::operator()`, lib/thread-fp.cc:27-58: `str.at (0)` throws std::out_of_range for an empty text -/
      | .thread =>
        match str with
        | [] => some .crash
        | 123 :: rest =>
          if rest.getLast? = some 125 then
            let sub := rest.dropLast
            (if sub = [] ∨ sub = bs "*" then some (.ok .all) else f sub).map (fun r => match r with
              | .ok q => .ok (queryExpand c (bs "thread") q)
              | r => rethrow r)
          else some thrown
        | str => some (.ok (.term (c.termPrefix (bs "thread") ++ str)))
      /- `SexpFieldProcessor::operator()`, lib/sexp-fp.cc:26-44 -/
      | .sexp =>
        match p.readSexp str with
        | none => some thrown
        | some sx => (Sexp.query c n sx).map rethrow
      | .regexp => some (regexpField c p name (x.flags.contains .probabilistic) str)
    else some (.ok (.term (c.termPrefix name ++ str)))

/-- The range processors, lib/parse-time-vrp.cc:71-82 and lib/lastmod-fp.cc:72-83.  Not modelled: the range of plain numbers (lib/open.cc:544). -/
def rangeField (c : Ctx) (name lo hi : Str) : Res :=
  if name = bs "date" then rethrow (dateRange c lo hi)
  else if name = bs "lastmod" then rethrow (lastmodRange c lo hi)
  else thrown

/-- What the parser makes of the operators (lib/query.cc:190-194); XOR is one of Xapian's, and has the meaning that it is made of here. -/
def combine : BinOp → Query → Query → Query
  | .and, l, r => .comb .and l r
  | .or, l, r => .comb .or l r
  | .andNot, l, r => .comb .andNot l r
  | .xor, l, r => .comb .or (.comb .andNot l r) (.comb .andNot r l)

/-- Both sides are evaluated, the left one first (lib/query.cc:190-194: an exception in any of them is one of the whole). -/
def both (op : BinOp) : Res → Res → Res
  | .ok l, .ok r => .ok (combine op l r)
  | .ok _, r => r
  | l, _ => l

/-- NOT without anything before it (FLAG_PURE_NOT, lib/database-private.h NOTMUCH_QUERY_PARSER_FLAGS). -/
def negate : Res → Res
  | .ok q => .ok (.comb .andNot .all q)
  | r => r

/-- The query that the parser makes of what it has found, with the processors (lib/query.cc:190-194). -/
def build (c : Ctx) (p : Parser) (n : Nat) (f : Str → Option Res) : Tree → Option Res
  | .words q => some (.ok q)
  | .field name value => fieldQuery c p n f name value
  | .range name lo hi => some (rangeField c name lo hi)
  | .comb op l r => (build c p n f l).bind (fun a => (build c p n f r).map (fun b => both op a b))
  | .not t => (build c p n f t).map negate

/-- `parse_query` with NOTMUCH_QUERY_PARSER_FLAGS, lib/query.cc:190-194, lib/query-fp.cc:39. -/
def parseQuery (c : Ctx) (p : Parser) : Nat → Str → Option Res
  | 0, _ => none
  | n + 1, s =>
    match p.parse s with
    | none => some thrown
    | some t => build c p n (parseQuery c p n) t

/-- `_notmuch_query_string_to_xapian_query`, lib/query.cc:182-212. -/
def queryString (c : Ctx) (p : Parser) (n : Nat) (s : Str) : Option Res :=
  if s = [] ∨ s = bs "*" then some (.ok .all) else parseQuery c p n s

/-! ## `RegexpPostingSource` -/

/-- The state of a posting source, lib/regexp-fields.h: the values from the current one on (document and value, in the order of documents), and whether it has been started. -/
structure Source where
  rest : List (Nat × Str)
  started : Bool

/-- `init`, lib/regexp-fields.cc:61-67. -/
def Source.init (values : List (Nat × Str)) : Source := ⟨values, false⟩

/-- The loop over the values until one matches, lib/regexp-fields.cc:108-112. -/
def seek (re : Str → Bool) : List (Nat × Str) → List (Nat × Str)
  | [] => []
  | v :: l => if re v.2 then v :: l else seek re l

/-- `next`, lib/regexp-fields.cc:101-113. -/
def Source.next (re : Str → Bool) (s : Source) : Source := ⟨seek re (if s.started then s.rest.tail else s.rest), true⟩

/-- `skip_to`, lib/regexp-fields.cc:115-125; the iterator of values stays where it is if it is at the document or after it. -/
def Source.skipTo (re : Str → Bool) (did : Nat) (s : Source) : Source := ⟨seek re (s.rest.dropWhile (fun v => v.1 < did)), true⟩

/-- `check`, lib/regexp-fields.cc:127-134.  Simplified: the iterator of values moves as for `skip_to`, which it may. -/
def Source.check (re : Str → Bool) (did : Nat) (s : Source) : Source × Bool :=
  let rest := s.rest.dropWhile (fun v => v.1 < did)
  (⟨rest, true⟩, match rest with | [] => false | v :: _ => re v.2)

/-- `get_docid`, `at_end`. -/
def Source.docid (s : Source) : Option Nat := s.rest.head?.map (·.1)

end Notmuch.Fields
