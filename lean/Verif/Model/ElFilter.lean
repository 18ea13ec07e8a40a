/-
Filtering search results in Emacs: emacs/notmuch.el:1149-1180 (and the same in emacs/notmuch-tree.el), with what Xapian makes of the query.

A query is the list of its words and parentheses.  Which words contain the word "or" (as in "from:or") and which messages a word stands for are parameters.
Quoted phrases are words.  The grammar of Xapian is not in /repo and is taken from its documentation: OR binds least, then XOR, then AND and NOT, all to the
left; words that follow each other are joined by AND (lib/query.cc and lib/database-private.h set this operator and the flags for lower case and pure NOT).
-/
namespace Notmuch.ElFilter

/-- The words of a query, as `string-match-p` (emacs/notmuch.el:1152) and the query parser see them. -/
inductive Tok where
  | term (s : String)
  | opOr | opXor | opAnd | opNot | lpar | rpar | star
deriving DecidableEq, Repr

/-- What has been read at one level of parentheses: what OR, XOR, AND or NOT will be applied to, and the words after the last operator.  Xapian's parser. -/
structure Frame (M : Type) where
  o : Option (M → Bool)
  x : Option (M → Bool)
  a : Option (M → Bool)
  neg : Bool
  g : Option (M → Bool)

/-- Nothing read.  Xapian's parser. -/
def fresh {M : Type} : Frame M := ⟨none, none, none, false, none⟩

/-- Words that follow each other.  Xapian's parser with the default operator AND. -/
def addG {M : Type} : Option (M → Bool) → (M → Bool) → (M → Bool)
  | none, v => v
  | some g, v => fun m => g m && v m

/-- AND or NOT applied.  Xapian's parser; a missing operand is an error. -/
def closeG {M : Type} (f : Frame M) : Option (M → Bool) :=
  match f.g with
  | none => none
  | some g => match f.a with
    | none => some g
    | some a => some (if f.neg then fun m => a m && !g m else fun m => a m && g m)

/-- XOR applied.  Xapian's parser. -/
def closeX {M : Type} (f : Frame M) : Option (M → Bool) :=
  (closeG f).map fun v => match f.x with | none => v | some x => fun m => Bool.xor (x m) (v m)

/-- OR applied.  Xapian's parser. -/
def closeO {M : Type} (f : Frame M) : Option (M → Bool) :=
  (closeX f).map fun v => match f.o with | none => v | some o => fun m => o m || v m

/-- A word of the query.  Xapian's parser; `none` is a syntax error. -/
def step {M : Type} (den : String → M → Bool) : List (Frame M) → Tok → Option (List (Frame M))
  | [], _ => none
  | f :: st, .term s => some ({ f with g := some (addG f.g (den s)) } :: st)
  | f :: st, .opAnd => (closeG f).map fun v => ⟨f.o, f.x, some v, false, none⟩ :: st
  | f :: st, .opNot =>
    match f.g with
    | some _ => (closeG f).map fun v => ⟨f.o, f.x, some v, true, none⟩ :: st
    | none => match f.a with
      | none => some (⟨f.o, f.x, some fun _ => true, true, none⟩ :: st)
      | some a => if f.neg then none else some (⟨f.o, f.x, some a, true, none⟩ :: st)
  | f :: st, .opXor => (closeX f).map fun v => ⟨f.o, some v, none, false, none⟩ :: st
  | f :: st, .opOr => (closeO f).map fun v => ⟨some v, none, none, false, none⟩ :: st
  | f :: st, .lpar => some (fresh :: f :: st)
  | [_], .rpar => none
  | f :: f' :: st, .rpar => (closeO f).map fun v => { f' with g := some (addG f'.g v) } :: st
  | _ :: _, .star => none

/-- All words of a query.  Xapian's parser. -/
def run {M : Type} (den : String → M → Bool) : List (Frame M) → List Tok → Option (List (Frame M))
  | fs, [] => some fs
  | fs, t :: ts => (step den fs t).bind fun fs' => run den fs' ts

/-- The messages a query matches; the empty query and "*" match all (lib/query.cc:274-277). -/
def eval {M : Type} (den : String → M → Bool) (q : List Tok) : Option (M → Bool) :=
  if q = [] ∨ q = [.star] then some fun _ => true
  else match run den [fresh] q with
    | some [f] => closeO f
    | _ => none

/-- A word in which `\<[oO][rR]\>` matches, emacs/notmuch.el:1152. -/
def wordOr (hasOr : String → Bool) : Tok → Bool
  | .opOr => true
  | .term s => hasOr s
  | _ => false

/-- `notmuch-group-disjunctive-query-string`, emacs/notmuch.el:1149-1154. -/
def group (hasOr : String → Bool) (q : List Tok) : List Tok := if q.any (wordOr hasOr) then .lpar :: q ++ [.rpar] else q

/-- The query of `notmuch-search-filter`, emacs/notmuch.el:1156-1169. -/
def filter (hasOr : String → Bool) (orig q : List Tok) : List Tok :=
  if group hasOr orig = [.star] then group hasOr q else group hasOr orig ++ .opAnd :: group hasOr q

/-- The query of `notmuch-search-filter-by-tag`, emacs/notmuch.el:1171-1182. -/
def filterByTag (orig : List Tok) (tag : String) : List Tok := orig ++ [.opAnd, .term ("tag:" ++ tag)]

end Notmuch.ElFilter
