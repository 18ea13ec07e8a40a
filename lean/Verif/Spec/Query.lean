import Verif.Model.Query

/-!
# What searching means

A user makes a query `x`, adds excluded tags `ex`, chooses a mode and an order (`build`), and iterates over the
messages or threads of the result.
-/

namespace Notmuch.QuerySpec
open Notmuch.Query

def IsMail (d : Doc) : Prop := typeTerm (bs "mail") ∈ d.terms
def HasTag (d : Doc) (t : Str) : Prop := tagTerm t ∈ d.terms
def InThread (d : Doc) (t : Str) : Prop := threadTerm t ∈ d.terms

/-- A database: document ids are unique 32-bit numbers (the largest one is not used, see C24), and a mail is in
exactly one thread (C19, C20). -/
structure GoodDb (db : List Doc) : Prop where
  ids : (db.map (·.id)).Nodup
  bound : ∀ d ∈ db, d.id < 4294967295
  thread : ∀ d ∈ db, IsMail d → ∃ t, ∀ t', InThread d t' ↔ t' = t

/-- What is assumed of the order in which Xapian delivers: nothing is lost or invented, and the dates are in order. -/
structure Orders (ord : SortOrder → List Doc → List Doc) : Prop where
  perm : ∀ s l, (ord s l).Perm l
  oldest : ∀ l, (ord .oldestFirst l).Pairwise (fun a b => a.date ≤ b.date)
  newest : ∀ l, (ord .newestFirst l).Pairwise (fun a b => a.date ≥ b.date)

/-- `notmuch_query_create`, `notmuch_query_add_tag_exclude` for each tag, `notmuch_query_set_omit_excluded`,
`notmuch_query_set_sort`. -/
def build (x : XQuery) (ex : List Str) (o : Exclude) (s : SortOrder) : Query :=
  { ex.foldl (fun q t => (addTagExclude q t).2) (mkQuery x) with omitExcluded := o, sort := s }

/-- The mail matches the query. -/
def Hit (x : XQuery) (d : Doc) : Prop := IsMail d ∧ x.eval d = true

/-- The document has an excluded tag that the query does not mention. -/
def IsExcluded (x : XQuery) (ex : List Str) (d : Doc) : Prop := ∃ t ∈ ex, tagTerm t ∉ x.terms ∧ HasTag d t

/-- The loop `while (notmuch_threads_valid) { notmuch_threads_get; notmuch_threads_move_to_next }`, at most `n`
times round (`none`: a crash, or it goes on). -/
def allThreads (ord : SortOrder → List Doc → List Doc) (db : List Doc) (q : Query) : Nat → Threads → Option (List Thread)
  | 0, _ => none
  | n + 1, t =>
    match threadsValid t with
    | none => none
    | some (false, _) => some []
    | some (true, t) =>
      match threadsGet ord db q t with
      | some (some th, t) => (allThreads ord db q n (threadsNext t)).map (th :: ·)
      | _ => none

/-- The thread search of a user. -/
def searchAllThreads (ord : SortOrder → List Doc → List Doc) (db : List Doc) (q : Query) : Option (List Thread) :=
  (searchThreads ord db q).bind (fun t => allThreads ord db q (t.docIds.length + 1) t)

/-- The elements of a list, each where it occurs first. -/
def firsts {α : Type} [DecidableEq α] : List α → List α
  | [] => []
  | a :: l => a :: (firsts l).filter (· ≠ a)

end Notmuch.QuerySpec
