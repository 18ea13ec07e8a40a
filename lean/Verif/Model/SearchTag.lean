/-
Tagging from the search results in Emacs, emacs/notmuch.el.

The buffer is the lines of the results, each with the result object that its characters carry in the text property `notmuch-search-result`, followed by
characters that carry none ("End of search results.").  Positions count from 0 (in Emacs from 1).  What a line looks like is left out but for the number of its
characters; that the format may have been customised since a line was drawn is allowed for by keeping the width with the line.
-/
namespace Notmuch.SearchTag

/-- What is used here of a result: `:thread`, `:query` (the queries of the matched and of the other messages) and `:tags`, emacs/notmuch.el:491-496, 597-598. -/
structure Result where
  thread : String
  matched : Option String
  unmatched : Option String
  tags : List String
deriving DecidableEq, Repr

/-- A line as drawn by `notmuch-search-show-result`, emacs/notmuch.el:882-892: the object and the number of characters before the newline. -/
structure Line where
  result : Result
  width : Nat
deriving DecidableEq, Repr

/-- Characters of a line with its newline, emacs/notmuch.el:889-892. -/
def Line.size (l : Line) : Nat := l.width + 1

/-- `notmuch-search-get-result`, emacs/notmuch.el:422-426. -/
def getResult : List Line → Nat → Option Line
  | [], _ => none
  | l :: ls, p => if p < l.size then some l else getResult ls (p - l.size)

/-- `notmuch-search-result-beginning`, emacs/notmuch.el:428-437. -/
def resultBeg : List Line → Nat → Option Nat
  | [], _ => none
  | l :: ls, p => if p < l.size then some 0 else (resultBeg ls (p - l.size)).map (l.size + ·)

/-- `notmuch-search-result-end`, emacs/notmuch.el:439-448. -/
def resultEnd : List Line → Nat → Option Nat
  | [], _ => none
  | l :: ls, p => if p < l.size then some l.size else (resultEnd ls (p - l.size)).map (l.size + ·)

/-- The buffer, the marker `end` of the loop (emacs/notmuch.el:460), point, and what the function of the loop collects. -/
structure St (α : Type) where
  lines : List Line
  mark : Nat
  point : Nat
  out : α

/-- The loop of `notmuch-search-foreach-result`, emacs/notmuch.el:467-472; the number bounds the rounds, one more than there are lines. -/
def foreachLoop {α : Type} (fn : Nat → St α → St α) : Nat → Nat → Bool → St α → St α
  | 0, _, _, s => s
  | n + 1, pos, first, s =>
    if pos < s.mark || first then
      let s' := if (getResult s.lines pos).isSome then fn pos s else s
      match resultEnd s'.lines pos with
      | none => s'
      | some p => foreachLoop fn n p false s'
    else s

/-- `notmuch-search-foreach-result`, emacs/notmuch.el:450-472. -/
def foreachResult {α : Type} (fn : Nat → St α → St α) (b e : Nat) (s : St α) : St α :=
  match resultBeg s.lines b with
  | none => s
  | some pos => foreachLoop fn (s.lines.length + 1) pos true { s with mark := e }

/-- What is collected for each result: the function of `notmuch-search-properties-in-region`, emacs/notmuch.el:478-480. -/
def collect {α : Type} (g : Line → α → α) (pos : Nat) (s : St α) : St α :=
  match getResult s.lines pos with
  | none => s
  | some l => { s with out := g l s.out }

/-- The lines of the results in the region, the last first: `notmuch-search-properties-in-region`, emacs/notmuch.el:476-481, before the property is taken. -/
def linesInRegion (lines : List Line) (b e : Nat) : List Line :=
  (foreachResult (collect (fun l out => l :: out)) b e { lines := lines, mark := 0, point := 0, out := [] }).out

/-- One round of the `dolist`, emacs/notmuch.el:505-509. -/
def pushQueries (onlyMatched : Bool) (qs : List String) (l : Line) : List String :=
  let qs := match l.result.matched with | some q => q :: qs | none => qs
  if onlyMatched then qs else match l.result.unmatched with | some q => q :: qs | none => qs

/-- The queries that are put together, emacs/notmuch.el:504-509. -/
def queryList (lines : List Line) (b e : Nat) (onlyMatched : Bool) : List String :=
  (linesInRegion lines b e).foldl (pushQueries onlyMatched) []

/-- `notmuch-search-find-stable-query-region`, emacs/notmuch.el:498-511. -/
def stableQuery (lines : List Line) (b e : Nat) (onlyMatched : Bool) : Option String :=
  let qs := queryList lines b e onlyMatched
  if qs.isEmpty then none else some ("(" ++ String.intercalate ") or (" qs ++ ")")

/-- `notmuch-search-get-tags-region`, emacs/notmuch.el:600-605. -/
def tagsRegion (lines : List Line) (b e : Nat) : List String :=
  ((foreachResult (collect (fun l out => out ++ l.result.tags)) b e { lines := lines, mark := 0, point := 0, out := [] }).out).eraseDups

/-- The line at a position replaced by another, emacs/notmuch.el:688-690. -/
def replaceAt : List Line → Nat → (Line → Line) → List Line
  | [], _, _ => []
  | l :: ls, p, f => if p < l.size then f l :: ls else l :: replaceAt ls (p - l.size) f

/-- A marker (or point) when the text from `st` to `en` is deleted and text of `n` characters inserted there: inside it goes to `st` and is not moved by the
insertion; emacs/notmuch.el:688-690 and 885 (`save-excursion`). -/
def moveMark (st en n m : Nat) : Nat := if m ≤ st then m else if m ≤ en then st else m - (en - st) + n

/-- `notmuch-search-update-result`, emacs/notmuch.el:676-702; `f` gives the new line. -/
def updateResult {α : Type} (f : Line → Line) (pos : Nat) (s : St α) : St α :=
  match resultBeg s.lines pos, resultEnd s.lines pos, getResult s.lines pos with
  | some st, some en, some l =>
    let lines := replaceAt s.lines pos f
    let n := (f l).size
    let point := moveMark st en n s.point
    let point :=
      if st ≤ s.point ∧ s.point ≤ en then
        match resultEnd lines st with
        | some newEnd => if s.point = en then newEnd else min s.point (newEnd - 1)
        | none => point
      else point
    { s with lines := lines, mark := moveMark st en n s.mark, point := point }
  | _, _, _ => s

/-- The line after `notmuch-search-set-tags`, emacs/notmuch.el:592-595, drawn as 882-892; `draw` is the number of characters of the line of a result. -/
def setTags (draw : Result → Nat) (upd : List String → List String) (l : Line) : Line :=
  let r := { l.result with tags := upd l.result.tags }
  { result := r, width := draw r }

/-- `notmuch-search-tag`, emacs/notmuch.el:617-639: the query given to `notmuch-tag` and the lines and point after it.  `none`: `notmuch-tag` ends with an
error as there is nothing to tag (emacs/notmuch-tag.el:488-489).  `upd` is `notmuch-update-tags` with the changes (C76). -/
def searchTag (draw : Result → Nat) (upd : List String → List String) (lines : List Line) (point b e : Nat) (onlyMatched : Bool) :
    Option (String × List Line × Nat) :=
  match stableQuery lines b e onlyMatched with
  | none => none
  | some q =>
    let s := foreachResult (updateResult (setTags draw upd)) b e { lines := lines, mark := 0, point := point, out := () }
    some (q, s.lines, s.point)

/-- `notmuch-search-next-thread`, emacs/notmuch.el:262-266. -/
def nextThread (lines : List Line) (point : Nat) : Nat :=
  match resultEnd lines point with
  | some p => p
  | none => point

/-- `notmuch-search-archive-thread`, emacs/notmuch.el:657-672, with no region: BEG and END are point. -/
def archive (draw : Result → Nat) (upd : List String → List String) (lines : List Line) (point : Nat) : Option (String × List Line × Nat) :=
  (searchTag draw upd lines point point point false).map fun (q, ls, p) => (q, ls, nextThread ls p)

/-- `notmuch-search-tag-all`, emacs/notmuch.el:932-940: from the beginning of the buffer to its end, which is `tail` characters after the results. -/
def tagAll (draw : Result → Nat) (upd : List String → List String) (lines : List Line) (tail point : Nat) : Option (String × List Line × Nat) :=
  searchTag draw upd lines point 0 ((lines.map Line.size).sum + tail) true

/-- `notmuch-search-last-thread`, emacs/notmuch.el:278-284: two lines up from the empty last line, over the line "End of search results.", modelled as the
beginning of the last result; while the search still runs there is no such line and the command goes one result too far, which is left out. -/
def lastThread (lines : List Line) (point : Nat) : Nat :=
  match resultBeg lines ((lines.map Line.size).sum - 1) with
  | some p => p
  | none => point

/-- `notmuch-search-previous-thread`, emacs/notmuch.el:268-276. -/
def previousThread (lines : List Line) (point : Nat) : Nat :=
  match getResult lines point with
  | some _ => if point = 0 then 0 else (resultBeg lines (point - 1)).getD point
  | none => lastThread lines point

end Notmuch.SearchTag
