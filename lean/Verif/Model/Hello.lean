import Verif.Model.Count

/-!
# emacs/notmuch-hello.el: the saved searches with their counts

Not modelled: other forms of saved searches than property lists with name, query and count-query, the widgets, what notmuch prints on standard error, and that numbers with a fraction are
inexact in Emacs.
-/

namespace Notmuch.Hello

/-- A saved search. -/
structure Search where
  name : Str
  query : Str
  countQuery : Option Str

/-- `:filter` and `:filter-count`. -/
inductive Filter
  | none
  | text (f : Str)
  | fn (f : Str → Option Str)

/-- The options of `notmuch-hello-query-counts`. -/
structure Options where
  showEmpty : Bool
  disableExcludes : Bool
  filter : Filter
  filterCount : Filter

/-- `notmuch-hello-filtered-query`, emacs/notmuch-hello.el:545-559. -/
def filtered (query : Str) : Filter → Option Str
  | .none => some query
  | .text f => some (bs "(" ++ query ++ bs ") and (" ++ f ++ bs ")")
  | .fn f => f query

/-- `(or (plist-get options :filter-count) (plist-get options :filter))`, emacs/notmuch-hello.el:584-585. -/
def Options.forCount (o : Options) : Filter :=
  match o.filterCount with
  | .none => o.filter
  | f => f

/-- `(replace-regexp-in-string "\n" " " …)`, emacs/notmuch-hello.el:581-583. -/
def oneLine (s : Str) : Str := s.map (fun c => if c = 10 then 32 else c)

/-- The text for notmuch count, emacs/notmuch-hello.el:577-586; `none` is an error, as when `replace-regexp-in-string` is given nil. -/
def countText (o : Options) : List Search → Option Str
  | [] => some []
  | e :: es =>
    match filtered (e.countQuery.getD e.query) o.forCount with
    | none => none
    | some q => (countText o es).map (fun t => oneLine q ++ bs "\n" ++ t)

/-- `(prog1 (read (current-buffer)) (forward-line 1))`, emacs/notmuch-hello.el:605-606: the number, and the text after its line; `none` if there is no number. -/
def readNumber (buffer : Str) : Option (Nat × Str) :=
  let b := buffer.dropWhile (fun c => c == 10 || c == 32 || c == 9)
  let digits := b.takeWhile isDigit
  let rest := b.dropWhile isDigit
  if digits.isEmpty then none
  else if rest.isEmpty then some (decVal digits, [])
  else if rest.head? == some 10 || rest.head? == some 32 || rest.head? == some 9 then some (decVal digits, (rest.dropWhile (· != 10)).drop 1)
  else none

/-- What is shown for a search. -/
structure Entry where
  name : Str
  query : Str
  count : Nat
deriving DecidableEq

/-- The loop over the searches, emacs/notmuch-hello.el:599-611. -/
def collect (o : Options) : List Search → Str → Option (List Entry)
  | [], _ => some []
  | e :: es, buffer =>
    match readNumber buffer with
    | none => none
    | some (n, rest) =>
      (collect o es rest).map (fun l =>
        match filtered e.query o.filter with
        | none => l
        | some q => if o.showEmpty || n > 0 then ⟨e.name, q, n⟩ :: l else l)

/-- `notmuch-hello-query-counts`, emacs/notmuch-hello.el:561-611; `none` is an error.  Without searches nothing is printed. -/
def queryCounts (E : Count.Env) (o : Options) (es : List Search) : Option (List Entry) :=
  match countText o es with
  | none => none
  | some text =>
    match Count.countLines E false (if o.disableExcludes then [] else E.excludes) .messages false (DumpRestore.splitLines text) with
    | some (true, out) => collect o es out
    | _ => none

/-- `notmuch-hello-reflect-generate-row`, emacs/notmuch-hello.el:478-487. -/
def row {α : Type} (ncols nrows r : Nat) (l : List α) : List (Option α) := (List.range ncols).map (fun col => l[nrows * col + r]?)

/-- `notmuch-hello-reflect`, emacs/notmuch-hello.el:489-495; with no columns there is a division by zero. -/
def reflect {α : Type} (l : List α) (ncols : Nat) : Option (List (Option α)) :=
  if ncols = 0 then none
  else
    let nrows := (l.length + ncols - 1) / ncols
    some ((List.range nrows).flatMap (fun r => row ncols nrows r l))

/-- `notmuch-column-control`: a number, a fraction, or something else. -/
inductive Control
  | number (k : Nat)
  | fraction (a b : Nat)
  | other

/-- `notmuch-hello-tags-per-line`, emacs/notmuch-hello.el:515-543, for a window that is wider than the indentation by `avail`. -/
def perLine (avail widest : Nat) : Control → Nat
  | .number k => max 1 (avail / (9 + 1 + max k widest))
  | .fraction a b => avail * b / max (avail * a) (widest * b)
  | .other => max 1 (avail / (9 + 1 + widest))

/-- The loop of `notmuch-hello-nice-number`, emacs/notmuch-hello.el:613-617. -/
def groups : Nat → Nat → List Nat → List Nat
  | 0, _, acc => acc
  | fuel + 1, n, acc => if n > 0 then groups fuel (n / 1000) (n % 1000 :: acc) else acc

/-- `%03d`. -/
def pad3 (n : Nat) : Str := let d := dec n; List.replicate (3 - d.length) 48 ++ d

/-- `notmuch-hello-nice-number`, emacs/notmuch-hello.el:613-623. -/
def nice (sep : Str) (n : Nat) : Str :=
  match groups n n [] with
  | [] => dec 0
  | g :: gs => dec g ++ gs.flatMap (fun x => sep ++ pad3 x)

end Notmuch.Hello
