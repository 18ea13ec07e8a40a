/-!
# emacs/notmuch-lib.el, notmuch-show.el: which part of a multipart/alternative is shown

Types are abstract; `discouraged` is the list of the preferences (each the function that `string-match` with it is).
-/

namespace Notmuch.Alternative

variable {τ : Type} [DecidableEq τ]

/-- The inner loop (emacs/notmuch-lib.el:612-614): over a copy of the sequence; `delete` takes every equal element out, `nconc` puts one at the end. -/
def moveAll (p : τ → Bool) : List τ → List τ → List τ
  | [], seq => seq
  | e :: copy, seq => moveAll p copy (if p e then seq.filter (fun x => decide (x ≠ e)) ++ [e] else seq)

/-- `notmuch-multipart/alternative-choose` (emacs/notmuch-lib.el:605-615). -/
def choose (discouraged : List (τ → Bool)) (types : List τ) : List τ :=
  discouraged.reverse.foldl (fun seq p => moveAll p seq seq) types

/-- `notmuch-show-insert-part-multipart/alternative` (emacs/notmuch-show.el:739-756): which of the inner parts, given by their types, are shown. `all` is
`notmuch-show-all-multipart/alternative-parts`. -/
def shown (all : Bool) (discouraged : List (τ → Bool)) (types : List τ) : List Bool :=
  let chosen := (choose discouraged types).head?
  types.map fun t => all || decide (chosen = some t)

end Notmuch.Alternative
