import Verif.Base.Bytes

/-!
# emacs/coolj.el and `notmuch-wash-wrap-long-lines`: wrapping of long lines

A character is a byte and takes one column (no tabs, wide or invisible characters); `fill-nobreak-predicate` is nil; `coolj-line-prefix-regexp` has its default value.
-/

namespace Notmuch.Coolj

/-- The match of `^\(>+ ?\)*` at the start of a line, emacs/coolj.el:48-51 and 55-61: `>` after `>` or a space after it, and a space only after `>`. -/
def quote : Bool → Str → Str
  | _, [] => []
  | afterMark, c :: t =>
    if c = 62 then c :: quote true t
    else if c = 32 ∧ afterMark then c :: quote false t
    else []

/-- `coolj-determine-prefix`, emacs/coolj.el:55-61. -/
def prefixOf (l : Str) : Str := quote false l

/-- `(re-search-forward "[^ ]" (line-end-position) 1)` from column `i`: the column of the character found, emacs/coolj.el:107. -/
def findNonSpace (l : Str) (i : Nat) : Option Nat := ((l.drop i).findIdx? (· != 32)).map (· + i)

/-- `(search-backward " " end-of-prefix 1)` from column `p`, emacs/coolj.el:118: the greatest column between with a space. -/
def searchBackward (l : Str) (lo : Nat) : Nat → Option Nat
  | 0 => none
  | p + 1 => if p < lo then none else if l[p]? = some 32 then some p else searchBackward l lo p

/-- `(skip-chars-backward " " end-of-prefix)`, emacs/coolj.el:120. -/
def skipBack (l : Str) (lo : Nat) : Nat → Nat
  | 0 => 0
  | p + 1 => if p < lo then p + 1 else if l[p]? = some 32 then skipBack l lo p else p + 1

/-- What a search with a bound may do: the error is that of a bound on the wrong side of point. -/
inductive Res (α : Type)
  | error
  | ok (x : α)
deriving DecidableEq

/-- `coolj-find-break-backward`, emacs/coolj.el:114-129, with point at column `p`: the column of the break. -/
def breakBackward (l : Str) (eop p : Nat) : Res (Option Nat) :=
  if p < eop then .error
  else
    match searchBackward l eop p with
    | none => .ok none
    | some q => if skipBack l eop q = 0 then .ok none else .ok (some (q + 1))

/-- `coolj-find-break-forward`, emacs/coolj.el:131-141, with point at column `p`. -/
def breakForward (l : Str) (p : Nat) : Option Nat :=
  match (l.drop p).findIdx? (· == 32) with
  | none => none
  | some d => findNonSpace l (p + d + 1)

/-- `coolj-set-breakpoint`, emacs/coolj.el:102-112: the column of the break, if the line is to be broken. -/
def breakpoint (fill : Nat) (l : Str) : Res (Option Nat) :=
  match findNonSpace l fill with
  | none => .ok none
  | some j =>
    if j + 1 > fill then
      match breakBackward l (prefixOf l).length (j + 1) with
      | .error => .error
      | .ok (some k) => .ok (some k)
      | .ok none => .ok (breakForward l fill)
    else .ok none

/-- `coolj-wrap-line`, emacs/coolj.el:86-100: the line before the break, and the rest with the prefix in front; the character before the break is deleted. -/
def wrapLine (fill : Nat) (l : Str) : Res (Option (Str × Str)) :=
  match breakpoint fill l with
  | .error => .error
  | .ok none => .ok none
  | .ok (some k) => .ok (some (l.take (k - 1), prefixOf l ++ l.drop k))

/-- What the loop may end with. -/
inductive Outcome
  | error
  | noEnd
  | lines (ls : List Str)
deriving DecidableEq

/-- Some lines in front of those of an outcome. -/
def Outcome.push (a : List Str) : Outcome → Outcome
  | .lines ls => .lines (a ++ ls)
  | r => r

/-- The loop of `coolj-wrap-region`, emacs/coolj.el:79-82, at line `l`, which begins at position `s` of the buffer, with the lines `rest` after it.  The flag `second` is that the line before did not need
wrapping and ended at or after the end of the region: then one more line that needs none ends the loop. -/
def loop (fill stop : Nat) : Nat → Bool → Nat → Str → List Str → Outcome
  | 0, _, _, _, _ => .noEnd
  | fuel + 1, second, s, l, rest =>
    match wrapLine fill l with
    | .error => .error
    | .ok (some (a, l')) => (loop fill stop fuel false (s + a.length + 1) l' rest).push [a]
    | .ok none =>
      if second then .lines (l :: rest)
      else
        match rest with
        | [] => .lines [l]
        | [[]] => .lines [l, []]
        | m :: rest' => (loop fill stop fuel (decide (stop ≤ s + l.length + 1)) (s + l.length + 1) m rest').push [l]

/-- The length of a text of these lines. -/
def textLength (ls : List Str) : Nat := (ls.map List.length).sum + (ls.length - 1)

/-- `coolj-wrap-region`, emacs/coolj.el:67-84, for the whole buffer, of lines `l :: rest`; the number of steps is enough (C82). -/
def wrapBuffer (fill : Nat) (l : Str) (rest : List Str) : Outcome := loop fill (textLength (l :: rest)) (textLength (l :: rest) + 2) false 0 l rest

/-- The width of `notmuch-wash-wrap-long-lines`, emacs/notmuch-wash.el:330-340. -/
def fillColumn (window : Nat) (wrapLength : Option Nat) (indent : Nat) : Int :=
  let limit : Nat := match wrapLength with
    | some n => min (n + indent) window
    | none => window
  (limit : Int) - indent - 2

/-- `notmuch-wash-wrap-long-lines`, emacs/notmuch-wash.el:322-341; `move-to-column` signals an error for a negative column. -/
def wrapLongLines (window : Nat) (wrapLength : Option Nat) (indent : Nat) (l : Str) (rest : List Str) : Outcome :=
  match fillColumn window wrapLength indent with
  | .ofNat fill => wrapBuffer fill l rest
  | .negSucc _ => .error

end Notmuch.Coolj
