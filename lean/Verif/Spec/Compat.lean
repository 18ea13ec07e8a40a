import Verif.Model.Compat

/-! # Specification: the replacements for functions of the C library (C71) -/

namespace Notmuch.Compat

/-! ## The calendar -/

/-- A day; months and days are counted from 1. -/
structure Date where
  year : Nat
  month : Nat
  day : Nat
  deriving DecidableEq

/-- Leap years of the Gregorian calendar. -/
def Date.leap (y : Nat) : Bool := y % 4 = 0 ∧ (y % 100 = 0 → y % 400 = 0)

/-- The length of a month. -/
def Date.monthLength (y m : Nat) : Nat :=
  if m = 2 then (if Date.leap y then 29 else 28) else if m = 4 ∨ m = 6 ∨ m = 9 ∨ m = 11 then 30 else 31

/-- There is such a day. -/
def Date.Valid (d : Date) : Prop := 1 ≤ d.month ∧ d.month ≤ 12 ∧ 1 ≤ d.day ∧ d.day ≤ Date.monthLength d.year d.month

/-- The next day. -/
def Date.next (d : Date) : Date :=
  if d.day < Date.monthLength d.year d.month then ⟨d.year, d.month, d.day + 1⟩
  else if d.month < 12 then ⟨d.year, d.month + 1, 1⟩
  else ⟨d.year + 1, 1, 1⟩

/-- So many days after 1970-01-01. -/
def Date.since1970 : Nat → Date
  | 0 => ⟨1970, 1, 1⟩
  | n + 1 => (Date.since1970 n).next

/-- `struct tm` for a day and a time. -/
def Date.tm (d : Date) (hour min sec : Nat) : Tm := ⟨d.year - 1900, d.month - 1, d.day, hour, min, sec⟩

/-! ## Strings -/

/-- The string at a position: up to the NUL. -/
def cstr (mem : Str) (p : Nat) : Str := (mem.drop p).takeWhile (· ≠ 0)

/-- `while ((ptr = strsep (&token, delim)) != NULL)`: where the tokens are, and the memory in the end. -/
def tokens (delim : Str) : Nat → Str → Option Nat → List Nat × Str
  | 0, mem, _ => ([], mem)
  | k + 1, mem, p =>
    match strsep mem p delim with
    | (none, mem, _) => ([], mem)
    | (some t, mem, p) => (t :: (tokens delim k mem p).1, (tokens delim k mem p).2)

/-- The pieces between the delimiters. -/
def pieces (delim : Str) : Str → List Str
  | [] => [[]]
  | c :: s =>
    if c ∈ delim then [] :: pieces delim s
    else match pieces delim s with
      | [] => [[c]]
      | t :: ts => (c :: t) :: ts

/-- The needle is at a position, whatever the case of its letters. -/
def Found (haystack needle : Str) (i : Nat) : Prop :=
  ∃ pre mid post, haystack = pre ++ mid ++ post ∧ pre.length = i ∧ mid.map toLower = needle.map toLower

/-- The lines of a file: together they are the file, none is empty, none has a newline but at its end, and all but the last have. -/
structure Lines (s : Str) (ls : List Str) : Prop where
  all : ls.flatten = s
  some_ : ∀ l ∈ ls, l ≠ []
  inner : ∀ l ∈ ls, 10 ∉ l.dropLast
  ended : ∀ l ∈ ls.dropLast, l.getLast? = some 10

end Notmuch.Compat
