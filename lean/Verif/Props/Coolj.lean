import Verif.Proofs.Coolj2

namespace Notmuch.Props
open Notmuch.Coolj Notmuch.CooljSpec

/-- **C82** (wrapping): if no line has more marks `>` than half the width, wrapping comes to an end, without an error.  Up to some line each line is wrapped: its parts are the line with a space gone at
each break and the citation leader put in front of the next part, a word follows each break, and each part fits (but for spaces at its end) or has no other place to break it.  The lines after it are
as they were. -/
theorem C82_wrap (width : Nat) (l : Str) (rest : List Str) (h : ∀ x ∈ l :: rest, 2 * x.count 62 ≤ width) :
    ∃ n out, wrapBuffer width l rest = .lines (out ++ rest.drop n) ∧ WrappedAll width (l :: rest.take n) out :=
  loop_ok width _ _ false 0 l rest h (by have := todo_le l rest; omega)

/-- **C82** (all lines): in a text without `>` every line is wrapped. -/
theorem C82_all (width : Nat) (l : Str) (rest : List Str) (h : ∀ x ∈ l :: rest, 62 ∉ x) : ∃ out, wrapBuffer width l rest = .lines out ∧ WrappedAll width (l :: rest) out :=
  loop_all width _ _ 0 l rest (fun x hx => List.count_eq_zero.2 (h x hx)) (by have := todo_le l rest; omega) (by omega)

/-- **C82** (kept): whatever the text, if wrapping ends without an error then nothing else is changed: spaces are replaced by newlines and leaders. -/
theorem C82_kept (width : Nat) (l : Str) (rest ls : List Str) (h : wrapBuffer width l rest = .lines ls) : ∃ n out, ls = out ++ rest.drop n ∧ BrokenAll (l :: rest.take n) out :=
  loop_kept width _ _ false 0 l rest ls h

private theorem prefixOf_marks (n : Nat) (c : UInt8) (t : Str) (h1 : c ≠ 32) (h2 : c ≠ 62) : prefixOf (List.replicate (n + 1) 62 ++ 32 :: c :: t) = List.replicate (n + 1) 62 ++ [32] := by
  have key : ∀ n b, quote b (List.replicate (n + 1) 62 ++ 32 :: c :: t) = List.replicate (n + 1) 62 ++ [32] := by
    intro n
    induction n with
    | zero => intro b; simp [quote, h1, h2]
    | succ n ih =>
      intro b
      rw [List.replicate_succ, List.cons_append]
      have : quote b (62 :: (List.replicate (n + 1) 62 ++ 32 :: c :: t)) = 62 :: quote true (List.replicate (n + 1) 62 ++ 32 :: c :: t) := by simp [quote]
      rw [this, ih true, List.cons_append]
  exact key n false

/-- Not so: a line of just as many marks as the width, a space and a word is wrapped forever, each time to itself, and the text grows without end: displaying such a message hangs Emacs. -/
theorem C82_hang_counterexample (n : Nat) (c : UInt8) (t : Str) (h1 : c ≠ 32) (h2 : c ≠ 62) :
    wrapLine (n + 1) (List.replicate (n + 1) 62 ++ 32 :: c :: t) = .ok (some (List.replicate (n + 1) 62, List.replicate (n + 1) 62 ++ 32 :: c :: t)) ∧
    ∀ (stop fuel s : Nat) (second : Bool) (rest : List Str), loop (n + 1) stop fuel second s (List.replicate (n + 1) 62 ++ 32 :: c :: t) rest = .noEnd := by
  have hp := prefixOf_marks n c t h1 h2
  have hd0 : (List.replicate (n + 1) 62 ++ 32 :: c :: t).drop (n + 1) = 32 :: c :: t := by simp
  have hd1 : (List.replicate (n + 1) 62 ++ 32 :: c :: t).drop (n + 2) = c :: t := by
    have : (List.replicate (n + 1) (62 : UInt8) ++ 32 :: c :: t) = (List.replicate (n + 1) 62 ++ [32]) ++ c :: t := by simp
    rw [this, List.drop_left' (by simp)]
  have hg0 : (List.replicate (n + 1) (62 : UInt8) ++ 32 :: c :: t)[n + 2]? = some c := by
    rw [← List.head?_drop, hd1]; rfl
  have hw : wrapLine (n + 1) (List.replicate (n + 1) 62 ++ 32 :: c :: t) = .ok (some (List.replicate (n + 1) 62, List.replicate (n + 1) 62 ++ 32 :: c :: t)) := by
    have hf : findNonSpace (List.replicate (n + 1) 62 ++ 32 :: c :: t) (n + 1) = some (n + 2) := by
      unfold findNonSpace
      rw [hd0]
      simp [List.findIdx?_cons, h1]
      omega
    have hf2 : findNonSpace (List.replicate (n + 1) 62 ++ 32 :: c :: t) (n + 1 + 0 + 1) = some (n + 2) := by
      unfold findNonSpace
      rw [show n + 1 + 0 + 1 = n + 2 by omega, hd1]
      simp [List.findIdx?_cons, h1]
    have hb : breakBackward (List.replicate (n + 1) 62 ++ 32 :: c :: t) (n + 2) (n + 2 + 1) = .ok none := by
      unfold breakBackward
      rw [if_neg (by omega)]
      have : searchBackward (List.replicate (n + 1) 62 ++ 32 :: c :: t) (n + 2) (n + 2 + 1) = none := by
        unfold searchBackward
        rw [if_neg (by omega), hg0, if_neg (by intro e; exact h1 (Option.some.inj e))]
        unfold searchBackward
        rw [if_pos (by omega)]
      rw [this]
    have hfw : breakForward (List.replicate (n + 1) 62 ++ 32 :: c :: t) (n + 1) = some (n + 2) := by
      unfold breakForward
      rw [hd0]
      have : (32 :: c :: t).findIdx? (fun x => x == 32) = some 0 := by simp [List.findIdx?_cons]
      rw [this]
      exact hf2
    have hbp : breakpoint (n + 1) (List.replicate (n + 1) 62 ++ 32 :: c :: t) = .ok (some (n + 2)) := by
      unfold breakpoint
      rw [hf]
      dsimp only
      rw [if_pos (by omega), hp]
      have : (List.replicate (n + 1) (62 : UInt8) ++ [32]).length = n + 2 := by simp
      rw [this, hb]
      dsimp only
      rw [hfw]
    unfold wrapLine
    rw [hbp]
    dsimp only
    rw [hd1, hp]
    have e1 : (List.replicate (n + 1) (62 : UInt8) ++ 32 :: c :: t).take (n + 2 - 1) = List.replicate (n + 1) 62 := by
      rw [show n + 2 - 1 = n + 1 by omega, List.take_left' (by simp)]
    rw [e1]
    simp
  refine ⟨hw, ?_⟩
  intro stop fuel
  induction fuel with
  | zero => intros; rfl
  | succ fuel ih =>
    intro s second rest
    unfold loop
    rw [hw]
    dsimp only
    rw [ih]
    rfl

/-- Not so: with more marks than that there is an error, and nothing more is wrapped. -/
theorem C82_error_counterexample (width : Nat) (t : Str) (rest : List Str) : wrapBuffer width (List.replicate (width + 2) 62 ++ t) rest = .error := by
  have hj : findNonSpace (List.replicate (width + 2) 62 ++ t) width = some width := by
    unfold findNonSpace
    have : (List.replicate (width + 2) (62 : UInt8) ++ t).drop width = 62 :: 62 :: t := by
      have : List.replicate (width + 2) (62 : UInt8) = List.replicate width 62 ++ [62, 62] := by
        rw [show [(62 : UInt8), 62] = List.replicate 2 62 from rfl, List.replicate_append_replicate]
      rw [this, List.append_assoc, List.drop_left' (by simp)]
      rfl
    rw [this]
    simp [List.findIdx?_cons]
  have hl : ∀ n, Leader (List.replicate n 62) := by
    intro n
    induction n with
    | zero => exact .nil
    | succ n ih => exact .mark ih
  have hp : width + 2 ≤ (prefixOf (List.replicate (width + 2) 62 ++ t)).length := by
    have := (prefixOf_spec (List.replicate (width + 2) 62 ++ t)).2.2 _ (hl (width + 2)) (List.prefix_append _ _)
    simpa using this
  have hw : wrapLine width (List.replicate (width + 2) 62 ++ t) = .error := by
    have : breakpoint width (List.replicate (width + 2) 62 ++ t) = .error := by
      unfold breakpoint
      rw [hj]
      dsimp only
      rw [if_pos (by omega)]
      have : ∀ e, width + 2 ≤ e → breakBackward (List.replicate (width + 2) 62 ++ t) e (width + 1) = .error := by
        intro e he
        unfold breakBackward
        rw [if_pos (by omega)]
      rw [this _ hp]
    unfold wrapLine
    rw [this]
  unfold wrapBuffer loop
  rw [hw]

/-- Not so: in a deep thread (or a narrow window), where the indentation leaves less than two columns, there is an error for every text. -/
theorem C82_depth_counterexample (window indent : Nat) (h : window < indent + 2) (l : Str) (rest : List Str) : wrapLongLines window none indent l rest = .error := by
  have : fillColumn window none indent = .negSucc (indent + 2 - window - 1) := by
    unfold fillColumn
    dsimp only
    omega
  unfold wrapLongLines
  rw [this]

/-- **C82** (the width): it is what the window has after the indentation, less two, or less if so configured. -/
theorem C82_width (window indent : Nat) (h : indent + 2 ≤ window) (l : Str) (rest : List Str) :
    wrapLongLines window none indent l rest = wrapBuffer (window - indent - 2) l rest ∧
    ∀ n, 2 ≤ n → wrapLongLines window (some n) indent l rest = wrapBuffer (min n (window - indent) - 2) l rest := by
  constructor
  · have : fillColumn window none indent = .ofNat (window - indent - 2) := by
      show fillColumn window none indent = ((window - indent - 2 : Nat) : Int)
      unfold fillColumn
      dsimp only
      omega
    unfold wrapLongLines
    rw [this]
  · intro n hn
    have : fillColumn window (some n) indent = .ofNat (min n (window - indent) - 2) := by
      show fillColumn window (some n) indent = ((min n (window - indent) - 2 : Nat) : Int)
      unfold fillColumn
      dsimp only
      rcases Nat.le_total n (window - indent) with h1 | h1
      · rw [Nat.min_eq_left h1, Nat.min_eq_left (by omega)]; omega
      · rw [Nat.min_eq_right h1, Nat.min_eq_right (by omega)]; omega
    unfold wrapLongLines
    rw [this]

/-- Not so: what wrapping adds is not counted for the end of the region, so after a short line near the end a long line may be left as it was. -/
theorem C82_stop_counterexample :
    wrapBuffer 8 (bs "> aaaa bbbb cccc dddd eeee ffff gggg hhhh") [bs "x", bs "y", bs "aaaa bbbb"] = .lines [bs "> aaaa", bs "> bbbb", bs "> cccc", bs "> dddd", bs "> eeee", bs "> ffff", bs "> gggg", bs "> hhhh", bs "x", bs "y", bs "aaaa bbbb"] ∧
    wrapBuffer 8 (bs "aaaa bbbb") [] = .lines [bs "aaaa", bs "bbbb"] := by
  constructor <;> decide +kernel

/-- Some texts. -/
theorem C82_example :
    wrapBuffer 10 (bs "> > one two three") [bs "four five six"] = .lines [bs "> > one", bs "> > two", bs "> > three", bs "four five", bs "six"] ∧
    wrapBuffer 10 (bs "averyverylongword and more") [] = .lines [bs "averyverylongword", bs "and more"] ∧
    wrapBuffer 10 (bs "   averyverylongword") [] = .lines [bs "   averyverylongword"] ∧
    wrapBuffer 6 (bs "say >x now") [] = .lines [bs "say >x", bs "now"] ∧
    wrapBuffer 4 (bs "say >x now") [] = .lines [bs "say", bs ">x", bs ">now"] := by
  refine ⟨?_, ?_, ?_, ?_, ?_⟩ <;> decide +kernel

end Notmuch.Props
