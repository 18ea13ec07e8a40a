import Verif.Model.Filter
import Verif.Spec.Filter

namespace Notmuch.Filter

/-! ## Pieces -/

theorem discard_append (rows : Array Row) (skip : Nat) : ∀ (a b : Str) (st : Nat), discard rows skip st (a ++ b) =
    (discard rows skip st a).bind (fun x => (discard rows skip x.1 b).map (fun y => (y.1, x.2 ++ y.2)))
  | [], b, st => by simp [discard]
  | c :: a, b, st => by
    rw [List.cons_append, discard, discard]
    cases next rows (rows.size + 1) st c with
    | none => rfl
    | some st' =>
      simp only
      rw [discard_append rows skip a b st']
      cases discard rows skip st' a with
      | none => rfl
      | some x =>
        simp only [Option.bind_some]
        cases discard rows skip x.1 b with
        | none => rfl
        | some y =>
          simp only [Option.map_some]
          split <;> rfl

theorem discardAll_flatten (f : Array Row × Nat) : ∀ (l : List Str) (st : Nat), discardAll f st l = discard f.1 f.2 st l.flatten
  | [], st => rfl
  | s :: l, st => by
    rw [discardAll, List.flatten_cons, discard_append]
    cases discard f.1 f.2 st s with
    | none => rfl
    | some x =>
      simp only [Option.bind_some]
      rw [discardAll_flatten f l x.1]
      cases discard f.1 f.2 x.1 l.flatten <;> rfl

theorem quote_append : ∀ (a b : Str) (nl : Bool), quote nl (a ++ b) = ((quote (quote nl a).1 b).1, (quote nl a).2 ++ (quote (quote nl a).1 b).2)
  | [], b, nl => rfl
  | c :: a, b, nl => by
    rw [List.cons_append, quote, quote, quote_append a b]
    simp

theorem quoteAll_flatten : ∀ (l : List Str) (nl : Bool), quoteAll nl l = quote nl l.flatten
  | [], nl => rfl
  | s :: l, nl => by rw [quoteAll, List.flatten_cons, quote_append, quoteAll_flatten l]

theorem unquote_append : ∀ (a b : Str) (st : Unq), unquote st (a ++ b) = ((unquote (unquote st a).1 b).1, (unquote st a).2 ++ (unquote (unquote st a).1 b).2)
  | [], b, st => rfl
  | c :: a, b, st => by
    rw [List.cons_append, unquote, unquote]
    split
    · split
      · exact unquote_append a b _
      · rw [unquote_append a b]; rfl
    · split
      · split
        · exact unquote_append a b _
        · rw [unquote_append a b]; rfl
      · split
        · rw [unquote_append a b]; rfl
        · exact unquote_append a b _

theorem unquoteAll_flatten : ∀ (l : List Str) (st : Unq), unquoteAll st l = unquote st l.flatten
  | [], nl => rfl
  | s :: l, nl => by rw [unquoteAll, List.flatten_cons, unquote_append, unquoteAll_flatten l]

/-! ## Sizes -/

theorem discard_length (rows : Array Row) (skip : Nat) : ∀ (s : Str) (st : Nat) (e : Nat) (out : Str), discard rows skip st s = some (e, out) → out.length ≤ s.length
  | [], st, e, out, h => by cases h; exact Nat.le_refl _
  | c :: s, st, e, out, h => by
    rw [discard] at h
    cases hn : next rows (rows.size + 1) st c with
    | none => rw [hn] at h; cases h
    | some st' =>
      rw [hn] at h
      simp only at h
      cases hd : discard rows skip st' s with
      | none => rw [hd] at h; cases h
      | some x =>
        rw [hd] at h
        cases h
        have := discard_length rows skip s st' x.1 x.2 hd
        split
        · simpa using this
        · simp; omega

theorem quote_length : ∀ (s : Str) (nl : Bool), (quote nl s).2.length ≤ 3 * s.length
  | [], _ => Nat.le_refl _
  | c :: s, nl => by
    have := quote_length s (c = 10)
    rw [quote]
    have h1 : (if nl then [62, 32] else [] : Str).length ≤ 2 := by cases nl <;> simp
    have h2 : (if c ≠ 13 then [c] else [] : Str).length ≤ 1 := by split <;> simp
    simp only [List.length_append, List.length_cons] at *
    omega

theorem unquote_length : ∀ (s : Str) (st : Unq), (unquote st s).2.length ≤ s.length
  | [], _ => Nat.le_refl _
  | c :: s, st => by
    rw [unquote]
    split
    · split
      · have := unquote_length s ⟨false, true⟩; simp; omega
      · have := unquote_length s ⟨false, st.angle⟩; simp; omega
    · split
      · split
        · have := unquote_length s ⟨false, false⟩; simp; omega
        · have := unquote_length s ⟨false, false⟩; simp; omega
      · split
        · have := unquote_length s ⟨c = 10, false⟩; simp at this ⊢; omega
        · have := unquote_length s st; simp; omega

/-! ## Quoting -/

theorem linesOf_cons (c : UInt8) (s : Str) : linesOf (c :: s) = if c = 10 then [10] :: linesOf s else
    match linesOf s with
    | [] => [[c]]
    | l :: ls => (c :: l) :: ls := rfl

theorem quote_lines : ∀ s : Str, (quote true s).2 = (linesOf s).flatMap (fun l => bs "> " ++ l.filter (· ≠ 13)) ∧
    (quote false s).2 = match linesOf s with
      | [] => []
      | l :: ls => l.filter (· ≠ 13) ++ ls.flatMap (fun l => bs "> " ++ l.filter (· ≠ 13))
  | [] => ⟨rfl, rfl⟩
  | c :: s => by
    have ih := quote_lines s
    rw [linesOf_cons, quote, quote]
    by_cases hc : c = 10
    · subst hc
      simp only [decide_true, ih.1, if_true, Bool.false_eq_true, if_false]
      constructor <;> simp [bs]
    · simp only [hc, decide_false, ih.2, if_true, Bool.false_eq_true, if_false]
      cases hl : linesOf s with
      | nil => constructor <;> by_cases h13 : c = 13 <;> simp [h13, bs]
      | cons l ls => constructor <;> by_cases h13 : c = 13 <;> simp [h13, bs]

theorem unquote_quote : ∀ (s : Str) (nl : Bool), (unquote ⟨nl, false⟩ (quote nl s).2).2 = s.filter (· ≠ 13)
  | [], _ => by cases ‹Bool› <;> rfl
  | c :: s, nl => by
    have key : (unquote ⟨false, false⟩ ((if c ≠ 13 then [c] else []) ++ (quote (c = 10) s).2)).2 = (c :: s).filter (· ≠ 13) := by
      by_cases h13 : c = 13
      · subst h13
        have := unquote_quote s false
        simpa using this
      · have := unquote_quote s (c = 10)
        rw [if_pos h13, List.singleton_append, unquote]
        simp only [Bool.false_eq_true, if_false, if_pos h13]
        rw [this]
        simp [h13]
    rw [quote]
    cases nl
    · simpa using key
    · simp only [if_true]
      show (unquote ⟨true, false⟩ (62 :: 32 :: _)).2 = _
      rw [unquote, if_pos rfl, if_pos rfl, unquote, if_neg (by simp), if_pos rfl, if_pos rfl]
      exact key

end Notmuch.Filter
