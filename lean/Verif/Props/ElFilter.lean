import Verif.Proofs.ElFilter

/-! C92: filtering search results in Emacs. -/
namespace Notmuch.Props
open Notmuch.ElFilter

/-- Filtering the results of one query by another gives the query that matches exactly the messages that both match.  Neither is empty, and a query with XOR has
also OR (see the counterexamples); "*" filters nothing but everything. -/
theorem C92_filter {M : Type} (den : String → M → Bool) (hasOr : String → Bool) (q1 q2 : List Tok) (A B : M → Bool) (h1 : q1 ≠ []) (h2 : q2 ≠ [])
    (h3 : q2 = [.star] → q1 = [.star]) (hx1 : .opXor ∈ q1 → .opOr ∈ q1) (hx2 : .opXor ∈ q2 → .opOr ∈ q2) (hA : eval den q1 = some A)
    (hB : eval den q2 = some B) : ∃ C, eval den (filter hasOr q1 q2) = some C ∧ ∀ m, C m = true ↔ A m = true ∧ B m = true :=
  ⟨_, ElFilter.Proofs.eval_filter h1 h2 h3 hx1 hx2 hA hB, fun m => by simp⟩

/-- The same when filtering goes on and on: any number of filters, whatever the first query. -/
theorem C92_again {M : Type} (den : String → M → Bool) (hasOr : String → Bool) (qs : List (List Tok))
    (hqs : ∀ q, q ∈ qs → q ≠ [] ∧ q ≠ [.star] ∧ (.opXor ∈ q → .opOr ∈ q) ∧ (eval den q).isSome = true) :
    ∀ (q0 : List Tok) (A : M → Bool), q0 ≠ [] → (.opXor ∈ q0 → .opOr ∈ q0) → eval den q0 = some A →
    ∃ C, eval den (qs.foldl (filter hasOr) q0) = some C ∧
      ∀ m, C m = true ↔ A m = true ∧ ∀ q, q ∈ qs → ∃ B, eval den q = some B ∧ B m = true := by
  induction qs with
  | nil => intro q0 A _ _ hA; exact ⟨A, hA, fun m => by simp⟩
  | cons q qs ih =>
    intro q0 A h1 hx hA
    obtain ⟨g1, g2, g3, g4⟩ := hqs q (by simp)
    obtain ⟨B, hB⟩ := Option.isSome_iff_exists.1 g4
    have hf := ElFilter.Proofs.eval_filter (hasOr := hasOr) h1 g1 (fun h => absurd h g2) hx g3 hA hB
    have hmem : ∀ (t : Tok) (p : List Tok), t ≠ .lpar → t ≠ .rpar → (t ∈ group hasOr p ↔ t ∈ p) := by
      intro t p e1 e2
      unfold group
      split <;> simp [e1, e2]
    have hnil : filter hasOr q0 q ≠ [] := by
      unfold filter
      split
      · exact ElFilter.Proofs.group_ne_nil g1
      · simp
    have hxf : .opXor ∈ filter hasOr q0 q → .opOr ∈ filter hasOr q0 q := by
      unfold filter
      split
      · rw [hmem _ _ (by decide) (by decide), hmem _ _ (by decide) (by decide)]; exact g3
      · simp only [List.mem_append, List.mem_cons, reduceCtorEq, false_or, hmem _ _ (show Tok.opXor ≠ .lpar by decide) (show Tok.opXor ≠ .rpar by decide),
          hmem _ _ (show Tok.opOr ≠ .lpar by decide) (show Tok.opOr ≠ .rpar by decide)]
        rintro (h | h)
        · exact Or.inl (hx h)
        · exact Or.inr (g3 h)
    obtain ⟨C, c1, c2⟩ := ih (fun p hp => hqs p (by simp [hp])) (filter hasOr q0 q) _ hnil hxf hf
    refine ⟨C, c1, fun m => ?_⟩
    rw [c2]
    simp only [Bool.and_eq_true, List.mem_cons]
    constructor
    · rintro ⟨⟨a, b⟩, c⟩
      refine ⟨a, ?_⟩
      rintro p (rfl | hp)
      · exact ⟨B, hB, b⟩
      · exact c p hp
    · rintro ⟨a, b⟩
      obtain ⟨B', e1, e2⟩ := b q (Or.inl rfl)
      rw [hB] at e1
      cases e1
      exact ⟨⟨a, e2⟩, fun p hp => b p (Or.inr hp)⟩

/-- Filtering by a tag: right when the query has neither OR nor XOR. -/
theorem C92_tag {M : Type} (den : String → M → Bool) (q : List Tok) (tag : String) (A : M → Bool) (h1 : q ≠ []) (h2 : q ≠ [.star])
    (ho : .opOr ∉ q) (hx : .opXor ∉ q) (hA : eval den q = some A) :
    ∃ C, eval den (filterByTag q tag) = some C ∧ ∀ m, C m = true ↔ A m = true ∧ den ("tag:" ++ tag) m = true := by
  have hg : group (fun _ => false) q = q := by
    unfold group
    rw [if_neg]
    rw [List.any_eq_true]
    rintro ⟨t, ht, hw⟩
    cases t <;> simp [wordOr] at hw
    exact ho ht
  have hB : eval den [.term ("tag:" ++ tag)] = some (den ("tag:" ++ tag)) := by
    unfold eval; rw [if_neg (by simp)]; rfl
  have hf := ElFilter.Proofs.eval_filter (hasOr := fun _ => false) (q2 := [.term ("tag:" ++ tag)]) h1 (by simp) (by simp) (fun h => absurd h hx) (by simp) hA hB
  have he : filter (fun _ => false) q [.term ("tag:" ++ tag)] = filterByTag q tag := by
    unfold filter
    rw [hg, if_neg h2]
    rfl
  rw [he] at hf
  exact ⟨_, hf, fun m => by simp⟩

/-- Messages are sets of words here. -/
def c92Den (s : String) (m : List String) : Bool := m.contains s

/-- Filtering by a tag when the query has OR: the query is not put in parentheses, and the tag is asked only of the messages that match the last part. -/
theorem C92_tag_counterexample :
    (eval c92Den (filterByTag [.term "from:a", .opOr, .term "from:b"] "inbox")).map (· ["from:a"]) = some true ∧
    filterByTag [.term "from:a", .opOr, .term "from:b"] "inbox" = [.term "from:a", .opOr, .term "from:b", .opAnd, .term "tag:inbox"] := by decide +kernel

/-- A query with XOR alone is not put in parentheses: a message that matches it but not the filter is shown. -/
theorem C92_xor_counterexample :
    (eval c92Den (filter (fun _ => false) [.term "a", .opXor, .term "b"] [.term "c"])).map (· ["a"]) = some true ∧
    (eval c92Den [.term "c"]).map (· ["a"]) = some false := by decide +kernel

/-- Filtering the results of the empty query, which matches everything, is a syntax error; so is filtering by the empty one. -/
theorem C92_empty_counterexample :
    (eval c92Den (filter (fun _ => false) [] [.term "c"])).isSome = false ∧ (eval c92Den []).map (· ["c"]) = some true ∧
    (eval c92Den (filter (fun _ => false) [.term "c"] [])).isSome = false := by decide +kernel

theorem C92_example :
    filter (fun s => s == "from:or") [.term "from:a", .opOr, .term "from:b"] [.opNot, .term "x"] =
      [.lpar, .term "from:a", .opOr, .term "from:b", .rpar, .opAnd, .opNot, .term "x"] ∧
    filter (fun s => s == "from:or") [.star] [.term "from:or", .term "x"] = [.lpar, .term "from:or", .term "x", .rpar] ∧
    (eval c92Den [.term "a", .opOr, .term "b"]).map (fun A => (A ["a", "x"], A ["c"])) = some (true, false) ∧
    (eval c92Den [.opNot, .term "x"]).map (fun A => (A ["a", "x"], A ["a"])) = some (false, true) ∧
    (eval c92Den (filter (fun _ => false) [.term "a", .opOr, .term "b"] [.opNot, .term "x"])).map (fun A => (A ["a", "x"], A ["a"], A ["b", "y"], A ["c"])) =
      some (false, true, true, false) ∧
    (eval c92Den [.term "a", .lpar, .term "b", .opXor, .term "c", .opOr, .term "d", .rpar, .opNot, .term "e"]).map
      (fun A => (A ["a", "b"], A ["a", "b", "c"], A ["a", "d", "b", "c"], A ["a", "d", "e"], A ["d"])) = some (true, false, true, false, false) ∧
    (eval c92Den [.term "a", .opOr, .term "b", .opOr, .term "c"]).map (fun A => (A ["a"], A ["b"], A ["c"], A ["d"])) = some (true, true, true, false) ∧
    (eval c92Den [.term "a", .opXor, .term "b", .opXor, .term "c"]).map (fun A => (A ["a"], A ["a", "c"], A ["a", "b", "c"])) = some (true, false, true) := by
  refine ⟨?_, ?_, ?_, ?_, ?_, ?_, ?_, ?_⟩ <;> decide +kernel

end Notmuch.Props
