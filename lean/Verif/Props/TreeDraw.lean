import Verif.Proofs.TreeDraw

namespace Notmuch.Props
open Notmuch.TreeDraw Notmuch.TreeDrawSpec Notmuch.TreeDrawProofs

/-- C84: each message of a forest has its line, a message before its replies, a thread after the other; the fields of a line are those of its message. -/
theorem C84_order {α : Type} (σ : Symbols) (subject : α → String) (forest : List (List (Tree α))) :
    (insertForest σ subject forest).map (·.1.msg) = forest.flatMap preorders ∧
    ∀ x ∈ insertForest σ subject forest, x.2.1 = treeField x.1 := by
  have hlen : ∀ p (l : List String), (subjectFields p l).length = l.length := by
    intro p l
    induction l generalizing p with
    | nil => rfl
    | cons s l ih => simp [subjectFields, ih]
  refine ⟨?_, ?_⟩
  · unfold insertForest
    rw [List.map_flatMap]
    congr 1
    funext t
    dsimp only
    rw [show (fun x : Line α × String × String => x.1.msg) = (fun x => x.msg) ∘ Prod.fst from rfl, ← List.map_map, List.map_fst_zip]
    · exact thread_order σ t _ _ _ _
    · simp [hlen]
  · intro x hx
    unfold insertForest at hx
    rw [List.mem_flatMap] at hx
    obtain ⟨t, -, hx⟩ := hx
    dsimp only at hx
    generalize subjectFields none ((insertForestThread σ t).map fun l => subject l.msg) = ss at hx
    revert hx
    generalize insertForestThread σ t = ls
    induction ls generalizing ss with
    | nil => intro hx; cases hx
    | cons l ls ih =>
      intro hx
      cases ss with
      | nil => simp at hx
      | cons s ss =>
        simp only [List.map_cons, List.zip_cons_cons, List.mem_cons] at hx
        rcases hx with rfl | hx
        · rfl
        · exact ih ss hx

/-- The drawing of a forest as text: for each line its message and the field "tree". -/
def C84_drawn {α : Type} (σ : Symbols) (subject : α → String) (forest : List (List (Tree α))) : List (α × String) :=
  (insertForest σ subject forest).map fun x => (x.1.msg, x.2.1)

private theorem drawn_eq {α : Type} (σ : Symbols) (subject : α → String) (forest : List (List (Tree α))) :
    C84_drawn σ subject forest = (forest.flatMap (insertForestThread σ)).map fun l => (l.msg, treeField l) := by
  unfold C84_drawn insertForest
  rw [List.map_flatMap, List.map_flatMap]
  congr 1
  funext t
  dsimp only
  generalize insertForestThread σ t = ls
  suffices h : ∀ p, (ls.zip ((ls.map treeField).zip (subjectFields p (ls.map fun l => subject l.msg)))).map
      (fun x => (x.1.msg, x.2.1)) = ls.map fun l => (l.msg, treeField l) from h none
  induction ls with
  | nil => intro p; rfl
  | cons l ls ih =>
    intro p
    simp only [List.map_cons, subjectFields, List.zip_cons_cons]
    rw [ih]

/-- C84: the drawing shows the whole structure: two forests drawn the same are the same, with the default symbols and any others that can be read. -/
theorem C84_readable {α : Type} (σ : Symbols) (hσ : Readable σ) (f g : List (List (Tree α))) (hf : ∀ t ∈ f, t ≠ []) (hg : ∀ t ∈ g, t ≠ [])
    (subject : α → String) (h : C84_drawn σ subject f = C84_drawn σ subject g) : f = g := by
  rw [drawn_eq, drawn_eq] at h
  apply entries_inj f g hf hg
  rw [← forest_read hσ f, ← forest_read hσ g]
  have e : ∀ ls : List (Line α), ls.map (readLine σ) =
      (ls.map fun l => (l.msg, treeField l)).map (fun x => (readLine σ ⟨x.1, false, [x.2], 0⟩)) := by
    intro ls
    rw [List.map_map]
    apply List.map_congr_left
    intro l _
    simp [readLine, treeField]
  rw [e, e]
  exact congrArg _ h

/-- C84: with the default symbols the lines of a thread hang together: a character of a line reaches down to the next line exactly if the character
below it reaches up; nothing reaches up from the first line, or down from the last. -/
theorem C84_joined {α : Type} (thread : List (Tree α)) (pre post : List (Line α)) :
    (∀ a b, insertForestThread .default thread = pre ++ a :: b :: post →
      ∀ i, at' down (treeField a).toList i = at' up (treeField b).toList i) ∧
    (∀ a, insertForestThread .default thread = a :: post → ∀ i, at' up (treeField a).toList i = false) ∧
    (∀ a, insertForestThread .default thread = pre ++ [a] → ∀ i, at' down (treeField a).toList i = false) := by
  have J : thread ≠ [] → Joined (fun _ => false) ((insertForestThread .default thread).map fun x => (treeField x).toList) (fun _ => false) := by
    intro h
    have := thread_joined thread [] true h 1 thread.length rfl (by omega) (by omega)
    have e : lines [] = fun _ => false := rfl
    rw [e] at this
    have := by simpa using this
    exact this
  have ne : ∀ {l a : _} {m : List (Line α)}, insertForestThread .default thread = l ++ a :: m → thread ≠ [] := by
    intro l a m h e
    rw [e] at h
    simp [insertForestThread, insertThread] at h
  have mid : ∀ (l : List (List Char)) (u w : Nat → Bool) (a : List Char) m, Joined u (l ++ a :: m) w → Joined (at' down a) m w := by
    intro l
    induction l with
    | nil => intro u w a m h; exact h.2
    | cons x l ih => intro u w a m h; exact ih _ _ _ _ h.2
  refine ⟨?_, ?_, ?_⟩
  · intro a b h i
    have j := J (ne h)
    rw [h, List.map_append, List.map_cons, List.map_cons] at j
    exact (congrFun (mid _ _ _ _ _ j).1 i).symm
  · intro a h i
    have j := J (ne (l := []) h)
    rw [h] at j
    exact congrFun j.1 i
  · intro a h i
    have j := J (ne h)
    rw [h, List.map_append, List.map_cons] at j
    exact congrFun (mid _ _ _ _ _ j) i

/-- C84: in the outline, the first line of a thread, and no other, is marked and a heading of level 1. -/
theorem C84_outline {α : Type} (σ : Symbols) (thread : List (Tree α)) (h : thread ≠ []) :
    (insertForestThread σ thread).map (fun x => (x.first, x.level == 1)) =
      (true, true) :: List.replicate ((preorders thread).length - 1) (false, false) := forest_level σ thread h

/-- C84: " ..." stands for the subject of the line above, in the same thread: whatever the subjects of a thread, except " ..." itself, and "nil" for the
first, they can be read from the lines. -/
theorem C84_subjects (ss : List String) (h1 : ss.head? ≠ some "nil") (h2 : " ..." ∉ ss) (x : String) : readSubjects x (subjectFields none ss) = ss := by
  have go : ∀ (ss : List String) (p : String), " ..." ∉ ss → readSubjects p (subjectFields (some p) ss) = ss := by
    intro ss
    induction ss with
    | nil => intro p _; rfl
    | cons s ss ih =>
      intro p h
      have hs : s ≠ " ..." := fun e => h (e ▸ List.mem_cons_self ..)
      have hr := ih s (fun m => h (List.mem_cons_of_mem _ m))
      by_cases e : p = s
      · subst e
        simp [subjectFields, stringEq, readSubjects, hr]
      · simp [subjectFields, stringEq, readSubjects, hr, e, hs]
  cases ss with
  | nil => rfl
  | cons s ss =>
    have hs : s ≠ " ..." := fun e => h2 (e ▸ List.mem_cons_self ..)
    have hn : ("nil" == s) = false := beq_eq_false_iff_ne.2 (fun e => h1 (by rw [← e]; rfl))
    have := go ss s (fun m => h2 (List.mem_cons_of_mem _ m))
    simp [subjectFields, stringEq, readSubjects, hs, hn, this]

/-- C84: so can those of a forest, thread by thread. -/
theorem C84_forest_subjects {α : Type} (σ : Symbols) (subject : α → String) (forest : List (List (Tree α))) (x : String)
    (h1 : ∀ t ∈ forest, ((preorders t).map subject).head? ≠ some "nil") (h2 : ∀ t ∈ forest, " ..." ∉ (preorders t).map subject) :
    ∃ shown : List (List String), (insertForest σ subject forest).map (·.2.2) = shown.flatten ∧
      shown.map (readSubjects x) = forest.map fun t => (preorders t).map subject := by
  have hlen : ∀ p (l : List String), (subjectFields p l).length = l.length := by
    intro p l
    induction l generalizing p with
    | nil => rfl
    | cons s l ih => simp [subjectFields, ih]
  refine ⟨forest.map fun t => subjectFields none ((preorders t).map subject), ?_, ?_⟩
  · unfold insertForest
    rw [List.map_flatMap, ← List.flatMap_def]
    congr 1
    funext t
    dsimp only
    have e : (insertForestThread σ t).map (fun l => subject l.msg) = (preorders t).map subject := by
      rw [← thread_order σ t 1 t.length 0 [], List.map_map]; rfl
    rw [e]
    have hl : (insertForestThread σ t).length = (subjectFields none ((preorders t).map subject)).length := by
      rw [hlen, ← e, List.length_map]
    rw [show (fun x : Line α × String × String => x.2.2) = Prod.snd ∘ Prod.snd from rfl, ← List.map_map, List.map_snd_zip, List.map_snd_zip]
    · simp [hl]
    · simp [hl]
  · rw [List.map_map]
    apply List.map_congr_left
    intro t ht
    exact C84_subjects _ (h1 t ht) (h2 t ht) x

/-- C84, why "nil" is left out: a thread with this subject is shown as if it repeated the subject above. -/
theorem C84_nil_counterexample : subjectFields none ["nil"] = [" ..."] := by decide +kernel

/-- C84, why symbols must be readable: with a bar of no width, which the user may set, a reply to a reply looks like a reply. -/
theorem C84_width_counterexample : ∃ (σ : Symbols) (f g : List (List (Tree Nat))), (∀ t ∈ f, t ≠ []) ∧ (∀ t ∈ g, t ≠ []) ∧ f ≠ g ∧
    C84_drawn σ (fun _ => "") f = C84_drawn σ (fun _ => "") g := by
  refine ⟨⟨"", "", "", "", "", "", ">"⟩, [[.node 1 [], .node 2 []]], [[.node 1 []], [.node 2 []]], by simp, by simp, by simp, by decide +kernel⟩

/-- The hypotheses are met: the default symbols, and a thread. -/
theorem C84_example : Readable .default ∧
    C84_drawn .default (fun _ => "") [[.node 1 [.node 2 [.node 3 []], .node 4 []], .node 5 []], [.node 6 []]] =
      [(1, "┬┬►"), (2, "│├┬►"), (3, "││╰─►"), (4, "│╰─►"), (5, "╰─►"), (6, " ─►")] ∧
    (insertForest .default (fun n : Nat => if n = 3 then "b" else "a") [[.node 1 [.node 2 [.node 3 []]]], [.node 4 []]]).map (·.2.2) =
      ["a", " ...", "b", "a"] := by
  refine ⟨?_, ?_, ?_⟩
  · unfold Readable; decide +kernel
  · decide +kernel
  · decide +kernel

end Notmuch.Props
