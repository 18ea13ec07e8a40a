import Verif.Proofs.BlankLines

namespace Notmuch.Props
open Notmuch.BlankLines Notmuch.BlankLinesSpec Notmuch.BlankLinesProofs

private theorem dropNewline_spec (s : List Char) (sp : Char → Bool) (hd : noDouble true s) (hc : cleanAt sp true s) :
    gaps sp true (lines (dropNewline s)) = gaps sp true (lines s) ∧ (dropNewline s).head? ≠ some '\n' ∧ noDouble true (dropNewline s) ∧
      cleanAt sp true (dropNewline s) ∧ (noTrail true s → noTrail true (dropNewline s)) := by
  cases s with
  | nil => exact ⟨rfl, by simp [dropNewline], hd, hc, fun h => h⟩
  | cons c s =>
    by_cases h : c = '\n'
    · subst h
      show gaps sp true (lines s) = _ ∧ s.head? ≠ _ ∧ noDouble true s ∧ cleanAt sp true s ∧ _
      exact ⟨rfl, fun e => hd.1 ⟨rfl, rfl, e⟩, hd.2, cleanAt_tail sp hc, fun h => h.2⟩
    · have : dropNewline (c :: s) = c :: s := if_neg h
      rw [this]
      exact ⟨rfl, by simp [h], hd, hc, fun h => h⟩

private theorem elide_facts (sp : Char → Bool) (s : List Char) :
    gaps sp true (lines (elide sp s)) = gaps sp true (lines s) ∧ (elide sp s).head? ≠ some '\n' ∧ noDouble true (elide sp s) ∧
      cleanAt sp true (elide sp s) ∧ (sp '\n' = true → noTrail true (elide sp s)) := by
  unfold elide
  dsimp only
  rw [show dropNewline [] = [] from rfl, List.append_nil]
  have a := (emptyBlank_gaps sp s.length s (Nat.le_refl _)).1 true
  have b := (emptyBlank_clean sp s.length s (Nat.le_refl _)).1
  have c := fun h => (emptyBlank_noTrail sp h s.length s (Nat.le_refl _)).1.1
  generalize emptyBlank sp s.length true s = t at a b c ⊢
  have d := (collapse_lines sp t.length t (Nat.le_refl _)).1
  have e := collapse_noDouble t.length true t (Nat.le_refl _)
  have f := fun h => collapse_noTrail t.length true t (Nat.le_refl _) (c h)
  have g := dropNewline_spec (collapse t.length true t) sp e (fun l hl => b l (d.2 l hl))
  refine ⟨g.1.trans ((d.1 true).trans a), g.2.1, g.2.2.1, g.2.2.2.1, fun h => g.2.2.2.2 (f h)⟩

/-- C89: eliding blank lines changes no line that is not blank (not even its indentation), loses none and adds none, keeps their order, and keeps which of them
have a blank line before them: paragraphs stay paragraphs. -/
theorem C89_text (sp : Char → Bool) (s : List Char) : gaps sp true (lines (elide sp s)) = gaps sp true (lines s) := (elide_facts sp s).1

/-- C89: afterwards blank lines are empty, there is none at the beginning, and no two are in a row. -/
theorem C89_elided (sp : Char → Bool) (s : List Char) :
    (∀ l ∈ lines (elide sp s), l.all sp = true → l = []) ∧ (elide sp s).head? ≠ some '\n' ∧
      ∀ a b, elide sp s ≠ a ++ '\n' :: '\n' :: '\n' :: b := by
  obtain ⟨_, h2, h3, h4, _⟩ := elide_facts sp s
  exact ⟨h4, h2, noDouble_spec _ true h3⟩

/-- C89: if newline is whitespace, as in the standard syntax table, there is no blank line at the end. -/
theorem C89_end (sp : Char → Bool) (hn : sp '\n' = true) (s : List Char) : ∀ a, elide sp s ≠ a ++ ['\n', '\n'] :=
  noTrail_spec _ true ((elide_facts sp s).2.2.2.2 hn)

/-- C89: a text of whitespace becomes nothing. -/
theorem C89_blank (sp : Char → Bool) (s : List Char) (h : s.all sp = true) : elide sp s = [] := by
  have e : emptyBlank sp s.length true s = [] := by
    cases s with
    | nil => rfl
    | cons c s =>
      rw [List.length_cons]
      unfold emptyBlank
      simp only [if_true]
      rw [endOf_all sp (c :: s) (by simp) h]
      cases s <;> rfl
  unfold elide
  rw [e]
  rfl

/-- C89: doing it again changes nothing. -/
theorem C89_again (sp : Char → Bool) (s : List Char) : elide sp (elide sp s) = elide sp s := by
  obtain ⟨_, h2, h3, h4, h5⟩ := elide_facts sp s
  generalize elide sp s = t at h2 h3 h4 h5 ⊢
  unfold elide
  rw [emptyBlank_same sp t.length true t h3 h5 h4]
  dsimp only
  rw [collapse_same t.length true t h3]
  cases t with
  | nil => rfl
  | cons c t =>
    have : c ≠ '\n' := fun e => h2 (by rw [e]; rfl)
    rw [show dropNewline (c :: t) = c :: t from if_neg this]
    exact List.append_nil _

/-- C89: where newline is not whitespace a blank line at the end stays: it is looked for after the end. -/
theorem C89_end_counterexample : elide (· == ' ') "text\n \n\n".toList = "text\n\n".toList := by decide +kernel

/-- C89: a text. -/
theorem C89_example :
    elide (fun c => c == ' ' || c == '\t' || c == '\n') " \n\nDear all,\n  indented\n\n \t\n\nend \n\n\n".toList =
      "Dear all,\n  indented\n\nend \n".toList ∧
    gaps (fun c => c == ' ' || c == '\t' || c == '\n') true (lines " \n\nDear all,\n  indented\n\n \t\n\nend \n\n\n".toList) =
      [(true, "Dear all,".toList), (false, "  indented".toList), (true, "end ".toList)] := by
  exact ⟨by decide +kernel, by decide +kernel⟩

end Notmuch.Props
