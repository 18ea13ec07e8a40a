import Verif.Model.Hello
import Verif.Base.Dec
import Verif.Proofs.Count

namespace Notmuch.Hello
open Notmuch.Query

theorem oneLine_no (s : Str) : 10 ∉ oneLine s := by
  unfold oneLine
  intro h
  obtain ⟨c, _, hc⟩ := List.mem_map.1 h
  split at hc
  · exact absurd hc (by decide)
  · rename_i hn; exact hn hc

theorem oneLine_nul {s : Str} (h : 0 ∉ s) : 0 ∉ oneLine s := by
  unfold oneLine
  intro h'
  obtain ⟨c, h1, hc⟩ := List.mem_map.1 h'
  split at hc
  · exact absurd hc (by decide)
  · exact h (hc ▸ h1)

theorem lineText_line {t : Str} (h0 : 0 ∉ t) : Count.lineText (t ++ [10]) = some t := by
  unfold Count.lineText
  have hh : (t ++ [10]).head? ≠ some 0 := by
    intro h
    have := List.mem_of_mem_head? (Option.mem_def.2 h)
    rcases List.mem_append.1 this with h | h
    · exact h0 h
    · exact absurd (List.mem_singleton.1 h) (by decide)
  rw [if_neg hh]
  have hc : TagUtil.cstr (t ++ [10]) = t ++ [10] := by
    unfold TagUtil.cstr
    rw [List.takeWhile_append_of_pos]
    · rfl
    · intro c h
      have : c ≠ 0 := fun h' => h0 (h' ▸ h)
      simpa using this
  rw [hc]
  unfold TagUtil.chomp
  rw [if_pos (by simp)]
  simp

theorem readNumber_line (n : Nat) (rest : Str) : readNumber (dec n ++ 10 :: rest) = some (n, rest) := by
  have hd := takeWhile_dec n 10 rest (by decide)
  have hskip : (dec n ++ 10 :: rest).dropWhile (fun c => c == 10 || c == 32 || c == 9) = dec n ++ 10 :: rest := by
    cases hn : dec n with
    | nil => exact absurd hn (dec_ne_nil n)
    | cons c d =>
      have hc := dec_digits n c (by rw [hn]; simp)
      rw [List.cons_append, List.dropWhile_cons_of_neg]
      intro h
      simp only [Bool.or_eq_true, beq_iff_eq] at h
      rcases h with (h | h) | h <;> rw [h] at hc <;> exact absurd hc (by decide)
  unfold readNumber
  dsimp only
  rw [hskip, hd.1, hd.2, decVal_dec]
  have : (dec n).isEmpty = false := by cases h : dec n with | nil => exact absurd h (dec_ne_nil n) | cons _ _ => rfl
  rw [this]
  simp

/-- All searches can be counted. -/
theorem counts_ok (E : Count.Env) (o : Options) (N : Search → Nat) (es : List Search)
    (h : ∀ e ∈ es, ∃ c x, filtered (e.countQuery.getD e.query) o.forCount = some c ∧ 0 ∉ c ∧ E.parse false (oneLine c) = some x ∧
      N e = countMessages E.db ((if o.disableExcludes then [] else E.excludes).foldl (fun q t => (addTagExclude q t).2) (mkQuery x))) :
    ∃ text out, countText o es = some text ∧
      Count.countLines E false (if o.disableExcludes then [] else E.excludes) .messages false (DumpRestore.splitLines text) = some (true, out) ∧
      collect o es out = some (es.filterMap (fun e => match filtered e.query o.filter with
        | none => none
        | some q => if o.showEmpty || N e > 0 then some ⟨e.name, q, N e⟩ else none)) := by
  induction es with
  | nil => exact ⟨[], [], rfl, rfl, rfl⟩
  | cons e es ih =>
    obtain ⟨text, out, h1, h2, h3⟩ := ih (fun e he => h e (List.mem_cons_of_mem _ he))
    obtain ⟨c, x, hc, h0, hx, hN⟩ := h e List.mem_cons_self
    refine ⟨oneLine c ++ bs "\n" ++ text, dec (N e) ++ bs "\n" ++ out, ?_, ?_, ?_⟩
    · unfold countText
      rw [hc]
      dsimp only
      rw [h1]; rfl
    · have hs : DumpRestore.splitLines (oneLine c ++ bs "\n" ++ text) = (oneLine c ++ [10]) :: DumpRestore.splitLines text := by
        rw [List.append_assoc]
        exact Count.splitLines_line _ (oneLine_no c) text
      rw [hs]
      unfold Count.countLines
      rw [lineText_line (oneLine_nul h0)]
      dsimp only
      have hp : Count.printCount E false (if o.disableExcludes then [] else E.excludes) .messages false (oneLine c) = some (true, dec (N e) ++ bs "\n") := by
        unfold Count.printCount
        rw [if_neg (by simp), hx]
        dsimp only [Count.number]
        rw [← hN]
        rfl
      rw [hp]
      dsimp only
      rw [h2]
      simp
    · unfold collect
      rw [show dec (N e) ++ bs "\n" ++ out = dec (N e) ++ 10 :: out from by rw [List.append_assoc]; rfl, readNumber_line]
      dsimp only
      rw [h3]
      show some _ = some _
      congr 1
      cases hf : filtered e.query o.filter with
      | none => rw [List.filterMap_cons_none (by rw [hf])]
      | some q =>
        dsimp only
        by_cases hz : (o.showEmpty || decide (N e > 0)) = true
        · rw [if_pos hz, List.filterMap_cons_some (b := ⟨e.name, q, N e⟩) (by rw [hf]; dsimp only; rw [if_pos hz])]
        · rw [if_neg hz, List.filterMap_cons_none (by rw [hf]; dsimp only; rw [if_neg hz])]

/-- One that is no query stops all. -/
theorem counts_bad (E : Count.Env) (o : Options) (es : List Search) (h0 : ∀ e ∈ es, ∀ c, filtered (e.countQuery.getD e.query) o.forCount = some c → 0 ∉ c)
    (e : Search) (he : e ∈ es) (h : ∀ c, filtered (e.countQuery.getD e.query) o.forCount = some c → E.parse false (oneLine c) = none) :
    ∀ text, countText o es = some text → ∃ out, Count.countLines E false (if o.disableExcludes then [] else E.excludes) .messages false (DumpRestore.splitLines text) = some (false, out) := by
  induction es with
  | nil => cases he
  | cons a es ih =>
    intro text ht
    unfold countText at ht
    cases hc : filtered (a.countQuery.getD a.query) o.forCount with
    | none => rw [hc] at ht; cases ht
    | some c =>
      rw [hc] at ht
      dsimp only at ht
      cases hr : countText o es with
      | none => rw [hr] at ht; cases ht
      | some rest =>
        rw [hr] at ht
        cases ht
        have hs : DumpRestore.splitLines (oneLine c ++ bs "\n" ++ rest) = (oneLine c ++ [10]) :: DumpRestore.splitLines rest := by
          rw [List.append_assoc]
          exact Count.splitLines_line _ (oneLine_no c) rest
        rw [hs]
        unfold Count.countLines
        rw [lineText_line (oneLine_nul (h0 a List.mem_cons_self c hc))]
        dsimp only
        cases hx : E.parse false (oneLine c) with
        | none =>
          have : Count.printCount E false (if o.disableExcludes then [] else E.excludes) .messages false (oneLine c) = some (false, []) := by
            unfold Count.printCount
            rw [if_neg (by simp), hx]
          rw [this]
          exact ⟨[], rfl⟩
        | some x =>
          have hne : e ≠ a := by
            intro h'
            have := h c (by rw [h']; exact hc)
            rw [hx] at this; cases this
          have hin : e ∈ es := by
            rcases List.mem_cons.1 he with h' | h'
            · exact absurd h' hne
            · exact h'
          obtain ⟨out, ho⟩ := ih (fun e he => h0 e (List.mem_cons_of_mem _ he)) hin rest hr
          have hp : ∃ s, Count.printCount E false (if o.disableExcludes then [] else E.excludes) .messages false (oneLine c) = some (true, s) := by
            unfold Count.printCount
            rw [if_neg (by simp), hx]
            exact ⟨_, rfl⟩
          obtain ⟨s, hp⟩ := hp
          rw [hp]
          dsimp only
          rw [ho]
          exact ⟨s ++ out, rfl⟩

end Notmuch.Hello
