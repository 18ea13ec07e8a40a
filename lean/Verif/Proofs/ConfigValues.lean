import Verif.Spec.Config

namespace Notmuch.Config

open Notmuch.StringUtil (strsplitLen splitScan)

/-- The text up to the first separator. -/
def takeSeg : Bool → Str → Str
  | _, [] => []
  | esc, c :: s => if c = 59 ∧ esc = false then [] else c :: takeSeg (c == 92) s

def dropSeg : Bool → Str → Str
  | _, [] => []
  | esc, c :: s => if c = 59 ∧ esc = false then c :: s else dropSeg (c == 92) s

theorem take_drop_seg : ∀ (s : Str) (esc : Bool), takeSeg esc s ++ dropSeg esc s = s
  | [], _ => rfl
  | c :: s, esc => by
    unfold takeSeg dropSeg
    by_cases h : c = 59 ∧ esc = false
    · rw [if_pos h, if_pos h]; rfl
    · rw [if_neg h, if_neg h, List.cons_append, take_drop_seg s]

theorem dropSeg_head : ∀ (s : Str) (esc : Bool), dropSeg esc s = [] ∨ ∃ r, dropSeg esc s = 59 :: r
  | [], _ => Or.inl rfl
  | c :: s, esc => by
    unfold dropSeg
    by_cases h : c = 59 ∧ esc = false
    · rw [if_pos h, h.1]; exact Or.inr ⟨s, rfl⟩
    · rw [if_neg h]; exact dropSeg_head s _

theorem segments_eq : ∀ (s : Str) (esc : Bool),
    segments esc s = takeSeg esc s :: (if dropSeg esc s = [] then [] else segments false (dropSeg esc s).tail)
  | [], _ => rfl
  | c :: s, esc => by
    by_cases h : c = 59 ∧ esc = false
    · rw [segments, takeSeg, dropSeg, if_pos h, if_pos h, if_pos h, if_neg (by simp)]; rfl
    · rw [segments, takeSeg, dropSeg, if_neg h, if_neg h, if_neg h, segments_eq s]

/-- Where the last byte that is not white space is. -/
def lastNS : Str → Nat → Nat → Nat
  | [], _, l => l
  | c :: t, n, l => lastNS t (n + 1) (if isSpace c then l else n)

theorem splitScan_eq : ∀ (s : Str) (esc : Bool) (n l : Nat),
    splitScan 59 s esc n l = (n + (takeSeg esc s).length, lastNS (takeSeg esc s) n l)
  | [], _, n, l => rfl
  | c :: s, esc, n, l => by
    unfold splitScan takeSeg
    by_cases h : c = 59 ∧ esc = false
    · rw [if_pos h, if_neg (by simp [h.1, h.2])]; rfl
    · have h' : (esc || c != 59) = true := by
        cases esc
        · simp only [Bool.false_or, bne_iff_ne]
          intro hc
          exact h ⟨hc, rfl⟩
        · rfl
      rw [if_neg h, if_pos h', splitScan_eq s, List.length_cons]
      rw [Nat.add_assoc, Nat.add_comm 1]
      rfl

def rtrim (s : Str) : Str := (s.reverse.dropWhile isSpace).reverse

theorem rtrim_cons_space {c : UInt8} {t : Str} (hc : isSpace c = true) : rtrim (c :: t) = if rtrim t = [] then [] else c :: rtrim t := by
  unfold rtrim
  rw [List.reverse_cons, List.dropWhile_append]
  by_cases h : t.reverse.dropWhile isSpace = []
  · simp [h, hc]
  · simp [h]

theorem rtrim_cons_ns {c : UInt8} {t : Str} (hc : isSpace c = false) : rtrim (c :: t) = c :: rtrim t := by
  unfold rtrim
  rw [List.reverse_cons, List.dropWhile_append]
  by_cases h : t.reverse.dropWhile isSpace = []
  · simp [h, hc]
  · simp [h]

theorem lastNS_eq : ∀ (t : Str) (n l : Nat), lastNS t n l = if rtrim t = [] then l else n + (rtrim t).length - 1
  | [], n, l => rfl
  | c :: t, n, l => by
    unfold lastNS
    rw [lastNS_eq t]
    cases hc : isSpace c with
    | true =>
      rw [rtrim_cons_space hc]
      by_cases h : rtrim t = []
      · simp [h]
      · simp [h]
        try omega
    | false =>
      rw [rtrim_cons_ns hc]
      by_cases h : rtrim t = []
      · simp [h]
      · simp [h]
        try omega

theorem rtrim_append (t : Str) : ∃ sp : Str, t = rtrim t ++ sp ∧ ∀ c ∈ sp, isSpace c = true := by
  refine ⟨(t.reverse.takeWhile isSpace).reverse, ?_, ?_⟩
  · unfold rtrim
    rw [← List.reverse_append, List.takeWhile_append_dropWhile, List.reverse_reverse]
  · intro c hc
    rw [List.mem_reverse] at hc
    exact (List.all_eq_true.1 (List.all_takeWhile (p := isSpace) (l := t.reverse))) c hc

theorem items_sep (s : Str) : items (59 :: s) = items s := by
  unfold items
  rw [segments, if_pos ⟨rfl, rfl⟩, List.map_cons, List.filter_cons]
  rfl

theorem items_nil : items [] = [] := rfl

theorem trim_space {c : UInt8} {s : Str} (hc : isSpace c = true) : trim (c :: s) = trim s := by
  unfold trim
  rw [List.dropWhile_cons_of_pos hc]

theorem space_ne {c : UInt8} (hc : isSpace c = true) : c ≠ 59 ∧ (c == 92) = false := by
  revert c
  apply forall_byte
  decide +kernel

theorem items_space {c : UInt8} {s : Str} (hc : isSpace c = true) : items (c :: s) = items s := by
  unfold items
  rw [segments, if_neg (fun h => (space_ne hc).1 h.1), (space_ne hc).2, segments_eq s, List.map_cons, List.map_cons, trim_space hc]

theorem items_spaces : ∀ (sp s : Str), (∀ c ∈ sp, isSpace c = true) → items (sp ++ s) = items s
  | [], _, _ => rfl
  | c :: sp, s, h => by
    rw [List.cons_append, items_space (h c List.mem_cons_self), items_spaces sp s (fun d hd => h d (List.mem_cons_of_mem _ hd))]

theorem items_drop : ∀ s : Str, items (s.dropWhile (fun c => c == 59 || isSpace c)) = items s
  | [] => rfl
  | c :: s => by
    by_cases hc : (c == 59 || isSpace c) = true
    · rw [List.dropWhile_cons_of_pos (p := fun c => c == 59 || isSpace c) hc, items_drop s]
      rw [Bool.or_eq_true] at hc
      rcases hc with h | h
      · rw [beq_iff_eq] at h; rw [h, items_sep]
      · rw [items_space h]
    · rw [List.dropWhile_cons_of_neg (p := fun c => c == 59 || isSpace c) hc]

theorem valuesLoop_eq : ∀ (fuel : Nat) (s : Str), s.length < fuel → valuesLoop fuel s = items s
  | 0, _, h => absurd h (Nat.not_lt_zero _)
  | fuel + 1, s, hf => by
    unfold valuesLoop
    have hlen : (s.dropWhile (fun c => c == 59 || isSpace c)).length ≤ s.length := (List.dropWhile_sublist _).length_le
    have hhead := List.head?_dropWhile_not (fun c => c == 59 || isSpace c) s
    rw [← items_drop s]
    unfold strsplitLen
    generalize hT : s.dropWhile (fun c => c == 59 || isSpace c) = t at *
    simp only [splitScan_eq, Nat.zero_add]
    cases t with
    | nil => simp [takeSeg, items_nil]
    | cons c u =>
      simp only [List.head?_cons] at hhead
      rw [Bool.or_eq_false_iff] at hhead
      have hc : c ≠ 59 := by simpa using hhead.1
      have hts : takeSeg false (c :: u) = c :: takeSeg (c == 92) u := by
        rw [takeSeg, if_neg (fun h => hc h.1)]
      have hrt : rtrim (takeSeg false (c :: u)) = c :: rtrim (takeSeg (c == 92) u) := by rw [hts, rtrim_cons_ns hhead.2]
      rw [if_neg (by rw [hts]; simp)]
      have hl : lastNS (takeSeg false (c :: u)) 0 0 + 1 = (rtrim (takeSeg false (c :: u))).length := by
        rw [lastNS_eq, hrt]
        simp
      simp only [hl]
      obtain ⟨sp, hsp, hsps⟩ := rtrim_append (takeSeg false (c :: u))
      have htot : c :: u = rtrim (takeSeg false (c :: u)) ++ (sp ++ dropSeg false (c :: u)) := by
        rw [← List.append_assoc, ← hsp, take_drop_seg]
      have h1 : (c :: u).take (rtrim (takeSeg false (c :: u))).length = rtrim (takeSeg false (c :: u)) := by
        exact (congrArg (List.take _) htot).trans List.take_left
      have h2 : (c :: u).drop (rtrim (takeSeg false (c :: u))).length = sp ++ dropSeg false (c :: u) := by
        exact (congrArg (List.drop _) htot).trans List.drop_left
      rw [h1, h2, valuesLoop_eq fuel]
      · rw [items_spaces _ _ hsps]
        have htrim : trim (takeSeg false (c :: u)) = rtrim (takeSeg false (c :: u)) := by
          unfold trim rtrim
          rw [hts, List.dropWhile_cons_of_neg (by simp [hhead.2])]
        have hR : items (c :: u) = rtrim (takeSeg false (c :: u)) :: items (dropSeg false (c :: u)) := by
          rcases dropSeg_head (c :: u) false with h | ⟨r, h⟩
          · rw [h, items_nil]
            unfold items
            rw [segments_eq, if_pos h, List.map_cons, List.map_nil, htrim, List.filter_cons, if_pos (by rw [hrt]; simp)]
            rfl
          · rw [h, items_sep]
            unfold items
            rw [segments_eq, if_neg (by rw [h]; simp), List.map_cons, htrim, List.filter_cons, if_pos (by rw [hrt]; simp), h]
            rfl
        rw [hR]
      · have := congrArg List.length htot
        rw [List.length_append, hrt, List.length_cons] at this
        simp only [List.length_cons] at this hlen
        omega

theorem values_eq (s : Str) : values s = items s := valuesLoop_eq _ _ (Nat.lt_succ_self _)

end Notmuch.Config
