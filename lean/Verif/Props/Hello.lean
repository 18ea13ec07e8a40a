import Verif.Proofs.Hello2

namespace Notmuch.Props
open Notmuch.Hello Notmuch.Query

/-- **C81** (each search with its own count): if all the texts for counting are queries, each search is shown, in order, with the number of messages that its own text (that for counting, if it has one)
finds; a search that finds none is not shown unless asked for, nor one the filter hides.  Newlines in a text count as spaces. -/
theorem C81_counts (E : Count.Env) (o : Options) (N : Search → Nat) (es : List Search)
    (h : ∀ e ∈ es, ∃ c x, filtered (e.countQuery.getD e.query) (match o.filterCount with | .none => o.filter | f => f) = some c ∧ 0 ∉ c ∧
      E.parse false (c.map (fun b => if b = 10 then 32 else b)) = some x ∧
      N e = countMessages E.db ((if o.disableExcludes then [] else E.excludes).foldl (fun q t => (addTagExclude q t).2) (mkQuery x))) :
    queryCounts E o es = some (es.filterMap (fun e => match filtered e.query o.filter with
      | none => none
      | some q => if o.showEmpty || N e > 0 then some ⟨e.name, q, N e⟩ else none)) := by
  obtain ⟨text, out, h1, h2, h3⟩ := counts_ok E o N es h
  unfold queryCounts
  rw [h1]
  dsimp only
  rw [h2]
  exact h3

/-- **C81** (a filter that is a text): what is counted and shown for a search `s` and a filter `f` is what `(s) and (f)` finds. -/
theorem C81_filter (E : Count.Env) (o : Options) (f : Str) (hf : o.filter = .text f) (hc : o.filterCount = .none) (N : Search → Nat) (es : List Search)
    (h : ∀ e ∈ es, e.countQuery = none ∧ 0 ∉ e.query ∧ 0 ∉ f ∧ ∃ x, E.parse false ((bs "(" ++ e.query ++ bs ") and (" ++ f ++ bs ")").map (fun b => if b = 10 then 32 else b)) = some x ∧
      N e = countMessages E.db ((if o.disableExcludes then [] else E.excludes).foldl (fun q t => (addTagExclude q t).2) (mkQuery x))) :
    queryCounts E o es = some ((es.filter (fun e => o.showEmpty || N e > 0)).map (fun e => ⟨e.name, bs "(" ++ e.query ++ bs ") and (" ++ f ++ bs ")", N e⟩)) := by
  have b1 : (0 : UInt8) ∉ bs "(" := by decide +kernel
  have b2 : (0 : UInt8) ∉ bs ") and (" := by decide +kernel
  have b3 : (0 : UInt8) ∉ bs ")" := by decide +kernel
  rw [C81_counts E o N es]
  · congr 1
    rw [hf]
    clear h
    induction es with
    | nil => rfl
    | cons e es ih =>
      rw [List.filterMap_cons, List.filter_cons, ih]
      dsimp only [filtered]
      by_cases hp : (o.showEmpty || decide (N e > 0)) = true
      · simp only [if_pos hp]; rw [List.map_cons]
      · simp only [if_neg hp]
  · intro e he
    obtain ⟨h1, h2, h3, x, h4, h5⟩ := h e he
    refine ⟨bs "(" ++ e.query ++ bs ") and (" ++ f ++ bs ")", x, ?_, ?_, h4, h5⟩
    · rw [hc, hf, h1]; rfl
    · simp only [List.mem_append, not_or]
      exact ⟨⟨⟨⟨b1, h2⟩, b2⟩, h3⟩, b3⟩

/-- **C81** (a filter that is a function): whatever is counted, only searches for which the function gives a text are shown, with this text. -/
theorem C81_hidden (E : Count.Env) (o : Options) (f : Str → Option Str) (hf : o.filter = .fn f) (es : List Search) (l : List Entry) (h : queryCounts E o es = some l) :
    ∀ x ∈ l, ∃ e ∈ es, x.name = e.name ∧ f e.query = some x.query := by
  have key : ∀ (es : List Search) (b : Str) (l : List Entry), collect o es b = some l → ∀ x ∈ l, ∃ e ∈ es, x.name = e.name ∧ f e.query = some x.query := by
    intro es
    induction es with
    | nil => intro b l h x hx; unfold collect at h; cases h; cases hx
    | cons e es ih =>
      intro b l h x hx
      unfold collect at h
      cases hr : readNumber b with
      | none => rw [hr] at h; cases h
      | some nr =>
        rw [hr] at h
        dsimp only at h
        cases hc : collect o es nr.2 with
        | none => rw [hc] at h; cases h
        | some l' =>
          rw [hc, hf] at h
          dsimp only [Option.map, filtered] at h
          have old : x ∈ l' → ∃ e' ∈ e :: es, x.name = e'.name ∧ f e'.query = some x.query := by
            intro hx'
            obtain ⟨e', h1, h2⟩ := ih _ _ hc x hx'
            exact ⟨e', List.mem_cons_of_mem _ h1, h2⟩
          cases hq : f e.query with
          | none =>
            rw [hq] at h
            dsimp only at h
            cases h
            exact old hx
          | some q =>
            rw [hq] at h
            dsimp only at h
            split at h
            · cases h
              rcases List.mem_cons.1 hx with rfl | hx
              · exact ⟨e, List.mem_cons_self .., rfl, hq⟩
              · exact old hx
            · cases h
              exact old hx
  unfold queryCounts at h
  cases ht : countText o es with
  | none => rw [ht] at h; cases h
  | some text =>
    rw [ht] at h
    dsimp only at h
    split at h
    · exact key _ _ _ h
    · cases h

/-- **C81** (all or nothing): if one of the texts is no query there is an error, and no count is shown, not even a wrong one. -/
theorem C81_bad_query (E : Count.Env) (o : Options) (es : List Search) (h0 : ∀ e ∈ es, ∀ c, filtered (e.countQuery.getD e.query) o.forCount = some c → 0 ∉ c)
    (e : Search) (he : e ∈ es) (h : ∀ c, filtered (e.countQuery.getD e.query) o.forCount = some c → E.parse false (oneLine c) = none) : queryCounts E o es = none := by
  unfold queryCounts
  cases ht : countText o es with
  | none => rfl
  | some text =>
    obtain ⟨out, ho⟩ := counts_bad E o es h0 e he h text ht
    dsimp only
    rw [ho]

/-- Not so: a filter that is a function may return nil to hide a search, says the manual; but with a search it hides, and no other filter for counting, there is an error and nothing is shown. -/
theorem C81_hide_counterexample (E : Count.Env) (o : Options) (f : Str → Option Str) (hf : o.filter = .fn f) (hc : o.filterCount = .none) (es : List Search) (e : Search) (he : e ∈ es)
    (hn : f (e.countQuery.getD e.query) = none) : queryCounts E o es = none := by
  have : countText o es = none := by
    induction es with
    | nil => cases he
    | cons a es ih =>
      unfold countText Options.forCount
      rw [hc, hf]
      dsimp only [filtered]
      rcases List.mem_cons.1 he with rfl | he
      · rw [hn]
      · cases f (a.countQuery.getD a.query) with
        | none => rfl
        | some q => dsimp only; rw [ih he]; rfl
  unfold queryCounts
  rw [this]

/-- **C81** (the table): with at least one column, every search is in the table just once, the rows are full, and going down the columns one has the searches in order. -/
theorem C81_table {α : Type} (l : List α) (k : Nat) (hk : 1 ≤ k) :
    ∃ m, reflect l k = some m ∧ (m.filterMap id).Perm l ∧ m.length = (l.length + k - 1) / k * k ∧
      ∀ r c, r < (l.length + k - 1) / k → c < k → m[r * k + c]? = some l[(l.length + k - 1) / k * c + r]? := by
  have hr : reflect l k = some ((List.range ((l.length + k - 1) / k)).flatMap (fun r => row k ((l.length + k - 1) / k) r l)) := by
    unfold reflect; rw [if_neg (by omega)]
  refine ⟨_, hr, reflect_perm hr, ?_, ?_⟩
  · rw [List.length_flatMap]
    generalize (l.length + k - 1) / k = n
    have : (List.range n).map (fun r => (row k n r l).length) = List.replicate n k := by
      rw [List.eq_replicate_iff]
      refine ⟨by simp, ?_⟩
      intro b hb
      obtain ⟨r, _, rfl⟩ := List.mem_map.1 hb
      simp [row]
    rw [this, List.sum_replicate_nat]
  · generalize (l.length + k - 1) / k = n
    intro r c h1 h2
    have key : ∀ (n' : Nat), r < n' → ((List.range n').flatMap (fun r => row k n r l))[r * k + c]? = some l[n * c + r]? := by
      intro n'
      induction n' with
      | zero => intro h; omega
      | succ n' ih =>
        intro h
        have hlen : ((List.range n').flatMap (fun r => row k n r l)).length = n' * k := by
          rw [List.length_flatMap]
          have : (List.range n').map (fun r => (row k n r l).length) = List.replicate n' k := by
            rw [List.eq_replicate_iff]
            refine ⟨by simp, ?_⟩
            intro b hb
            obtain ⟨r, _, rfl⟩ := List.mem_map.1 hb
            simp [row]
          rw [this, List.sum_replicate_nat]
        rw [List.range_succ, List.flatMap_append]
        by_cases hlt : r < n'
        · rw [List.getElem?_append_left]
          · exact ih hlt
          · rw [hlen]
            calc r * k + c < r * k + k := by omega
              _ = (r + 1) * k := by rw [Nat.succ_mul]
              _ ≤ n' * k := Nat.mul_le_mul_right _ hlt
        · have : r = n' := by omega
          subst this
          rw [List.getElem?_append_right (by rw [hlen]; omega), hlen]
          have : r * k + c - r * k = c := by omega
          rw [this]
          simp [row, h2]
    exact key n h1

/-- **C81** (columns fit): a column has room for the widest label, and for numbers of eight digits and two spaces unless the width is a fraction, if there is more than one column. -/
theorem C81_columns_fit (avail widest : Nat) :
    (∀ k, 1 < perLine avail widest (.number k) → perLine avail widest (.number k) * (max k widest + 8 + 2) ≤ avail) ∧
    (1 < perLine avail widest .other → perLine avail widest .other * (widest + 8 + 2) ≤ avail) ∧
    ∀ a b, 0 < b → perLine avail widest (.fraction a b) * widest ≤ avail := by
  refine ⟨?_, ?_, ?_⟩
  · intro k h
    have e : perLine avail widest (.number k) = max 1 (avail / (9 + 1 + max k widest)) := rfl
    have e2 : max 1 (avail / (9 + 1 + max k widest)) = avail / (9 + 1 + max k widest) := by omega
    rw [e, e2]
    have := Nat.div_mul_le_self avail (9 + 1 + max k widest)
    have e3 : max k widest + 8 + 2 = 9 + 1 + max k widest := by omega
    rw [e3]; exact this
  · intro h
    have e : perLine avail widest .other = max 1 (avail / (9 + 1 + widest)) := rfl
    have e2 : max 1 (avail / (9 + 1 + widest)) = avail / (9 + 1 + widest) := by omega
    rw [e, e2]
    have := Nat.div_mul_le_self avail (9 + 1 + widest)
    have e3 : widest + 8 + 2 = 9 + 1 + widest := by omega
    rw [e3]; exact this
  · intro a b hb
    show avail * b / max (avail * a) (widest * b) * widest ≤ avail
    have h1 := Nat.div_mul_le_self (avail * b) (max (avail * a) (widest * b))
    have h2 : avail * b / max (avail * a) (widest * b) * (widest * b) ≤ avail * b :=
      Nat.le_trans (Nat.mul_le_mul_left _ (Nat.le_max_right _ _)) h1
    rw [← Nat.mul_assoc] at h2
    exact Nat.le_of_mul_le_mul_right h2 hb

/-- **C81** (columns): there is at least one column, unless the width is given as a fraction; then there is if no label is wider than the window (and the fraction is at most the whole). -/
theorem C81_columns (avail widest : Nat) : (∀ k, 1 ≤ perLine avail widest (.number k)) ∧ 1 ≤ perLine avail widest .other ∧
    ∀ a b, 0 < avail → 0 < a → a ≤ b → widest ≤ avail → 1 ≤ perLine avail widest (.fraction a b) := by
  refine ⟨fun k => Nat.le_max_left _ _, Nat.le_max_left _ _, ?_⟩
  intro a b h1 h2 h3 h4
  have h5 : avail * a ≤ avail * b := Nat.mul_le_mul_left _ h3
  have h6 : widest * b ≤ avail * b := Nat.mul_le_mul_right _ h4
  have h7 : 0 < avail * a := Nat.mul_pos h1 h2
  show 1 ≤ avail * b / max (avail * a) (widest * b)
  rw [Nat.le_div_iff_mul_le (by omega)]
  omega

/-- Not so: with a fraction and a label wider than the window there is no column, and showing the searches is a division by zero. -/
theorem C81_columns_counterexample (avail widest a b : Nat) (hb : 0 < b) (hw : avail < widest) (l : List Entry) :
    perLine avail widest (.fraction a b) = 0 ∧ reflect l (perLine avail widest (.fraction a b)) = none := by
  have h : perLine avail widest (.fraction a b) = 0 := by
    apply Nat.div_eq_of_lt
    have : avail * b < widest * b := Nat.mul_lt_mul_of_pos_right hw hb
    omega
  exact ⟨h, by rw [h]; rfl⟩

/-- **C81** (numbers): a number is shown as its digits, in groups of three from the right with the separator between. -/
theorem C81_number (sep : Str) (n : Nat) : ∃ (g : Str) (gs : List Str), nice sep n = g ++ gs.flatMap (fun x => sep ++ x) ∧ dec n = g ++ gs.flatten ∧ 1 ≤ g.length ∧ g.length ≤ 3 ∧ ∀ x ∈ gs, x.length = 3 :=
  nice_spec sep n

private def env : Count.Env :=
  { haveSexp := false, parse := fun _ t => if t = bs "tag:a b" then some (.term (bs "Ka")) else if t = bs "none" then some (.term (bs "Kx")) else none, ord := fun _ l => l, filenames := fun _ => [],
    db := [⟨1, [bs "Tmail", bs "Ka"], 0, bs "m1", 1, none, none, none⟩, ⟨2, [bs "Tmail", bs "Kb"], 0, bs "m2", 1, none, none, none⟩, ⟨3, [bs "Tmail", bs "Ka"], 0, bs "m3", 1, none, none, none⟩], uuid := [], revision := 0, excludes := [], stdin := [], file := fun _ => none }

/-- Two searches, one with a newline; the table of five in two columns; some numbers. -/
theorem C81_example :
    queryCounts env ⟨true, true, .none, .none⟩ [⟨bs "x", bs "tag:a\nb", none⟩, ⟨bs "y", bs "tag:y", some (bs "none")⟩] = some [⟨bs "x", bs "tag:a\nb", 2⟩, ⟨bs "y", bs "tag:y", 0⟩] ∧
    queryCounts env ⟨false, true, .none, .none⟩ [⟨bs "y", bs "none", none⟩, ⟨bs "x", bs "tag:a\nb", none⟩] = some [⟨bs "x", bs "tag:a\nb", 2⟩] ∧
    queryCounts env ⟨true, true, .none, .none⟩ [⟨bs "x", bs "tag:a\nb", none⟩, ⟨bs "y", bs "(", none⟩] = none ∧
    reflect [1, 2, 3, 4, 5] 2 = some [some 1, some 4, some 2, some 5, some 3, none] ∧
    nice (bs ".") 0 = bs "0" ∧ nice (bs ".") 12007 = bs "12.007" ∧ nice (bs ".") 1234567 = bs "1.234.567" := by
  refine ⟨?_, ?_, ?_, ?_, ?_, ?_, ?_⟩ <;> decide +kernel

end Notmuch.Props
