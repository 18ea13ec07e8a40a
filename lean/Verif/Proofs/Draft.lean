import Verif.Spec.Draft

namespace Notmuch.Draft
variable {fold : UInt8 → UInt8} {tags : List Str}

theorem pre_nil (t : Str) : pre fold [] t = true := by cases t <;> rfl

theorem pre_cons {p c : UInt8} {ps t : Str} : pre fold (p :: ps) (c :: t) = true ↔ fold p = fold c ∧ pre fold ps t = true := by
  simp [pre]

theorem bangs_eq (t : Str) : bangs fold tags t =
    (tags.any (fun g => pre fold g t || pre fold (bs "/" ++ g) t) || (match t with | [] => false | c :: t => c == 33 && bangs fold tags t)) := by
  cases t with
  | nil => rfl
  | cons c t => rfl

/-- `<#` at the beginning. -/
theorem open_of (hf : FoldOk fold) {t : Str} (h : pre fold (bs "<#") t = true) : ∃ u, t = 60 :: 35 :: u := by
  have h : pre fold [60, 35] t = true := h
  match t, h with
  | [], h => cases h
  | [c], h => simp [pre] at h
  | c :: d :: u, h =>
    have h1 := pre_cons.1 (show pre fold (60 :: [35]) (c :: d :: u) = true from h)
    have h2 := pre_cons.1 h1.2
    exact ⟨u, by rw [← hf 60 (by simp) c h1.1, ← hf 35 (by simp) d h2.1]⟩

theorem pre_open (u : Str) : pre fold (bs "<#") (60 :: 35 :: u) = true := by
  show pre fold [60, 35] _ = true
  simp [pre]

theorem pre_quoted (u : Str) : pre fold (bs "<#!") (60 :: 35 :: 33 :: u) = true := by
  show pre fold [60, 35, 33] _ = true
  simp [pre]

theorem quoted_of (hf : FoldOk fold) {t : Str} (h : pre fold (bs "<#!") t = true) : ∃ u, t = 60 :: 35 :: 33 :: u := by
  have h : pre fold [60, 35, 33] t = true := h
  match t, h with
  | [], h => cases h
  | [c], h => simp [pre] at h
  | [c, d], h => simp [pre] at h
  | c :: d :: e :: u, h =>
    have h1 := pre_cons.1 h
    have h2 := pre_cons.1 h1.2
    have h3 := pre_cons.1 h2.2
    exact ⟨u, by rw [← hf 60 (by simp) c h1.1, ← hf 35 (by simp) d h2.1, ← hf 33 (by simp) e h3.1]⟩

theorem isTag_of (hf : FoldOk fold) {t : Str} (h : isTag fold tags t = true) : ∃ u, t = 60 :: 35 :: u ∧ bangs fold tags u = true := by
  unfold isTag at h
  simp only [Bool.and_eq_true] at h
  obtain ⟨u, rfl⟩ := open_of hf h.1
  exact ⟨u, rfl, h.2⟩

/-- What begins without `<` is not changed there. -/
theorem pre_quote (hf : FoldOk fold) : ∀ (n : Nat) (t p : Str), t.length ≤ n → 60 ∉ p → pre fold p (quote fold tags n t) = pre fold p t := by
  intro n
  induction n with
  | zero => intro t p h1 h2; rfl
  | succ n ih =>
    intro t p h1 h2
    cases t with
    | nil => rfl
    | cons c t =>
      unfold quote
      cases p with
      | nil => rw [pre_nil, pre_nil]
      | cons x p =>
        have hx : x ≠ 60 := fun h => h2 (h ▸ List.mem_cons_self)
        have hx' : ∀ t', pre fold (x :: p) (60 :: t') = false := by
          intro t'
          apply Bool.eq_false_iff.2
          intro h
          exact hx (hf 60 (by simp) x (pre_cons.1 h).1.symm).symm
        split
        · rename_i ht
          obtain ⟨u, hu, _⟩ := isTag_of hf ht
          cases hu
          rw [show bs "<#!" ++ quote fold tags n ((35 :: u).drop 1) = 60 :: ([35, 33] ++ quote fold tags n u) from rfl, hx', hx']
        · show (fold x == fold c && pre fold p (quote fold tags n t)) = (fold x == fold c && pre fold p t)
          rw [ih t p (by simpa using h1) (fun h => h2 (List.mem_cons_of_mem _ h))]

theorem bangs_quote (hf : FoldOk fold) (ht : ∀ g ∈ tags, 60 ∉ g) : ∀ (n : Nat) (t : Str), t.length ≤ n → bangs fold tags (quote fold tags n t) = bangs fold tags t := by
  intro n
  induction n with
  | zero => intro t h; rfl
  | succ n ih =>
    intro t h
    have hany : (tags.any fun g => pre fold g (quote fold tags (n + 1) t) || pre fold (bs "/" ++ g) (quote fold tags (n + 1) t)) =
        tags.any fun g => pre fold g t || pre fold (bs "/" ++ g) t := by
      rw [Bool.eq_iff_iff, List.any_eq_true, List.any_eq_true]
      have key : ∀ g ∈ tags, (pre fold g (quote fold tags (n + 1) t) || pre fold (bs "/" ++ g) (quote fold tags (n + 1) t)) = (pre fold g t || pre fold (bs "/" ++ g) t) := by
        intro g hg
        rw [pre_quote hf _ _ _ h (ht g hg), pre_quote hf _ _ _ h]
        intro hm
        rcases List.mem_append.1 hm with hm | hm
        · revert hm; decide
        · exact ht g hg hm
      constructor
      · rintro ⟨g, h1, h2⟩; exact ⟨g, h1, by rw [← key g h1]; exact h2⟩
      · rintro ⟨g, h1, h2⟩; exact ⟨g, h1, by rw [key g h1]; exact h2⟩
    rw [bangs_eq, bangs_eq t, hany]
    congr 1
    cases t with
    | nil => rfl
    | cons c t =>
      unfold quote
      by_cases hT : isTag fold tags (c :: t) = true
      · rw [if_pos hT]
        obtain ⟨u, hu, _⟩ := isTag_of hf hT
        cases hu
        rfl
      · rw [if_neg hT]
        show (c == 33 && bangs fold tags (quote fold tags n t)) = (c == 33 && bangs fold tags t)
        rw [ih t (by simpa using h)]

/-- Unquoting undoes quoting. -/
theorem unquote_quote (hf : FoldOk fold) (ht : ∀ g ∈ tags, 60 ∉ g) : ∀ (n : Nat) (t : Str) (k : Nat), t.length ≤ n → (quote fold tags n t).length ≤ k →
    unquote fold tags k (quote fold tags n t) = t := by
  intro n
  induction n with
  | zero =>
    intro t k h _
    cases t with
    | nil => cases k <;> rfl
    | cons c t => simp at h
  | succ n ih =>
    intro t k h hk
    cases t with
    | nil => cases k <;> rfl
    | cons c t =>
      have hn : t.length ≤ n := by simpa using h
      unfold quote at hk ⊢
      split
      · rename_i hT
        rw [if_pos hT] at hk
        obtain ⟨u, hu, hb⟩ := isTag_of hf hT
        cases hu
        have hn' : u.length ≤ n := by simp at hn; omega
        have hk' : (quote fold tags n u).length + 3 ≤ k := by
          have : (bs "<#!" ++ quote fold tags n u).length = (quote fold tags n u).length + 3 := by
            rw [List.length_append]; show 3 + _ = _; omega
          rw [← this]; exact hk
        obtain ⟨k, rfl⟩ : ∃ k', k = k' + 1 := ⟨k - 1, by omega⟩
        show unquote fold tags (k + 1) (60 :: 35 :: 33 :: quote fold tags n u) = _
        unfold unquote
        rw [if_pos]
        · show 60 :: 35 :: unquote fold tags k (quote fold tags n u) = _
          rw [ih u k hn' (by omega)]
        · unfold isQuoted
          rw [pre_quoted]
          show bangs fold tags (quote fold tags n u) = true
          rw [bangs_quote hf ht n u hn', hb]
      · rename_i hT
        rw [if_neg hT] at hk
        obtain ⟨k, rfl⟩ : ∃ k', k = k' + 1 := ⟨k - 1, by simp at hk; omega⟩
        unfold unquote
        rw [if_neg]
        · rw [ih t k hn (by simpa using hk)]
        · intro hq
          apply hT
          unfold isQuoted at hq
          simp only [Bool.and_eq_true] at hq
          obtain ⟨w, hw⟩ := quoted_of hf hq.1
          rw [hw] at hq
          injection hw with hc hw
          subst hc
          have hb : bangs fold tags w = true := hq.2
          -- the text begins with `#`
          cases n with
          | zero =>
            have : t = [] := List.eq_nil_of_length_eq_zero (by omega)
            subst this
            cases hw
          | succ n =>
            cases t with
            | nil => cases hw
            | cons d t2 =>
              unfold quote at hw
              split at hw
              · cases hw
              · injection hw with hd hw
                subst hd
                have hb2 : bangs fold tags (quote fold tags n t2) = true := by
                  rw [hw, bangs_eq]
                  simp [hb]
                rw [bangs_quote hf ht n t2 (by simpa using hn)] at hb2
                unfold isTag
                rw [pre_open]
                exact hb2

/-- No tag is left. -/
theorem quote_clean (hf : FoldOk fold) (ht : ∀ g ∈ tags, 60 ∉ g) {g : Str} (hg : g ∈ tags) (hne : ∃ x g', g = x :: g' ∧ x ≠ 33) :
    ∀ (n : Nat) (t a u : Str), t.length ≤ n → quote fold tags n t = a ++ u → pre fold (bs "<#" ++ g) u = false ∧ pre fold (bs "<#/" ++ g) u = false := by
  have hopen : ∀ (x u : Str), pre fold (bs "<#" ++ x) u = true → ∃ w, u = 60 :: 35 :: w ∧ pre fold x w = true := by
    intro x u h
    have h : pre fold (60 :: 35 :: x) u = true := h
    match u, h with
    | [], h => cases h
    | [c], h => simp [pre] at h
    | c :: d :: w, h =>
      have h1 := pre_cons.1 h
      have h2 := pre_cons.1 h1.2
      exact ⟨w, by rw [← hf 60 (by simp) c h1.1, ← hf 35 (by simp) d h2.1], h2.2⟩
  have hno : ∀ c u, c ≠ 60 → ∀ x, pre fold (bs "<#" ++ x) (c :: u) = false := by
    intro c u hc x
    apply Bool.eq_false_iff.2
    intro h
    obtain ⟨w, hw, _⟩ := hopen x _ h
    cases hw
    exact hc rfl
  intro n
  induction n with
  | zero =>
    intro t a u h hq
    have : t = [] := List.eq_nil_of_length_eq_zero (by omega)
    subst this
    have := (List.append_eq_nil_iff.1 hq.symm).2
    subst this
    exact ⟨rfl, rfl⟩
  | succ n ih =>
    intro t a u h hq
    cases t with
    | nil =>
      have := (List.append_eq_nil_iff.1 hq.symm).2
      subst this
      exact ⟨rfl, rfl⟩
    | cons c t =>
      have hn : t.length ≤ n := by simpa using h
      unfold quote at hq
      split at hq
      · rename_i hT
        obtain ⟨v, hv, hb⟩ := isTag_of hf hT
        cases hv
        have hn' : v.length ≤ n := by simp at hn; omega
        have hq : 60 :: 35 :: 33 :: quote fold tags n v = a ++ u := hq
        match a, hq with
        | [], hq =>
          have hq : 60 :: 35 :: 33 :: quote fold tags n v = u := hq
          subst hq
          obtain ⟨x, g', rfl, hx⟩ := hne
          constructor
          · apply Bool.eq_false_iff.2
            intro h
            obtain ⟨w, hw, h2⟩ := hopen _ _ h
            cases hw
            exact hx (hf 33 (by simp) x (pre_cons.1 h2).1.symm).symm
          · apply Bool.eq_false_iff.2
            intro h
            obtain ⟨w, hw, h2⟩ := hopen (47 :: x :: g') _ h
            cases hw
            have := hf 47 (by simp) 33 (pre_cons.1 h2).1
            exact absurd this (by decide)
        | [a1], hq =>
          injection hq with _ hq
          have hq : 35 :: 33 :: quote fold tags n v = u := hq
          subst hq
          exact ⟨hno _ _ (by decide) _, hno _ _ (by decide) (47 :: g)⟩
        | [a1, a2], hq =>
          injection hq with _ hq
          injection hq with _ hq
          have hq : 33 :: quote fold tags n v = u := hq
          subst hq
          exact ⟨hno _ _ (by decide) _, hno _ _ (by decide) (47 :: g)⟩
        | a1 :: a2 :: a3 :: a, hq =>
          injection hq with _ hq
          injection hq with _ hq
          injection hq with _ hq
          exact ih v a u hn' hq
      · rename_i hT
        match a, hq with
        | [], hq =>
          have hq : c :: quote fold tags n t = u := hq
          subst hq
          have key : ∀ x : Str, 60 ∉ x → (∀ w, pre fold x w = true → bangs fold tags w = true) → pre fold (bs "<#" ++ x) (c :: quote fold tags n t) = false := by
            intro x hx hbw
            apply Bool.eq_false_iff.2
            intro h
            obtain ⟨w, hw, h2⟩ := hopen _ _ h
            injection hw with hc hw
            subst hc
            apply hT
            cases n with
            | zero =>
              have : t = [] := List.eq_nil_of_length_eq_zero (by omega)
              subst this
              cases hw
            | succ n =>
              cases t with
              | nil => cases hw
              | cons d t2 =>
                unfold quote at hw
                split at hw
                · cases hw
                · injection hw with hd hw
                  subst hd
                  subst hw
                  rw [pre_quote hf n t2 x (by simpa using hn) hx] at h2
                  unfold isTag
                  rw [pre_open]
                  exact hbw _ h2
          refine ⟨key g (ht g hg) ?_, key (47 :: g) ?_ ?_⟩
          · intro w hw
            rw [bangs_eq]
            simp only [Bool.or_eq_true]
            exact .inl (List.any_eq_true.2 ⟨g, hg, by rw [hw]; rfl⟩)
          · intro h
            rcases List.mem_cons.1 h with h | h
            · revert h; decide
            · exact ht g hg h
          · intro w hw
            rw [bangs_eq]
            simp only [Bool.or_eq_true]
            exact .inl (List.any_eq_true.2 ⟨g, hg, by rw [show bs "/" ++ g = 47 :: g from rfl, hw, Bool.or_true]⟩)
        | a1 :: a, hq =>
          injection hq with _ hq
          exact ih t a u hn hq

end Notmuch.Draft
