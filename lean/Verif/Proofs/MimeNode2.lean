import Verif.Proofs.MimeNode

namespace Notmuch.MimeNode

/-- The ancestors of a node were all left at the child on the way to it. -/
inductive Chain (h : List Obj) : Nat → Prop
  | root {i x} : h[i]? = some x → x.partNum ≠ none → x.parent = none → x.at_ = [] → Chain h i
  | step {i x j y c} : h[i]? = some x → x.partNum ≠ none → x.parent = some j → j < i → h[j]? = some y → x.at_ = y.at_ ++ [c] → y.nextChild = c + 1 → Chain h j → Chain h i

/-- What does not change. -/
def Agree (a b : Obj) : Prop := b.part = a.part ∧ b.at_ = a.at_ ∧ b.parent = a.parent ∧ b.partNum = a.partNum

theorem chain_keep {h h' : List Obj} {i : Nat} (hc : Chain h i)
    (ha : ∀ j x, h[j]? = some x → ∃ y, h'[j]? = some y ∧ Agree x y ∧ (j < i → y.nextChild = x.nextChild)) : Chain h' i := by
  induction hc with
  | root hx hpn hp hat =>
    obtain ⟨y, hy, hA, _⟩ := ha _ _ hx
    exact .root hy (by rw [hA.2.2.2]; exact hpn) (hA.2.2.1.trans hp) (hA.2.1.trans hat)
  | step hx hpn hp hji hy hat hn _ ih =>
    rename_i i x j y c hcj
    obtain ⟨x', hx', hA, _⟩ := ha _ _ hx
    obtain ⟨y', hy', hA', hN⟩ := ha _ _ hy
    refine .step hx' (by rw [hA.2.2.2]; exact hpn) (hA.2.2.1.trans hp) hji hy' ?_ ((hN hji).trans hn) (ih ?_)
    · rw [hA.2.1, hA'.2.1]; exact hat
    · intro k z hz
      obtain ⟨z', h1, h2, h3⟩ := ha k z hz
      exact ⟨z', h1, h2, fun hk => h3 (by omega)⟩

theorem climb_spec (t0 : Tree) {h : List Obj} (hsub : ∀ (i : Nat) x, h[i]? = some x → sub t0 x.at_ = some x.part) (m : Nat) :
    ∀ (fuel i : Nat) (x : Obj) (c : Nat) (u : Tree), i < fuel → Chain h i → h[i]? = some x → x.nextChild = c + 1 → x.part.children[c]? = some u →
      m + 1 = index t0 (x.at_ ++ [c]) + size u →
      (∃ a y, climb h fuel (some i) = some a ∧ h[a]? = some y ∧ Chain h a ∧ a ≤ i ∧ y.nextChild < y.part.children.length ∧ index t0 (y.at_ ++ [y.nextChild]) = m + 1) ∨
      (climb h fuel (some i) = none ∧ m + 1 = size t0)
  | 0, _, _, _, _, hf, _, _, _, _, _ => by omega
  | fuel + 1, i, x, c, u, hf, hch, hx, hn, hu, hm => by
    have hs := hsub i x hx
    have hcl : c < x.part.children.length := by
      rw [List.getElem?_eq_some_iff] at hu
      exact hu.1
    rw [climb, hx]
    simp only
    by_cases hlast : x.nextChild = x.part.children.length
    · rw [if_pos hlast]
      have hend := index_last hs hu (by omega)
      cases hch with
      | root hx' _ hp hat =>
        rw [hx] at hx'
        cases hx'
        rw [hp]
        refine .inr ⟨by cases fuel <;> rfl, ?_⟩
        rw [hat] at hs hend
        cases hs
        rw [hm, hat, hend]
        show 0 + _ = _
        omega
      | step hx' hpn hp hji hy hat hny hcj =>
        rename_i x' j y d
        rw [hx] at hx'
        cases hx'
        rw [hp]
        have hsy := hsub j y hy
        have hxd : y.part.children[d]? = some x.part := by rw [← sub_snoc hsy, ← hat]; exact hs
        rcases climb_spec t0 hsub m fuel j y d x.part (by omega) hcj hy hny hxd (by rw [← hat]; omega) with ⟨a, z, h1, h2, h3, h4, h5⟩ | h1
        · exact .inl ⟨a, z, h1, h2, h3, by omega, h5⟩
        · exact .inr h1
    · rw [if_neg hlast]
      refine .inl ⟨i, x, rfl, hx, hch, Nat.le_refl _, by omega, ?_⟩
      rw [hn, index_next hs hu (by omega), hm]

/-- `m` is the last number that was given. -/
structure Inv (t0 : Tree) (h : List Obj) (m : Nat) : Prop where
  last : m < size t0
  located : ∀ (i : Nat) x, h[i]? = some x → sub t0 x.at_ = some x.part
  root : ∃ x, h[0]? = some x ∧ x.at_ = [] ∧ x.partNum = some 0
  num : ∀ (i : Nat) x n, h[i]? = some x → x.partNum = some n → n = index t0 x.at_ ∧ n ≤ m
  unique : ∀ (i j : Nat) x y n, h[i]? = some x → h[j]? = some y → x.partNum = some n → y.partNum = some n → i = j
  only : ∀ (i : Nat) x n, h[i]? = some x → x.nextPartNum = some n → x.part.children = [] ∨
    (n = m + 1 ∧ x.nextChild < x.part.children.length ∧ index t0 (x.at_ ++ [x.nextChild]) = m + 1 ∧ Chain h i)
  token : m + 1 < size t0 → ∃ (i : Nat) (x : Obj), h[i]? = some x ∧ x.nextPartNum = some (m + 1) ∧ x.part.children ≠ []

theorem inv_open (t : Tree) : Inv t (openRoot t) 0 := by
  have h0 : ∀ (i : Nat) x, (openRoot t)[i]? = some x → i = 0 ∧ x = ⟨t, [], none, some 0, 0, some 1⟩ := by
    intro i x h
    cases i with
    | zero => cases h; exact ⟨rfl, rfl⟩
    | succ i => cases h
  constructor
  · exact size_pos t
  · intro i x h; obtain ⟨_, rfl⟩ := h0 i x h; rfl
  · exact ⟨_, rfl, rfl, rfl⟩
  · intro i x n h hn; obtain ⟨_, rfl⟩ := h0 i x h; cases hn; exact ⟨rfl, Nat.le_refl _⟩
  · intro i j x y n h h' _ _; rw [(h0 i x h).1, (h0 j y h').1]
  · intro i x n h hn
    obtain ⟨rfl, rfl⟩ := h0 i x h
    cases hn
    by_cases hc : t.children = []
    · exact .inl hc
    · exact .inr ⟨rfl, List.length_pos_iff.mpr hc, index_first (p := []) rfl hc, .root rfl (by simp) rfl rfl⟩
  · intro h1
    refine ⟨0, _, rfl, rfl, ?_⟩
    intro hc
    rw [size_eq] at h1
    have hc' : t.children = [] := hc
    rw [hc'] at h1
    simp [partsAll] at h1

/-- A node without number is added. -/
theorem inv_plain {t0 : Tree} {h : List Obj} {m : Nat} (hI : Inv t0 h m) {i c : Nat} {x : Obj} {t : Tree} (hx : h[i]? = some x)
    (ht : x.part.children[c]? = some t) : Inv t0 (h ++ [⟨t, x.at_ ++ [c], some i, none, 0, none⟩]) m := by
  have hold : ∀ (j : Nat) y, h[j]? = some y → (h ++ [⟨t, x.at_ ++ [c], some i, none, 0, none⟩])[j]? = some y := by
    intro j y hy
    rw [List.getElem?_append_left (List.getElem?_eq_some_iff.mp hy).1]; exact hy
  have hnew : ∀ (j : Nat) y, (h ++ [⟨t, x.at_ ++ [c], some i, none, 0, none⟩])[j]? = some y → h[j]? = some y ∨ (j = h.length ∧ y = ⟨t, x.at_ ++ [c], some i, none, 0, none⟩) := by
    intro j y hy
    rcases Nat.lt_or_ge j h.length with hj | hj
    · rw [List.getElem?_append_left hj] at hy; exact .inl hy
    · rw [List.getElem?_append_right hj] at hy
      rcases Nat.eq_or_lt_of_le hj with e | hlt
      · rw [← e, Nat.sub_self] at hy; cases hy; exact .inr ⟨e.symm, rfl⟩
      · have : j - h.length = (j - h.length - 1) + 1 := by omega
        rw [this] at hy; cases hy
  have hchain : ∀ j, Chain h j → Chain (h ++ [⟨t, x.at_ ++ [c], some i, none, 0, none⟩]) j := fun j hc =>
    chain_keep hc (fun k y hy => ⟨y, hold k y hy, ⟨rfl, rfl, rfl, rfl⟩, fun _ => rfl⟩)
  generalize h ++ [⟨t, x.at_ ++ [c], some i, none, 0, none⟩] = h' at hold hnew hchain
  constructor
  · exact hI.last
  · intro j y hy
    rcases hnew j y hy with hy | ⟨_, rfl⟩
    · exact hI.located j y hy
    · exact (sub_snoc (hI.located i x hx)).trans ht
  · obtain ⟨y, h1, h2⟩ := hI.root
    exact ⟨y, hold _ _ h1, h2⟩
  · intro j y n hy hn
    rcases hnew j y hy with hy | ⟨_, rfl⟩
    · exact hI.num j y n hy hn
    · cases hn
  · intro j k y z n hy hz hny hnz
    rcases hnew j y hy with hy | ⟨_, rfl⟩
    · rcases hnew k z hz with hz | ⟨_, rfl⟩
      · exact hI.unique j k y z n hy hz hny hnz
      · cases hnz
    · cases hny
  · intro j y n hy hn
    rcases hnew j y hy with hy | ⟨_, rfl⟩
    · rcases hI.only j y n hy hn with h' | ⟨a, b, c, e⟩
      · exact .inl h'
      · exact .inr ⟨a, b, c, hchain j e⟩
    · cases hn
  · intro hm
    obtain ⟨j, y, hy, h1, h2⟩ := hI.token hm
    exact ⟨j, y, hold j y hy, h1, h2⟩

theorem chain_self {h : List Obj} {i : Nat} (hc : Chain h i) : ∃ x, h[i]? = some x ∧ x.partNum ≠ none := by
  cases hc with
  | root hx hn _ _ => exact ⟨_, hx, hn⟩
  | step hx hn _ _ _ _ _ _ => exact ⟨_, hx, hn⟩

/-- One node only is to give a number. -/
theorem token_unique {t0 : Tree} {h : List Obj} {m : Nat} (hI : Inv t0 h m) {i j : Nat} {x y : Obj} {n k : Nat} (hx : h[i]? = some x) (hy : h[j]? = some y)
    (hn : x.nextPartNum = some n) (hk : y.nextPartNum = some k) (hcx : x.part.children ≠ []) (hcy : y.part.children ≠ []) : i = j := by
  rcases hI.only i x n hx hn with e | ⟨_, hlx, hix, hchx⟩
  · exact absurd e hcx
  rcases hI.only j y k hy hk with e | ⟨_, hly, hiy, hchy⟩
  · exact absurd e hcy
  have hsx := sub_snoc (c := x.nextChild) (hI.located i x hx)
  have hsy := sub_snoc (c := y.nextChild) (hI.located j y hy)
  rw [List.getElem?_eq_getElem hlx] at hsx
  rw [List.getElem?_eq_getElem hly] at hsy
  have hat := (List.append_inj' (index_inj _ _ _ _ _ hsx hsy (hix.trans hiy.symm)) rfl).1
  obtain ⟨x', hx', hnx⟩ := chain_self hchx
  obtain ⟨y', hy', hny⟩ := chain_self hchy
  rw [hx] at hx'; cases hx'
  rw [hy] at hy'; cases hy'
  cases hpx : x.partNum with
  | none => exact absurd hpx hnx
  | some a =>
    cases hpy : y.partNum with
    | none => exact absurd hpy hny
    | some b =>
      have h1 := (hI.num i x a hx hpx).1
      have h2 := (hI.num j y b hy hpy).1
      rw [← hat, ← h1] at h2
      subst h2
      exact hI.unique i j x y b hx hy hpx hpy

/-- The step of a node that gives a number. -/
structure Given (t0 : Tree) (h h' : List Obj) (m i c : Nat) (x : Obj) (t : Tree) : Prop where
  old : ∀ (j : Nat) y, h[j]? = some y → ∃ z, h'[j]? = some z ∧ Agree y z ∧ (j ≠ i → z.nextChild = y.nextChild) ∧ (j = i → z.nextChild = c + 1)
  new : ∀ (j : Nat) z, h'[j]? = some z → (∃ y, h[j]? = some y ∧ Agree y z) ∨
    (j = h.length ∧ z.part = t ∧ z.at_ = x.at_ ++ [c] ∧ z.parent = some i ∧ z.partNum = some (m + 1) ∧ z.nextChild = 0)
  made : ∃ z, h'[h.length]? = some z ∧ z.part = t ∧ z.at_ = x.at_ ++ [c] ∧ z.parent = some i ∧ z.partNum = some (m + 1) ∧ z.nextChild = 0
  only : ∀ (j : Nat) z n, h'[j]? = some z → z.nextPartNum = some n → z.part.children = [] ∨
    (n = m + 1 + 1 ∧ z.nextChild < z.part.children.length ∧ index t0 (z.at_ ++ [z.nextChild]) = m + 1 + 1 ∧ Chain h' j)
  token : m + 1 + 1 < size t0 → ∃ (j : Nat) (z : Obj), h'[j]? = some z ∧ z.nextPartNum = some (m + 1 + 1) ∧ z.part.children ≠ []

theorem inv_given {t0 : Tree} {h h' : List Obj} {m i c : Nat} {x : Obj} {t : Tree} (hI : Inv t0 h m) (hx : h[i]? = some x)
    (ht : x.part.children[c]? = some t) (hidx : index t0 (x.at_ ++ [c]) = m + 1) (hG : Given t0 h h' m i c x t) : Inv t0 h' (m + 1) := by
  have hst : sub t0 (x.at_ ++ [c]) = some t := (sub_snoc (hI.located i x hx)).trans ht
  constructor
  · rw [← hidx]; exact index_lt hst
  · intro j z hz
    rcases hG.new j z hz with ⟨y, hy, hA⟩ | ⟨_, hp, hat, _⟩
    · rw [hA.1, hA.2.1]; exact hI.located j y hy
    · rw [hp, hat]; exact hst
  · obtain ⟨y, h1, h2, h3⟩ := hI.root
    obtain ⟨z, h4, hA, _⟩ := hG.old 0 y h1
    exact ⟨z, h4, hA.2.1.trans h2, hA.2.2.2.trans h3⟩
  · intro j z n hz hn
    rcases hG.new j z hz with ⟨y, hy, hA⟩ | ⟨_, hp, hat, _, hnum, _⟩
    · rw [hA.2.2.2] at hn
      obtain ⟨a, b⟩ := hI.num j y n hy hn
      exact ⟨by rw [hA.2.1]; exact a, by omega⟩
    · rw [hnum] at hn
      cases hn
      exact ⟨by rw [hat, hidx], Nat.le_refl _⟩
  · intro j k y z n hy hz hny hnz
    rcases hG.new j y hy with ⟨y', hy', hA⟩ | ⟨hj, _, _, _, hnum, _⟩
    · rw [hA.2.2.2] at hny
      rcases hG.new k z hz with ⟨z', hz', hB⟩ | ⟨hk, _, _, _, hnum, _⟩
      · rw [hB.2.2.2] at hnz
        exact hI.unique j k y' z' n hy' hz' hny hnz
      · have := (hI.num j y' n hy' hny).2
        rw [hnum] at hnz; cases hnz; omega
    · rw [hnum] at hny
      cases hny
      rcases hG.new k z hz with ⟨z', hz', hB⟩ | ⟨hk, _⟩
      · rw [hB.2.2.2] at hnz
        have := (hI.num k z' _ hz' hnz).2
        omega
      · rw [hj, hk]
  · exact hG.only
  · exact hG.token

theorem number_given {t0 : Tree} {h : List Obj} {m : Nat} (hI : Inv t0 h m) {i c : Nat} {x : Obj} {t : Tree} {n : Nat} (hx : h[i]? = some x)
    (ht : x.part.children[c]? = some t) (hn : x.nextPartNum = some n) (hc : c = x.nextChild) :
    index t0 (x.at_ ++ [c]) = m + 1 ∧ Given t0 h (number h i c x t) m i c x t := by
  have hne : x.part.children ≠ [] := by intro e; rw [e] at ht; cases ht
  obtain ⟨rfl, hlen, hidx, hch⟩ : n = m + 1 ∧ _ := by
    rcases hI.only i x n hx hn with e | h'
    · exact absurd e hne
    · exact h'
  rw [← hc] at hidx
  refine ⟨hidx, ?_⟩
  have hil : i < h.length := (List.getElem?_eq_some_iff.mp hx).1
  have hst : sub t0 (x.at_ ++ [c]) = some t := (sub_snoc (hI.located i x hx)).trans ht
  -- the heap without the last step
  have hstep : ∀ h1, h1 = h.modify i (fun x => { x with nextChild := x.nextChild + 1, nextPartNum := none }) ++
      [(⟨t, x.at_ ++ [c], some i, some (m + 1), 0, some (m + 1 + 1)⟩ : Obj)] →
      h1[i]? = some { x with nextChild := x.nextChild + 1, nextPartNum := none } ∧
      h1[h.length]? = some ⟨t, x.at_ ++ [c], some i, some (m + 1), 0, some (m + 1 + 1)⟩ ∧
      (∀ j y, j ≠ i → h[j]? = some y → h1[j]? = some y) ∧
      (∀ j z, h1[j]? = some z → (j ≠ i ∧ h[j]? = some z) ∨ (j = i ∧ z = { x with nextChild := x.nextChild + 1, nextPartNum := none }) ∨
        (j = h.length ∧ z = ⟨t, x.at_ ++ [c], some i, some (m + 1), 0, some (m + 1 + 1)⟩)) ∧ h1.length = h.length + 1 := by
    rintro h1 rfl
    have hml : (h.modify i (fun x => { x with nextChild := x.nextChild + 1, nextPartNum := none })).length = h.length := List.length_modify ..
    have hmi : ∀ j, j < h.length → (h.modify i (fun x => { x with nextChild := x.nextChild + 1, nextPartNum := none }) ++
        [(⟨t, x.at_ ++ [c], some i, some (m + 1), 0, some (m + 1 + 1)⟩ : Obj)])[j]? =
        if i = j then (h[j]?).map (fun x => { x with nextChild := x.nextChild + 1, nextPartNum := none }) else h[j]? := by
      intro j hj
      rw [List.getElem?_append_left (by omega), List.getElem?_modify]
      split
      · rename_i e; subst e; simp
      · rename_i e; simp [e]
    have hL : (h.modify i (fun x => { x with nextChild := x.nextChild + 1, nextPartNum := none }) ++
        [(⟨t, x.at_ ++ [c], some i, some (m + 1), 0, some (m + 1 + 1)⟩ : Obj)])[h.length]? = some ⟨t, x.at_ ++ [c], some i, some (m + 1), 0, some (m + 1 + 1)⟩ := by
      rw [List.getElem?_append_right (by omega), hml, Nat.sub_self]; rfl
    refine ⟨by rw [hmi i hil, if_pos rfl, hx]; rfl, hL, ?_, ?_, by rw [List.length_append, hml]; rfl⟩
    · intro j y hj hy
      rw [hmi j (List.getElem?_eq_some_iff.mp hy).1, if_neg (fun e => hj e.symm)]; exact hy
    · intro j z hz
      rcases Nat.lt_trichotomy j h.length with hj | rfl | hj
      · rw [hmi j hj] at hz
        split at hz
        · rename_i e
          subst e
          rw [hx] at hz
          cases hz
          exact .inr (.inl ⟨rfl, rfl⟩)
        · rename_i e
          exact .inl ⟨fun e' => e e'.symm, hz⟩
      · rw [hL] at hz
        cases hz
        exact .inr (.inr ⟨rfl, rfl⟩)
      · rw [List.getElem?_eq_none (by rw [List.length_append, hml]; show h.length + 1 ≤ j; omega)] at hz
        cases hz
  unfold number
  rw [hn]
  simp only
  rw [if_pos hc]
  generalize h.modify i (fun x => { x with nextChild := x.nextChild + 1, nextPartNum := none }) ++
      [(⟨t, x.at_ ++ [c], some i, some (m + 1), 0, some (m + 1 + 1)⟩ : Obj)] = h1 at hstep
  obtain ⟨hi1, hL1, hold1, hnew1, hlen1⟩ := hstep h1 rfl
  have hkeep : ∀ j y, h[j]? = some y → ∃ z, h1[j]? = some z ∧ Agree y z ∧ (j ≠ i → z.nextChild = y.nextChild) ∧ (j = i → z.nextChild = c + 1) := by
    intro j y hy
    by_cases hj : j = i
    · subst hj
      rw [hx] at hy
      cases hy
      exact ⟨_, hi1, ⟨rfl, rfl, rfl, rfl⟩, fun e => absurd rfl e, fun _ => by rw [hc]⟩
    · exact ⟨y, hold1 j y hj hy, ⟨rfl, rfl, rfl, rfl⟩, fun _ => rfl, fun e => absurd e hj⟩
  have hback : ∀ j z, h1[j]? = some z → (∃ y, h[j]? = some y ∧ Agree y z) ∨
      (j = h.length ∧ z.part = t ∧ z.at_ = x.at_ ++ [c] ∧ z.parent = some i ∧ z.partNum = some (m + 1) ∧ z.nextChild = 0) := by
    intro j z hz
    rcases hnew1 j z hz with ⟨_, hz'⟩ | ⟨rfl, rfl⟩ | ⟨rfl, rfl⟩
    · exact .inl ⟨z, hz', rfl, rfl, rfl, rfl⟩
    · exact .inl ⟨x, hx, rfl, rfl, rfl, rfl⟩
    · exact .inr ⟨rfl, rfl, rfl, rfl, rfl, rfl⟩
  have hch1 : Chain h1 i := chain_keep hch (fun j y hy => by
    obtain ⟨z, a, b, c, _⟩ := hkeep j y hy
    exact ⟨z, a, b, fun hj => c (by omega)⟩)
  have hsub1 : ∀ (j : Nat) z, h1[j]? = some z → sub t0 z.at_ = some z.part := by
    intro j z hz
    rcases hback j z hz with ⟨y, hy, hA⟩ | ⟨_, hp, hat, _⟩
    · rw [hA.1, hA.2.1]; exact hI.located j y hy
    · rw [hp, hat]; exact hst
  -- no other node is to give a number
  have hnone : ∀ j z k, h1[j]? = some z → j ≠ h.length → z.nextPartNum = some k → z.part.children = [] := by
    intro j z k hz hj hk
    rcases hnew1 j z hz with ⟨hji, hz'⟩ | ⟨rfl, rfl⟩ | ⟨e, _⟩
    · by_cases he : z.part.children = []
      · exact he
      · exact absurd (token_unique hI hz' hx hk hn he hne) hji
    · cases hk
    · exact absurd e hj
  by_cases hleaf : t.children = []
  · rw [if_pos hleaf]
    have hsz : size t = 1 := by rw [size_eq, hleaf]; rfl
    have hcl := climb_spec t0 hsub1 (m + 1) h1.length i _ c t (by omega) hch1 hi1 (by rw [hc]) ht (by show _ = index t0 (x.at_ ++ [c]) + _; omega)
    rcases hcl with ⟨a, y, he, hy, hcha, hai, hlt, hia⟩ | ⟨he, hend⟩
    · rw [he]
      unfold setNext
      simp only
      have hya : (h1.modify a (fun x => { x with nextPartNum := some (m + 1 + 1) }))[a]? = some { y with nextPartNum := some (m + 1 + 1) } := by
        rw [List.getElem?_modify, hy]; simp
      have hyo : ∀ j, j ≠ a → (h1.modify a (fun x => { x with nextPartNum := some (m + 1 + 1) }))[j]? = h1[j]? := by
        intro j hj
        rw [List.getElem?_modify]; simp [show ¬ a = j from fun e => hj e.symm]
      generalize h1.modify a (fun x => { x with nextPartNum := some (m + 1 + 1) }) = h2 at hya hyo
      have hk2 : ∀ (j : Nat) z, h1[j]? = some z → ∃ w, h2[j]? = some w ∧ Agree z w ∧ w.nextChild = z.nextChild := by
        intro j z hz
        by_cases hj : j = a
        · subst hj
          rw [hy] at hz
          cases hz
          exact ⟨_, hya, ⟨rfl, rfl, rfl, rfl⟩, rfl⟩
        · exact ⟨z, by rw [hyo j hj]; exact hz, ⟨rfl, rfl, rfl, rfl⟩, rfl⟩
      have hb2 : ∀ (j : Nat) w, h2[j]? = some w → ∃ z, h1[j]? = some z ∧ Agree z w ∧ w.nextChild = z.nextChild ∧ (j ≠ a → w = z) := by
        intro j w hw
        by_cases hj : j = a
        · subst hj
          rw [hya] at hw
          cases hw
          exact ⟨y, hy, ⟨rfl, rfl, rfl, rfl⟩, rfl, fun e => absurd rfl e⟩
        · rw [hyo j hj] at hw
          exact ⟨w, hw, ⟨rfl, rfl, rfl, rfl⟩, rfl, fun _ => rfl⟩
      constructor
      · intro j u hu
        obtain ⟨z, h1', hA, e1, e2⟩ := hkeep j u hu
        obtain ⟨w, h2', hB, e3⟩ := hk2 j z h1'
        exact ⟨w, h2', ⟨hB.1.trans hA.1, hB.2.1.trans hA.2.1, hB.2.2.1.trans hA.2.2.1, hB.2.2.2.trans hA.2.2.2⟩, fun e => e3.trans (e1 e), fun e => e3.trans (e2 e)⟩
      · intro j w hw
        obtain ⟨z, hz, hB, e3, _⟩ := hb2 j w hw
        rcases hback j z hz with ⟨u, hu, hA⟩ | ⟨e, p1, p2, p3, p4, p5⟩
        · exact .inl ⟨u, hu, hB.1.trans hA.1, hB.2.1.trans hA.2.1, hB.2.2.1.trans hA.2.2.1, hB.2.2.2.trans hA.2.2.2⟩
        · exact .inr ⟨e, hB.1.trans p1, hB.2.1.trans p2, hB.2.2.1.trans p3, hB.2.2.2.trans p4, e3.trans p5⟩
      · obtain ⟨w, hw, hB, e3⟩ := hk2 _ _ hL1
        exact ⟨w, hw, hB.1, hB.2.1, hB.2.2.1, hB.2.2.2, e3⟩
      · intro j w k hw hk
        by_cases hj : j = a
        · subst hj
          rw [hya] at hw
          cases hw
          cases hk
          refine .inr ⟨rfl, hlt, hia, chain_keep hcha (fun k z hz => ?_)⟩
          obtain ⟨w, a, b, c⟩ := hk2 k z hz
          exact ⟨w, a, b, fun _ => c⟩
        · rw [hyo j hj] at hw
          by_cases hjl : j = h.length
          · subst hjl
            rw [hL1] at hw
            cases hw
            exact .inl hleaf
          · exact .inl (hnone j w k hw hjl hk)
      · intro _
        refine ⟨a, _, hya, rfl, ?_⟩
        intro e
        have e' : y.part.children = [] := e
        rw [e'] at hlt
        cases hlt
    · rw [he]
      show Given t0 h h1 m i c x t
      refine ⟨hkeep, hback, ⟨_, hL1, rfl, rfl, rfl, rfl, rfl⟩, ?_, fun h' => by omega⟩
      intro j w k hw hk
      by_cases hjl : j = h.length
      · subst hjl
        rw [hL1] at hw
        cases hw
        exact .inl hleaf
      · exact .inl (hnone j w k hw hjl hk)
  · rw [if_neg hleaf]
    refine ⟨hkeep, hback, ⟨_, hL1, rfl, rfl, rfl, rfl, rfl⟩, ?_, fun _ => ⟨h.length, _, hL1, rfl, hleaf⟩⟩
    intro j w k hw hk
    by_cases hjl : j = h.length
    · subst hjl
      rw [hL1] at hw
      cases hw
      cases hk
      refine .inr ⟨rfl, List.length_pos_iff.mpr hleaf, ?_, ?_⟩
      · show index t0 ((x.at_ ++ [c]) ++ [0]) = _
        rw [index_first hst hleaf, hidx]
      · exact .step hL1 (by simp) rfl hil hi1 rfl (by rw [hc]) hch1
    · exact .inl (hnone j w k hw hjl hk)

/-- One call. -/
theorem child_inv {t0 : Tree} {h : List Obj} {m : Nat} (hI : Inv t0 h m) (i c : Nat) : ∃ m', Inv t0 (child h i c) m' := by
  unfold child
  cases hx : h[i]? with
  | none => exact ⟨m, hI⟩
  | some x =>
    simp only
    cases ht : x.part.children[c]? with
    | none => exact ⟨m, hI⟩
    | some t =>
      simp only
      cases hn : x.nextPartNum with
      | none =>
        refine ⟨m, ?_⟩
        unfold number
        rw [hn]
        exact inv_plain hI hx ht
      | some n =>
        by_cases hc : c = x.nextChild
        · obtain ⟨h1, h2⟩ := number_given hI hx ht hn hc
          exact ⟨m + 1, inv_given hI hx ht h1 h2⟩
        · refine ⟨m, ?_⟩
          unfold number
          rw [hn]
          simp only
          rw [if_neg hc]
          exact inv_plain hI hx ht

theorem reached_inv {t0 : Tree} {h : List Obj} (hr : Reached t0 h) : ∃ m, Inv t0 h m := by
  induction hr with
  | start => exact ⟨0, inv_open t0⟩
  | child i c _ ih =>
    obtain ⟨m, hI⟩ := ih
    exact child_inv hI i c

/-- A call for the next part: its node gets the next number. -/
theorem child_next {t0 : Tree} {h : List Obj} {m : Nat} (hI : Inv t0 h m) {i c : Nat} {x : Obj} {t : Tree} {k : Nat} (hx : h[i]? = some x)
    (hk : x.partNum = some k) (ht : x.part.children[c]? = some t) (hnext : index t0 (x.at_ ++ [c]) = m + 1) :
    Inv t0 (child h i c) (m + 1) ∧ Given t0 h (child h i c) m i c x t := by
  have hst := sub_snoc (c := c) (hI.located i x hx)
  rw [ht] at hst
  have hlt : m + 1 < size t0 := by rw [← hnext]; exact index_lt hst
  obtain ⟨j, y, hy, hn, hne⟩ := hI.token hlt
  rcases hI.only j y _ hy hn with e | ⟨_, hly, hiy, hch⟩
  · exact absurd e hne
  have hsy := sub_snoc (c := y.nextChild) (hI.located j y hy)
  rw [List.getElem?_eq_getElem hly] at hsy
  have happ := List.append_inj' (index_inj _ _ _ _ _ hst hsy (hnext.trans hiy.symm)) rfl
  obtain ⟨y', hy', hny⟩ := chain_self hch
  rw [hy] at hy'; cases hy'
  have hij : i = j := by
    cases hpy : y.partNum with
    | none => exact absurd hpy hny
    | some b =>
      have h1 := (hI.num i x k hx hk).1
      have h2 := (hI.num j y b hy hpy).1
      rw [← happ.1, ← h1] at h2
      subst h2
      exact hI.unique i j x y b hx hy hk hpy
  subst hij
  rw [hx] at hy
  cases hy
  have hc : c = x.nextChild := by have := happ.2; simpa using this
  have e : child h i c = number h i c x t := by
    unfold child
    rw [hx]
    simp only
    rw [ht]
  obtain ⟨h1, h2⟩ := number_given hI hx ht hn hc
  rw [e]
  exact ⟨inv_given hI hx ht h1 h2, h2⟩

/-- Old nodes are kept. -/
def Ext (h h' : List Obj) : Prop := ∀ (j : Nat) y, h[j]? = some y → ∃ z, h'[j]? = some z ∧ Agree y z

theorem Ext.refl (h : List Obj) : Ext h h := fun _ y hy => ⟨y, hy, rfl, rfl, rfl, rfl⟩

theorem Ext.trans {a b c : List Obj} (h : Ext a b) (h' : Ext b c) : Ext a c := by
  intro j y hy
  obtain ⟨z, hz, hA⟩ := h j y hy
  obtain ⟨w, hw, hB⟩ := h' j z hz
  exact ⟨w, hw, hB.1.trans hA.1, hB.2.1.trans hA.2.1, hB.2.2.1.trans hA.2.2.1, hB.2.2.2.trans hA.2.2.2⟩

theorem Given.ext {t0 : Tree} {h h' : List Obj} {m i c : Nat} {x : Obj} {t : Tree} (hG : Given t0 h h' m i c x t) : Ext h h' := by
  intro j y hy
  obtain ⟨z, hz, hA, _⟩ := hG.old j y hy
  exact ⟨z, hz, hA⟩

/-- The numbers from `n` on, with the labels of the parts. -/
def numbered (n : Nat) : List Tree → List (Option Nat × Nat)
  | [] => []
  | t :: l => (some n, t.label) :: numbered (n + 1) l

theorem numbered_append : ∀ (a b : List Tree) (n : Nat), numbered n (a ++ b) = numbered n a ++ numbered (n + a.length) b
  | [], b, n => by simp [numbered]
  | t :: a, b, n => by
    rw [List.cons_append, numbered, numbered, numbered_append a b (n + 1), List.cons_append, List.length_cons]
    congr 3
    omega

mutual
theorem showNode_spec {t0 : Tree} : ∀ (t : Tree) (h : List Obj) (i n : Nat) (x : Obj), Inv t0 h n → h[i]? = some x → x.partNum = some n → x.part = t →
    (showNode t h i).1 = numbered n (parts t) ∧ Inv t0 (showNode t h i).2 (n + size t - 1) ∧ Ext h (showNode t h i).2
  | .node a l, h, i, n, x, hI, hx, hn, hp => by
    have hat := (hI.num i x n hx hn).1
    have hsub := hI.located i x hx
    have := showChildren_spec l h i 0 n x n hI hx hn (by rw [hp]; rfl) (by
      intro hl
      have := index_first hsub (by rw [hp]; exact hl)
      omega)
    have hnum : numOf h i = some n := by unfold numOf; rw [hx]; exact hn
    have hsz : size (.node a l) = 1 + (partsAll l).length := size_eq _
    rw [showNode]
    refine ⟨?_, ?_, this.2.2⟩
    · show (numOf h i, a) :: (showChildren l h i 0).1 = _
      rw [this.1, hnum, parts]; rfl
    · have h2 := this.2.1
      rw [show n + size (.node a l) - 1 = n + (partsAll l).length by omega]
      exact h2
theorem showChildren_spec {t0 : Tree} : ∀ (l : List Tree) (h : List Obj) (i c m : Nat) (x : Obj) (k : Nat), Inv t0 h m → h[i]? = some x → x.partNum = some k →
    x.part.children.drop c = l → (l ≠ [] → index t0 (x.at_ ++ [c]) = m + 1) →
    (showChildren l h i c).1 = numbered (m + 1) (partsAll l) ∧ Inv t0 (showChildren l h i c).2 (m + (partsAll l).length) ∧ Ext h (showChildren l h i c).2
  | [], h, i, c, m, x, k, hI, _, _, _, _ => by
    rw [showChildren, partsAll]
    exact ⟨rfl, hI, Ext.refl _⟩
  | t :: l, h, i, c, m, x, k, hI, hx, hk, hl, hnext => by
    have ht : x.part.children[c]? = some t := by
      have := congrArg List.head? hl
      rw [List.head?_drop] at this
      exact this
    obtain ⟨hI1, hG⟩ := child_next hI hx hk ht (hnext (by simp))
    obtain ⟨z, hz, hzp, hza, _, hzn, _⟩ := hG.made
    have r1 := showNode_spec t _ h.length (m + 1) z hI1 hz hzn hzp
    have hext := hG.ext.trans r1.2.2
    obtain ⟨x', hx', hA⟩ := hext i x hx
    have hs := size_pos t
    have r2 := showChildren_spec l (showNode t (child h i c) h.length).2 i (c + 1) (m + 1 + size t - 1) x' k r1.2.1 hx' (hA.2.2.2.trans hk)
      (by rw [hA.1, ← List.drop_drop, hl]; rfl) (by
        intro hne
        have hlen : c + 1 < x.part.children.length := by
          have := congrArg List.length hl
          rw [List.length_drop, List.length_cons] at this
          have := List.length_pos_iff.mpr hne
          omega
        rw [hA.2.1, index_next (hI.located i x hx) ht hlen, hnext (by simp)]
        omega)
    have hm : m + 1 + size t - 1 = m + size t := by omega
    rw [hm] at r2
    rw [showChildren, partsAll]
    refine ⟨?_, ?_, hext.trans r2.2.2⟩
    · show _ ++ _ = _
      rw [r1.1, r2.1, numbered_append]
      congr 2
      unfold size
      omega
    · have := r2.2.1
      rw [List.length_append, ← Nat.add_assoc]
      exact this
end

mutual
theorem seekNode_spec {t0 : Tree} : ∀ (t : Tree) (h : List Obj) (i n : Nat) (x : Obj) (k : Nat), Inv t0 h n → h[i]? = some x → x.partNum = some n → x.part = t →
    (k < size t → ∃ j h' y, seekNode t h i k = .inl (j, h') ∧ Inv t0 h' (n + k) ∧ h'[j]? = some y ∧ y.partNum = some (n + k) ∧ (parts t)[k]? = some y.part) ∧
    (size t ≤ k → ∃ h', seekNode t h i k = .inr (k - size t, h') ∧ Inv t0 h' (n + size t - 1) ∧ Ext h h')
  | t, h, i, n, x, 0, hI, hx, hn, hp => by
    refine ⟨fun _ => ⟨i, h, x, by cases t; rw [seekNode], hI, hx, hn, ?_⟩, fun h' => ?_⟩
    · rw [parts_eq, hp]; rfl
    · have := size_pos t; omega
  | .node a l, h, i, n, x, k + 1, hI, hx, hn, hp => by
    have hat := (hI.num i x n hx hn).1
    have hsub := hI.located i x hx
    have r := seekChildren_spec l h i 0 n x n k hI hx hn (by rw [hp]; rfl) (by
      intro hl
      have := index_first hsub (by rw [hp]; exact hl)
      omega)
    have hsz : size (.node a l) = 1 + (partsAll l).length := size_eq _
    rw [seekNode]
    refine ⟨fun hk => ?_, fun hk => ?_⟩
    · obtain ⟨j, h', y, h1, h2, h3, h4, h5⟩ := r.1 (by omega)
      refine ⟨j, h', y, h1, ?_, h3, ?_, ?_⟩
      · rw [show n + (k + 1) = n + 1 + k by omega]; exact h2
      · rw [show n + (k + 1) = n + 1 + k by omega]; exact h4
      · rw [parts, List.getElem?_cons_succ]; exact h5
    · obtain ⟨h', h1, h2, h3⟩ := r.2 (by omega)
      refine ⟨h', ?_, ?_, h3⟩
      · rw [h1, hsz]; congr 2; omega
      · rw [show n + size (.node a l) - 1 = n + (partsAll l).length by omega]; exact h2
theorem seekChildren_spec {t0 : Tree} : ∀ (l : List Tree) (h : List Obj) (i c m : Nat) (x : Obj) (n k : Nat), Inv t0 h m → h[i]? = some x → x.partNum = some n →
    x.part.children.drop c = l → (l ≠ [] → index t0 (x.at_ ++ [c]) = m + 1) →
    (k < (partsAll l).length → ∃ j h' y, seekChildren l h i c k = .inl (j, h') ∧ Inv t0 h' (m + 1 + k) ∧ h'[j]? = some y ∧ y.partNum = some (m + 1 + k) ∧
      (partsAll l)[k]? = some y.part) ∧
    ((partsAll l).length ≤ k → ∃ h', seekChildren l h i c k = .inr (k - (partsAll l).length, h') ∧ Inv t0 h' (m + (partsAll l).length) ∧ Ext h h')
  | [], h, i, c, m, x, n, k, hI, _, _, _, _ => by
    rw [seekChildren, partsAll]
    exact ⟨fun h => (by cases h), fun _ => ⟨h, rfl, hI, Ext.refl _⟩⟩
  | t :: l, h, i, c, m, x, n, k, hI, hx, hn, hl, hnext => by
    have ht : x.part.children[c]? = some t := by
      have := congrArg List.head? hl
      rw [List.head?_drop] at this
      exact this
    obtain ⟨hI1, hG⟩ := child_next hI hx hn ht (hnext (by simp))
    obtain ⟨z, hz, hzp, hza, _, hzn, _⟩ := hG.made
    have r1 := seekNode_spec t _ h.length (m + 1) z k hI1 hz hzn hzp
    have hs := size_pos t
    have hlen : (partsAll (t :: l)).length = size t + (partsAll l).length := by rw [partsAll, List.length_append]; rfl
    rw [seekChildren]
    rcases Nat.lt_or_ge k (size t) with hk | hk
    · obtain ⟨j, h', y, h1, h2, h3, h4, h5⟩ := r1.1 hk
      rw [h1]
      refine ⟨fun _ => ⟨j, h', y, rfl, h2, h3, h4, ?_⟩, fun h' => by omega⟩
      rw [partsAll, List.getElem?_append_left hk]; exact h5
    · obtain ⟨h', h1, h2, h3⟩ := r1.2 hk
      rw [h1]
      simp only
      have hext := hG.ext.trans h3
      obtain ⟨x', hx', hA⟩ := hext i x hx
      have hm : m + 1 + size t - 1 = m + size t := by omega
      rw [hm] at h2
      have r2 := seekChildren_spec l h' i (c + 1) (m + size t) x' n (k - size t) h2 hx' (hA.2.2.2.trans hn) (by rw [hA.1, ← List.drop_drop, hl]; rfl) (by
        intro hne
        have hlen : c + 1 < x.part.children.length := by
          have := congrArg List.length hl
          rw [List.length_drop, List.length_cons] at this
          have := List.length_pos_iff.mpr hne
          omega
        rw [hA.2.1, index_next (hI.located i x hx) ht hlen, hnext (by simp)]
        omega)
      refine ⟨fun hk' => ?_, fun hk' => ?_⟩
      · obtain ⟨j, h'', y, g1, g2, g3, g4, g5⟩ := r2.1 (by omega)
        have e : m + size t + 1 + (k - size t) = m + 1 + k := by omega
        rw [e] at g2 g4
        refine ⟨j, h'', y, g1, g2, g3, g4, ?_⟩
        rw [partsAll, List.getElem?_append_right (show (parts t).length ≤ k from hk)]; exact g5
      · obtain ⟨h'', g1, g2, g3⟩ := r2.2 (by omega)
        refine ⟨h'', ?_, ?_, hext.trans g3⟩
        · rw [g1, hlen]; congr 2; omega
        · rw [hlen, ← Nat.add_assoc]; exact g2
end

end Notmuch.MimeNode
