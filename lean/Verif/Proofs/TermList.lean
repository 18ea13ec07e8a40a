import Verif.Spec.TermList
import Verif.Proofs.StringMap

/-! # The terms of a document -/

namespace Notmuch.TermList
open Notmuch.StringMap Notmuch.StringMapSpec

theorem lt_iff (a b : Str) : strcmp a b = .lt ↔ LexLe a b ∧ b ≠ a := strcmp_lt a b

theorem prefix_le : ∀ {p t : Str}, p <+: t → LexLe p t
  | [], _, _ => trivial
  | _ :: _, [], h => by simp at h
  | a :: p, b :: t, h => by
    rw [List.cons_prefix_cons] at h
    exact .inr ⟨h.1, prefix_le h.2⟩

theorem lt_of_prefix : ∀ {p t p' : Str}, p <+: t → LexLe p p' → ¬ p <+: p' → strcmp t p' = .lt
  | [], _, _, _, _, h => absurd (List.nil_prefix) h
  | _ :: _, [], _, h, _, _ => by simp at h
  | _ :: _, _ :: _, [], _, h, _ => by exact absurd h (by simp [LexLe])
  | a :: p, b :: t, c :: p', h1, h2, h3 => by
    rw [List.cons_prefix_cons] at h1
    rw [List.cons_prefix_cons] at h3
    obtain ⟨rfl, h1⟩ := h1
    simp only [strcmp]
    rcases h2 with h2 | ⟨rfl, h2⟩
    · rw [if_pos h2]
    · rw [if_neg (u8_lt_irrefl a), if_neg (u8_lt_irrefl a)]
      exact lt_of_prefix h1 h2 (fun h => h3 ⟨rfl, h⟩)

theorem not_lt_iff (a b : Str) : strcmp a b ≠ .lt ↔ LexLe b a := by
  rw [ne_eq, lt_iff]
  constructor
  · intro h
    rcases lexLe_total a b with h1 | h1
    · by_cases e : b = a
      · rw [e]; exact lexLe_refl a
      · exact absurd ⟨h1, e⟩ h
    · exact h1
  · rintro h ⟨h1, h2⟩
    exact h2 (lexLe_antisymm _ _ h h1)

theorem lt_trans' {a b c : Str} (h1 : strcmp a b = .lt) (h2 : strcmp b c = .lt) : strcmp a c = .lt := by
  rw [lt_iff] at *
  refine ⟨lexLe_trans _ _ _ h1.1 h2.1, ?_⟩
  rintro rfl
  exact h1.2 (lexLe_antisymm _ _ h2.1 h1.1)

theorem lt_irrefl' (a : Str) : strcmp a a ≠ .lt := by
  intro h
  exact ((lt_iff a a).1 h).2 rfl

/-! ## Iterators -/

/-- The terms before the iterator are before `p` or have it as a prefix. -/
def Pos (p : Str) (terms it : List Str) : Prop := ∃ pre, terms = pre ++ it ∧ ∀ x ∈ pre, strcmp x p = .lt ∨ p <+: x

theorem Pos.next {p p' : Str} {terms it : List Str} (h : Pos p terms it) (h1 : strcmp p p' = .lt) (h2 : ¬ p <+: p') :
    ∃ pre, terms = pre ++ it ∧ ∀ x ∈ pre, strcmp x p' = .lt := by
  obtain ⟨pre, e, hx⟩ := h
  refine ⟨pre, e, fun x hm => ?_⟩
  rcases hx x hm with h | h
  · exact lt_trans' h h1
  · exact lt_of_prefix h ((lt_iff _ _).1 h1).1 h2

theorem Pos.skip {p p' : Str} {terms it : List Str} (h : Pos p terms it) (h1 : strcmp p p' = .lt) (h2 : ¬ p <+: p') : Pos p' terms it := by
  obtain ⟨pre, e, hx⟩ := h.next h1 h2
  exact ⟨pre, e, fun x hm => .inl (hx x hm)⟩

theorem not_prefix_of_lt {p x : Str} (h : strcmp x p = .lt) : ¬ p <+: x := by
  intro hp
  rw [lt_iff] at h
  exact h.2 (lexLe_antisymm _ _ (prefix_le hp) h.1)

theorem valuesWith_nil_of {p : Str} {l : List Str} (h : ∀ x ∈ l, ¬ p <+: x) : valuesWith p l = [] := by
  unfold valuesWith
  rw [List.filterMap_eq_nil_iff]
  intro x hx
  rw [if_neg]
  rw [List.isPrefixOf_iff_prefix]
  exact h x hx

theorem valuesWith_append (p : Str) (a b : List Str) : valuesWith p (a ++ b) = valuesWith p a ++ valuesWith p b := by
  unfold valuesWith; rw [List.filterMap_append]

theorem mem_valuesWith {p v : Str} {l : List Str} : v ∈ valuesWith p l ↔ p ++ v ∈ l := by
  unfold valuesWith
  rw [List.mem_filterMap]
  constructor
  · rintro ⟨t, h1, h2⟩
    split at h2
    · rename_i h
      rw [List.isPrefixOf_iff_prefix] at h
      obtain ⟨r, rfl⟩ := h
      rw [List.drop_left, Option.some.injEq] at h2
      rw [← h2]; exact h1
    · simp at h2
  · intro h
    refine ⟨p ++ v, h, ?_⟩
    rw [if_pos (by rw [List.isPrefixOf_iff_prefix]; exact List.prefix_append _ _), List.drop_left]

/-- In a sorted list of terms not before `p`, those with the prefix come first. -/
theorem collect_spec {p : Str} : ∀ {it : List Str}, Sorted it → (∀ x ∈ it, LexLe p x) →
    (collect p it).1 = valuesWith p it ∧ ∃ pre, it = pre ++ (collect p it).2 ∧ (∀ x ∈ pre, p <+: x) ∧ ∀ x ∈ (collect p it).2, ¬ p <+: x := by
  intro it
  induction it with
  | nil => intro _ _; exact ⟨rfl, [], rfl, by simp, by simp [collect]⟩
  | cons t it ih =>
    intro hs hle
    have hs' := List.pairwise_cons.1 hs
    rw [collect]
    by_cases hp : p.isPrefixOf t
    · rw [if_pos hp]
      obtain ⟨h1, pre, h2, h3, h4⟩ := ih hs'.2 (fun x hx => hle x (by simp [hx]))
      refine ⟨?_, t :: pre, by rw [List.cons_append, ← h2], ?_, h4⟩
      · simp only [h1]
        unfold valuesWith
        rw [List.filterMap_cons, if_pos hp]
      · intro x hx
        rcases List.mem_cons.1 hx with rfl | hx
        · exact List.isPrefixOf_iff_prefix.1 hp
        · exact h3 x hx
    · rw [if_neg hp]
      have hnp : ¬ p <+: t := fun h => hp (List.isPrefixOf_iff_prefix.2 h)
      have hno : ∀ x ∈ t :: it, ¬ p <+: x := by
        intro x hx
        rcases List.mem_cons.1 hx with rfl | hx
        · exact hnp
        · intro hpx
          have h1 := hs'.1 x hx
          have h2 := lt_of_prefix hpx (hle t (by simp)) hnp
          exact lt_irrefl' _ (lt_trans' h1 h2)
      exact ⟨(valuesWith_nil_of hno).symm, [], rfl, by simp, hno⟩

theorem skipTo_spec {p : Str} {it : List Str} (hs : Sorted it) : ∃ pre, it = pre ++ skipTo p it ∧ (∀ x ∈ pre, strcmp x p = .lt) ∧ ∀ x ∈ skipTo p it, LexLe p x := by
  refine ⟨it.takeWhile (fun t => strcmp t p = .lt), ?_, ?_, ?_⟩
  · unfold skipTo; exact (List.takeWhile_append_dropWhile).symm
  · intro x hx
    have := List.all_eq_true.1 (List.all_takeWhile) x hx
    simpa using this
  · have hs2 : Sorted (skipTo p it) := by
      unfold Sorted skipTo
      exact hs.sublist (List.dropWhile_sublist _)
    cases h : skipTo p it with
    | nil => simp
    | cons t rest =>
      have ht : LexLe p t := by
        rw [← not_lt_iff]
        unfold skipTo at h
        have := List.head?_dropWhile_not (fun t => decide (strcmp t p = .lt)) it
        rw [h] at this
        simpa using this
      rw [h] at hs2
      intro x hx
      rcases List.mem_cons.1 hx with rfl | hx
      · exact ht
      · exact lexLe_trans _ _ _ ht ((lt_iff _ _).1 ((List.pairwise_cons.1 hs2).1 x hx)).1

theorem Sorted.of_append {a b : List Str} (h : Sorted (a ++ b)) : Sorted b := (List.pairwise_append.1 h).2.1

/-- From a position before `p`, all values with the prefix are found. -/
theorem getTermsWithPrefix_spec {p : Str} {terms it : List Str} (hs : Sorted terms) (h : ∃ pre, terms = pre ++ it ∧ ∀ x ∈ pre, strcmp x p = .lt) :
    (getTermsWithPrefix p it).1 = valuesWith p terms ∧ Pos p terms (getTermsWithPrefix p it).2 := by
  obtain ⟨pre, e, hpre⟩ := h
  have hs1 : Sorted it := Sorted.of_append (e ▸ hs)
  obtain ⟨pre2, e2, hpre2, hle⟩ := @skipTo_spec p it hs1
  have hs2 : Sorted (skipTo p it) := Sorted.of_append (e2 ▸ hs1)
  obtain ⟨h1, pre3, e3, hpre3, _⟩ := collect_spec hs2 hle
  unfold getTermsWithPrefix
  refine ⟨?_, pre ++ pre2 ++ pre3, ?_, ?_⟩
  · rw [h1]
    have : terms = (pre ++ pre2) ++ skipTo p it := by rw [List.append_assoc, ← e2, ← e]
    have hnil : valuesWith p (pre ++ pre2) = [] := by
      apply valuesWith_nil_of
      intro x hx
      rcases List.mem_append.1 hx with hx | hx
      · exact not_prefix_of_lt (hpre x hx)
      · exact not_prefix_of_lt (hpre2 x hx)
    conv => rhs; rw [this, valuesWith_append, hnil, List.nil_append]
  · rw [List.append_assoc, ← e3, List.append_assoc, ← e2, ← e]
  · intro x hx
    rcases List.mem_append.1 hx with hx | hx
    · rcases List.mem_append.1 hx with hx | hx
      · exact .inl (hpre x hx)
      · exact .inl (hpre2 x hx)
    · exact .inr (hpre3 x hx)

theorem getTerm_spec {p : Str} {terms it : List Str} (hs : Sorted terms) (h : ∃ pre, terms = pre ++ it ∧ ∀ x ∈ pre, strcmp x p = .lt) :
    (getTerm p it).1 = (valuesWith p terms).head? ∧ (getTerm p it).2 = skipTo p it ∧ Pos p terms (getTerm p it).2 := by
  obtain ⟨pre, e, hpre⟩ := h
  have hs1 : Sorted it := Sorted.of_append (e ▸ hs)
  obtain ⟨pre2, e2, hpre2, hle⟩ := @skipTo_spec p it hs1
  have hs2 : Sorted (skipTo p it) := Sorted.of_append (e2 ▸ hs1)
  have hv : valuesWith p terms = valuesWith p (skipTo p it) := by
    have : terms = (pre ++ pre2) ++ skipTo p it := by rw [List.append_assoc, ← e2, ← e]
    have hnil : valuesWith p (pre ++ pre2) = [] := by
      apply valuesWith_nil_of
      intro x hx
      rcases List.mem_append.1 hx with hx | hx
      · exact not_prefix_of_lt (hpre x hx)
      · exact not_prefix_of_lt (hpre2 x hx)
    conv => lhs; rw [this, valuesWith_append, hnil, List.nil_append]
  have hpos : Pos p terms (skipTo p it) := by
    refine ⟨pre ++ pre2, by rw [List.append_assoc, ← e2, ← e], ?_⟩
    intro x hx
    rcases List.mem_append.1 hx with hx | hx
    · exact .inl (hpre x hx)
    · exact .inl (hpre2 x hx)
  rw [hv]
  obtain ⟨h1, _, _, _, _⟩ := collect_spec hs2 hle
  unfold getTerm
  cases hsk : skipTo p it with
  | nil =>
    rw [hsk] at hpos
    exact ⟨rfl, rfl, hpos⟩
  | cons t rest =>
    rw [hsk] at hpos h1
    refine ⟨?_, rfl, hpos⟩
    rw [← h1, collect]
    simp only
    split <;> rfl

theorem sorted_eq {a b : List Str} (ha : a.Pairwise (fun a b => strcmp a b ≠ .gt)) (hb : b.Pairwise (fun a b => strcmp a b ≠ .gt)) (h : a.Perm b) : a = b := by
  have conv : ∀ x y, strcmp x y ≠ .gt → LexLe x y := by
    intro x y h
    rw [ne_eq, strcmp_gt, Classical.not_not] at h
    exact h
  exact List.Perm.eq_of_pairwise (le := fun x y => LexLe x y) (fun x y _ _ h1 h2 => lexLe_antisymm _ _ h1 h2) (ha.imp (conv _ _)) (hb.imp (conv _ _)) h

theorem valuesWith_sorted {p : Str} {terms : List Str} (hs : Sorted terms) : Sorted (valuesWith p terms) := by
  induction terms with
  | nil => exact List.Pairwise.nil
  | cons t terms ih =>
    have hs' := List.pairwise_cons.1 hs
    unfold valuesWith
    rw [List.filterMap_cons]
    split
    · exact ih hs'.2
    · rename_i v hv
      split at hv
      · rename_i hp
        refine List.pairwise_cons.2 ⟨?_, ih hs'.2⟩
        intro w hw
        have hw2 : p ++ w ∈ terms := mem_valuesWith.1 hw
        have hlt := hs'.1 _ hw2
        obtain ⟨r, rfl⟩ := List.isPrefixOf_iff_prefix.1 hp
        rw [List.drop_left, Option.some.injEq] at hv
        subst hv
        -- the common prefix does not matter
        clear hs hs' hw hw2 ih hp
        induction p with
        | nil => exact hlt
        | cons c p ihp =>
          simp only [List.cons_append, strcmp, if_neg (u8_lt_irrefl c)] at hlt
          exact ihp hlt
      · simp at hv

/-! ## Metadata -/

/-- Values that were there stay, the others are read. -/
theorem readList_spec {p q : Str} {terms it : List Str} {old : Option (List Str)} (hs : Sorted terms) (h : Pos q terms it) (h1 : strcmp q p = .lt) (h2 : ¬ q <+: p) :
    (readList p old it).1 = some (old.getD (valuesWith p terms)) ∧ Pos p terms (readList p old it).2 := by
  cases old with
  | some l => exact ⟨rfl, h.skip h1 h2⟩
  | none =>
    obtain ⟨a, b⟩ := getTermsWithPrefix_spec hs (h.next h1 h2)
    exact ⟨by simp [readList, a], b⟩

theorem readOne_spec {p : Str} {terms it : List Str} {old : Option Str} (hs : Sorted terms) (h : ∃ pre, terms = pre ++ it ∧ ∀ x ∈ pre, strcmp x p = .lt) :
    (readOne p old it).1 = old.or (valuesWith p terms).head? ∧ Pos p terms (readOne p old it).2 := by
  cases old with
  | some l =>
    obtain ⟨pre, e, hp⟩ := h
    exact ⟨rfl, pre, e, fun x hx => .inl (hp x hx)⟩
  | none =>
    obtain ⟨a, _, b⟩ := getTerm_spec hs h
    exact ⟨by simp [readOne, a], b⟩

theorem readGhost_spec {terms it : List Str} (hs : Sorted terms) (h : ∃ pre, terms = pre ++ it ∧ ∀ x ∈ pre, strcmp x (bs "T") = .lt) :
    readGhost it = (match (valuesWith (bs "T") terms).head? with
      | some v => if v = bs "mail" then some false else if v = bs "ghost" then some true else none
      | none => none) := by
  obtain ⟨a, b, _⟩ := getTerm_spec hs h
  unfold readGhost
  rw [← a]
  unfold getTerm
  cases hsk : skipTo (bs "T") it with
  | nil => rfl
  | cons t rest =>
    simp only
    by_cases hp : (bs "T").isPrefixOf t
    · rw [if_pos hp]
      obtain ⟨r, rfl⟩ := List.isPrefixOf_iff_prefix.1 hp
      rw [List.drop_left]
      have e1 : (bs "T" ++ r = bs "Tmail") ↔ r = bs "mail" := List.append_cancel_left_eq (bs "T") r (bs "mail") ▸ Iff.rfl
      have e2 : (bs "T" ++ r = bs "Tghost") ↔ r = bs "ghost" := List.append_cancel_left_eq (bs "T") r (bs "ghost") ▸ Iff.rfl
      simp only [e1, e2]
    · rw [if_neg hp]
      have n1 : t ≠ bs "Tmail" := by rintro rfl; exact hp (by decide)
      have n2 : t ≠ bs "Tghost" := by rintro rfl; exact hp (by decide)
      rw [if_neg n1, if_neg n2]

/-- The type of the document, from its terms. -/
def ghostOf (terms : List Str) : Option Bool :=
  match (valuesWith (bs "T") terms).head? with
  | some v => if v = bs "mail" then some false else if v = bs "ghost" then some true else none
  | none => none

theorem ensureMetadata_spec {sortTags : List Str → List Str} (hst : SortsTags sortTags) {terms : List Str} (hs : Sorted terms) (m : Metadata) :
    ensureMetadata sortTags terms m = (m.ghost.or (ghostOf terms)).map (fun g =>
      ⟨m.threadId.or (valuesWith (bs "G") terms).head?, some (m.tagList.getD (valuesWith (bs "K") terms)),
       m.messageId.or (valuesWith (bs "Q") terms).head?, some g, some (m.filenameTermList.getD (valuesWith (bs "XFDIRENTRY") terms)),
       some (m.propertyTermList.getD (valuesWith (bs "XPROPERTY") terms)), some (m.referenceList.getD (valuesWith (bs "XREFERENCE") terms)),
       some ((m.inReplyTo.or (valuesWith (bs "XREPLYTO") terms).head?).getD [])⟩) := by
  obtain ⟨a1, b1⟩ := @readOne_spec (bs "G") terms terms m.threadId hs ⟨[], rfl, by simp⟩
  obtain ⟨a2, b2⟩ := @readList_spec (bs "K") (bs "G") terms _ m.tagList hs b1 (by decide) (by decide)
  obtain ⟨a3, b3⟩ := @readOne_spec (bs "Q") terms _ m.messageId hs (b2.next (by decide) (by decide))
  have a4 := readGhost_spec hs (b3.next (p' := bs "T") (by decide) (by decide))
  have hsort : sortTags (valuesWith (bs "K") terms) = valuesWith (bs "K") terms := by
    refine sorted_eq (hst.sorted _) ?_ (hst.perm _)
    refine (valuesWith_sorted hs).imp ?_
    intro a b h h2
    rw [h] at h2
    cases h2
  have tagsEq : (if m.tagList = none then (readList (bs "K") m.tagList (readOne (bs "G") m.threadId terms).2).1.map sortTags
      else (readList (bs "K") m.tagList (readOne (bs "G") m.threadId terms).2).1) = some (m.tagList.getD (valuesWith (bs "K") terms)) := by
    rw [a2]
    cases m.tagList with
    | none => simp [hsort]
    | some l => simp
  have b4 : ∀ it, (it = (readOne (bs "Q") m.messageId (readList (bs "K") m.tagList (readOne (bs "G") m.threadId terms).2).2).2 ∨
      it = skipTo (bs "T") (readOne (bs "Q") m.messageId (readList (bs "K") m.tagList (readOne (bs "G") m.threadId terms).2).2).2) →
      Pos (bs "T") terms it := by
    intro it h
    rcases h with rfl | rfl
    · exact b3.skip (by decide) (by decide)
    · have := getTerm_spec hs (b3.next (p' := bs "T") (by decide) (by decide))
      rw [← this.2.1]
      exact this.2.2
  have tail : ∀ it, Pos (bs "T") terms it → (readList (bs "XFDIRENTRY") m.filenameTermList it).1 = some (m.filenameTermList.getD (valuesWith (bs "XFDIRENTRY") terms)) ∧
      (readList (bs "XPROPERTY") m.propertyTermList (readList (bs "XFDIRENTRY") m.filenameTermList it).2).1 = some (m.propertyTermList.getD (valuesWith (bs "XPROPERTY") terms)) ∧
      (readList (bs "XREFERENCE") m.referenceList (readList (bs "XPROPERTY") m.propertyTermList (readList (bs "XFDIRENTRY") m.filenameTermList it).2).2).1 = some (m.referenceList.getD (valuesWith (bs "XREFERENCE") terms)) ∧
      (readOne (bs "XREPLYTO") m.inReplyTo (readList (bs "XREFERENCE") m.referenceList (readList (bs "XPROPERTY") m.propertyTermList (readList (bs "XFDIRENTRY") m.filenameTermList it).2).2).2).1 = m.inReplyTo.or (valuesWith (bs "XREPLYTO") terms).head? := by
    intro it h
    obtain ⟨c1, d1⟩ := @readList_spec (bs "XFDIRENTRY") (bs "T") terms it m.filenameTermList hs h (by decide) (by decide)
    obtain ⟨c2, d2⟩ := @readList_spec (bs "XPROPERTY") (bs "XFDIRENTRY") terms _ m.propertyTermList hs d1 (by decide) (by decide)
    obtain ⟨c3, d3⟩ := @readList_spec (bs "XREFERENCE") (bs "XPROPERTY") terms _ m.referenceList hs d2 (by decide) (by decide)
    obtain ⟨c4, _⟩ := @readOne_spec (bs "XREPLYTO") terms _ m.inReplyTo hs (d3.next (by decide) (by decide))
    exact ⟨c1, c2, c3, c4⟩
  unfold ensureMetadata
  simp only [tagsEq, a1, a3]
  have ghostEq : (if m.ghost = none then readGhost (readOne (bs "Q") m.messageId (readList (bs "K") m.tagList (readOne (bs "G") m.threadId terms).2).2).2 else m.ghost) =
      m.ghost.or (ghostOf terms) := by
    rw [a4]
    cases m.ghost <;> simp [ghostOf]
  rw [ghostEq]
  cases m.ghost.or (ghostOf terms) with
  | none => rfl
  | some g =>
    obtain ⟨c1, c2, c3, c4⟩ := tail _ (b4 (if m.ghost = none then skipTo (bs "T") (readOne (bs "Q") m.messageId (readList (bs "K") m.tagList (readOne (bs "G") m.threadId terms).2).2).2 else (readOne (bs "Q") m.messageId (readList (bs "K") m.tagList (readOne (bs "G") m.threadId terms).2).2).2) (by split; exact .inr rfl; exact .inl rfl))
    simp only [c1, c2, c3, c4, Option.map_some]

/-! ## Changing a document -/

theorem eq_iff (a b : Str) : strcmp a b = .eq ↔ a = b := by
  constructor
  · intro h
    have h1 : LexLe b a := (not_lt_iff a b).1 (by rw [h]; decide)
    have h2 : LexLe a b := by
      have : strcmp a b ≠ .gt := by rw [h]; decide
      rw [ne_eq, strcmp_gt, Classical.not_not] at this
      exact this
    exact lexLe_antisymm _ _ h2 h1
  · rintro rfl
    cases h : strcmp a a with
    | lt => exact absurd h (lt_irrefl' a)
    | eq => rfl
    | gt => exact absurd (lexLe_refl a) ((strcmp_gt a a).1 h)

theorem gt_lt {a b : Str} (h1 : strcmp a b ≠ .lt) (h2 : strcmp a b ≠ .eq) : strcmp b a = .lt := by
  rw [lt_iff]
  exact ⟨(not_lt_iff a b).1 h1, fun e => h2 ((eq_iff a b).2 e)⟩

theorem mem_addTerm {t x : Str} : ∀ {l : List Str}, x ∈ addTerm t l ↔ x = t ∨ x ∈ l
  | [] => by simp [addTerm]
  | y :: l => by
    unfold addTerm
    split
    · simp
    · split
      · rename_i h
        rw [eq_iff] at h
        subst h
        simp
      · rw [List.mem_cons, mem_addTerm, List.mem_cons]
        constructor
        · rintro (h | h | h)
          · exact .inr (.inl h)
          · exact .inl h
          · exact .inr (.inr h)
        · rintro (h | h | h)
          · exact .inr (.inl h)
          · exact .inl h
          · exact .inr (.inr h)

theorem sorted_addTerm {t : Str} : ∀ {l : List Str}, Sorted l → Sorted (addTerm t l)
  | [], _ => by simp [addTerm, Sorted]
  | y :: l, h => by
    have h' := List.pairwise_cons.1 h
    unfold addTerm
    split
    · rename_i hlt
      refine List.pairwise_cons.2 ⟨?_, h⟩
      intro x hx
      rcases List.mem_cons.1 hx with rfl | hx
      · exact hlt
      · exact lt_trans' hlt (h'.1 x hx)
    · rename_i h1
      split
      · exact h
      · rename_i h2
        refine List.pairwise_cons.2 ⟨?_, sorted_addTerm h'.2⟩
        intro x hx
        rcases mem_addTerm.1 hx with rfl | hx
        · exact gt_lt h1 h2
        · exact h'.1 x hx

theorem sorted_filter {l : List Str} (f : Str → Bool) (h : Sorted l) : Sorted (l.filter f) := h.sublist List.filter_sublist

theorem sorted_removeTerm {t : Str} {l : List Str} (h : Sorted l) : Sorted (removeTerm t l) := sorted_filter _ h

theorem mem_removeTerm {t x : Str} {l : List Str} : x ∈ removeTerm t l ↔ x ∈ l ∧ x ≠ t := by simp [removeTerm]

/-- The loop ends and all the terms with the prefix are gone. -/
theorem removeTerms_spec {p : Str} : ∀ {n : Nat} {l : List Str}, l.length < n → Sorted l →
    removeTerms p n l = some (l.filter (fun t => !p.isPrefixOf t)) := by
  intro n
  induction n with
  | zero => intro l h; omega
  | succ n ih =>
    intro l h hs
    obtain ⟨pre, e, hpre, hle⟩ := @skipTo_spec p l hs
    unfold removeTerms
    cases hsk : skipTo p l with
    | nil =>
      simp only
      rw [hsk, List.append_nil] at e
      congr 1
      symm
      rw [List.filter_eq_self]
      intro x hx
      have := not_prefix_of_lt (hpre x (e ▸ hx))
      rw [← List.isPrefixOf_iff_prefix] at this
      simpa only [Bool.not_eq_true', Bool.not_eq_true] using this
    | cons t rest =>
      rw [hsk] at e hle
      simp only
      have ht : t ∈ l := by rw [e]; simp
      by_cases hp : p.isPrefixOf t
      · rw [if_pos hp]
        have hlen : (removeTerm t l).length < l.length := by
          unfold removeTerm
          rw [← List.countP_eq_length_filter]
          apply Nat.lt_of_le_of_ne List.countP_le_length
          intro hh
          rw [List.countP_eq_length] at hh
          have := hh t ht
          simp at this
        rw [ih (by omega) (sorted_removeTerm hs)]
        congr 1
        unfold removeTerm
        rw [List.filter_filter]
        apply List.filter_congr
        intro x hx
        by_cases hxt : x = t
        · subst hxt; simp [hp]
        · simp [hxt]
      · rw [if_neg hp]
        congr 1
        symm
        rw [List.filter_eq_self]
        intro x hx
        have hnp : ¬ p <+: t := fun h => hp (List.isPrefixOf_iff_prefix.2 h)
        have : ¬ p <+: x := by
          rw [e] at hx
          rcases List.mem_append.1 hx with hx | hx
          · exact not_prefix_of_lt (hpre x hx)
          · rcases List.mem_cons.1 hx with rfl | hx
            · exact hnp
            · intro hpx
              have hs2 : Sorted (t :: rest) := Sorted.of_append (e ▸ hs)
              have h1 := (List.pairwise_cons.1 hs2).1 x hx
              have h2 := lt_of_prefix hpx (hle t (by simp)) hnp
              exact lt_irrefl' _ (lt_trans' h1 h2)
        rw [← List.isPrefixOf_iff_prefix] at this
        simpa only [Bool.not_eq_true', Bool.not_eq_true] using this

/-! ## Properties -/

theorem splitProperty_eq {k v : Str} (hk : 61 ∉ k) : splitProperty (k ++ bs "=" ++ v) = some (k, v) := by
  have e : bs "=" = [61] := by decide
  rw [e]
  have h1 : ∀ k : Str, 61 ∉ k → (k ++ [61] ++ v).dropWhile (fun c => c ≠ 61) = 61 :: v ∧ (k ++ [61] ++ v).takeWhile (fun c => c ≠ 61) = k := by
    intro k
    induction k with
    | nil => intro _; simp
    | cons c k ih =>
      intro h
      rw [List.mem_cons, not_or] at h
      have hc : c ≠ 61 := fun e => h.1 e.symm
      obtain ⟨a, b⟩ := ih h.2
      simp only [List.cons_append]
      rw [List.dropWhile_cons, List.takeWhile_cons]
      simp only [hc, ne_eq, not_false_eq_true, decide_true, if_true]
      exact ⟨a, by rw [b]⟩
  obtain ⟨a, b⟩ := h1 k hk
  unfold splitProperty
  rw [a, b]

/-- The term of a property. -/
def propTerm (k v : Str) : Str := bs "XPROPERTY" ++ (k ++ bs "=" ++ v)

theorem propTerm_inj {k v k' v' : Str} (hk : 61 ∉ k) (hk' : 61 ∉ k') (h : propTerm k v = propTerm k' v') : k = k' ∧ v = v' := by
  have := List.append_cancel_left h
  have h1 := splitProperty_eq (v := v) hk
  rw [this, splitProperty_eq hk'] at h1
  simp only [Option.some.injEq, Prod.mk.injEq] at h1
  exact ⟨h1.1.symm, h1.2.symm⟩

/-- What the terms of a document say about its properties. -/
structure PropInv (start terms : List Str) (P : Str → Str → Prop) : Prop where
  sorted : Sorted terms
  key : ∀ k v, P k v → 61 ∉ k
  only : ∀ t ∈ terms, bs "XPROPERTY" <+: t → ∃ k v, P k v ∧ t = propTerm k v
  all : ∀ k v, P k v → propTerm k v ∈ terms
  other : ∀ t, ¬ bs "XPROPERTY" <+: t → (t ∈ terms ↔ t ∈ start)

theorem propTerm_prefix (k v : Str) : bs "XPROPERTY" <+: propTerm k v := List.prefix_append _ _

theorem PropInv.filter {start terms : List Str} {P : Str → Str → Prop} (h : PropInv start terms P) (f : Str → Bool)
    (hf : ∀ t, f t = false → bs "XPROPERTY" <+: t) : PropInv start (terms.filter f) (fun k v => P k v ∧ f (propTerm k v) = true) := by
  refine ⟨sorted_filter _ h.sorted, fun k v hp => h.key k v hp.1, ?_, ?_, ?_⟩
  · intro t ht hp
    rw [List.mem_filter] at ht
    obtain ⟨k, v, h1, rfl⟩ := h.only t ht.1 hp
    exact ⟨k, v, ⟨h1, ht.2⟩, rfl⟩
  · intro k v hp
    rw [List.mem_filter]
    exact ⟨h.all k v hp.1, hp.2⟩
  · intro t ht
    rw [List.mem_filter, h.other t ht]
    constructor
    · exact fun h => h.1
    · intro h1
      refine ⟨h1, ?_⟩
      cases e : f t
      · exact absurd (hf t e) ht
      · rfl

theorem PropInv.congr {start terms : List Str} {P Q : Str → Str → Prop} (h : PropInv start terms P) (e : ∀ k v, P k v ↔ Q k v) : PropInv start terms Q := by
  have : P = Q := by
    funext k v
    exact propext (e k v)
  exact this ▸ h

/-- `"key="` is a prefix of a property term only for that key. -/
theorem prefix_propTerm_key {k k' v' : Str} (hk : 61 ∉ k) (hk' : 61 ∉ k') : (bs "XPROPERTY" ++ k ++ bs "=") <+: propTerm k' v' ↔ k' = k := by
  constructor
  · rintro ⟨r, hr⟩
    have : propTerm k r = propTerm k' v' := by
      rw [← hr]; simp [propTerm, List.append_assoc]
    exact (propTerm_inj hk hk' this).1.symm
  · rintro rfl
    exact ⟨v', by simp [propTerm, List.append_assoc]⟩

theorem prefix_of_eq : ∀ {k k' v' : Str}, 61 ∉ k → (k <+: k' ++ bs "=" ++ v' ↔ k <+: k')
  | [], k', v', _ => by simp
  | a :: k, [], v', h => by
    rw [List.mem_cons, not_or] at h
    have e : bs "=" = [61] := by decide
    rw [e, List.nil_append, List.singleton_append, List.cons_prefix_cons]
    constructor
    · rintro ⟨rfl, _⟩; exact absurd rfl h.1
    · intro hh; simp at hh
  | a :: k, b :: k', v', h => by
    rw [List.mem_cons, not_or] at h
    rw [List.cons_append, List.cons_append, List.cons_prefix_cons, List.cons_prefix_cons, prefix_of_eq h.2]

theorem prefix_propTerm {k k' v' : Str} (hk : 61 ∉ k) : (bs "XPROPERTY" ++ k) <+: propTerm k' v' ↔ k <+: k' := by
  unfold propTerm
  rw [List.prefix_append_right_inj]
  exact prefix_of_eq hk

theorem PropInv.add {start terms : List Str} {P : Str → Str → Prop} (h : PropInv start terms P) (k v : Str) (hk : 61 ∉ k) :
    PropInv start (addTerm (propTerm k v) terms) (fun k' v' => P k' v' ∨ (k' = k ∧ v' = v)) := by
  refine ⟨sorted_addTerm h.sorted, ?_, ?_, ?_, ?_⟩
  · rintro k' v' (h1 | ⟨rfl, rfl⟩)
    · exact h.key _ _ h1
    · exact hk
  · intro t ht hp
    rcases mem_addTerm.1 ht with rfl | ht
    · exact ⟨k, v, .inr ⟨rfl, rfl⟩, rfl⟩
    · obtain ⟨k', v', h1, h2⟩ := h.only t ht hp
      exact ⟨k', v', .inl h1, h2⟩
  · rintro k' v' (h1 | ⟨rfl, rfl⟩)
    · exact mem_addTerm.2 (.inr (h.all _ _ h1))
    · exact mem_addTerm.2 (.inl rfl)
  · intro t ht
    rw [mem_addTerm, h.other t ht]
    constructor
    · rintro (rfl | h1)
      · exact absurd (propTerm_prefix k v) ht
      · exact h1
    · exact .inr

theorem PropInv.remove {start terms : List Str} {P : Str → Str → Prop} (h : PropInv start terms P) (k v : Str) (hk : 61 ∉ k) :
    PropInv start (removeTerm (propTerm k v) terms) (fun k' v' => P k' v' ∧ ¬ (k' = k ∧ v' = v)) := by
  have hf := h.filter (fun x => decide (x ≠ propTerm k v)) (by
    intro t ht
    simp only [ne_eq, decide_not, Bool.not_eq_false', decide_eq_true_eq] at ht
    subst ht
    exact propTerm_prefix k v)
  refine hf.congr ?_
  intro k' v'
  constructor
  · rintro ⟨h1, h2⟩
    refine ⟨h1, ?_⟩
    rintro ⟨rfl, rfl⟩
    simp at h2
  · rintro ⟨h1, h2⟩
    refine ⟨h1, ?_⟩
    simp only [ne_eq, decide_not, Bool.not_eq_true', decide_eq_false_iff_not]
    intro e
    exact h2 (propTerm_inj (h.key _ _ h1) hk e)

theorem PropInv.removePrefix {start terms : List Str} {P : Str → Str → Prop} (h : PropInv start terms P) (q : Str) :
    ∃ terms', removeTerms (bs "XPROPERTY" ++ q) (terms.length + 1) terms = some terms' ∧
      PropInv start terms' (fun k v => P k v ∧ ¬ (bs "XPROPERTY" ++ q) <+: propTerm k v) := by
  refine ⟨_, removeTerms_spec (Nat.lt_succ_self _) h.sorted, ?_⟩
  refine (h.filter _ ?_).congr ?_
  · intro t ht
    rw [Bool.not_eq_false', List.isPrefixOf_iff_prefix] at ht
    exact (List.prefix_append _ _).trans ht
  · intro k v
    rw [← List.isPrefixOf_iff_prefix, Bool.not_eq_true', Bool.not_eq_true]

theorem propInv_step {start terms terms' : List Str} {P : Str → Str → Prop} (h : PropInv start terms P) (op : PropOp) (hk : op.KeyOk)
    (he : op.exec terms = some terms') : PropInv start terms' (op.apply P) := by
  cases op with
  | add k v =>
    simp only [PropOp.exec, modifyProperty] at he
    by_cases h1 : 61 ∈ k
    · simp [h1] at he
    · by_cases h2 : (bs "XPROPERTY" ++ (k ++ bs "=" ++ v)).length > 245
      · rw [if_neg h1, if_pos h2] at he; simp at he
      · rw [if_neg h1, if_neg h2, if_neg (by simp)] at he
        simp only [Option.some.injEq] at he
        subst he
        exact h.add k v h1
  | remove k v =>
    simp only [PropOp.exec, modifyProperty] at he
    by_cases h1 : 61 ∈ k
    · simp [h1] at he
    · by_cases h2 : (bs "XPROPERTY" ++ (k ++ bs "=" ++ v)).length > 245
      · rw [if_neg h1, if_pos h2] at he; simp at he
      · rw [if_neg h1, if_neg h2, if_pos trivial] at he
        simp only [Option.some.injEq] at he
        subst he
        exact h.remove k v h1
  | removeAll k =>
    cases k with
    | none =>
      obtain ⟨t, h1, h2⟩ := h.removePrefix []
      simp only [PropOp.exec, removeAllProperties] at he
      rw [List.append_nil] at h1 h2
      rw [h1, Option.some.injEq] at he
      subst he
      refine h2.congr ?_
      intro k v
      simp only [PropOp.apply, iff_false]
      rintro ⟨_, h⟩
      exact h (propTerm_prefix k v)
    | some k =>
      obtain ⟨t, h1, h2⟩ := h.removePrefix (k ++ bs "=")
      simp only [PropOp.exec, removeAllProperties] at he
      rw [← List.append_assoc] at h1 h2
      rw [if_neg (by simp), h1, Option.some.injEq] at he
      subst he
      refine h2.congr ?_
      intro k' v
      simp only [PropOp.apply]
      constructor
      · rintro ⟨a, b⟩
        refine ⟨a, fun e => b ((prefix_propTerm_key hk (h.key _ _ a)).2 e)⟩
      · rintro ⟨a, b⟩
        exact ⟨a, fun e => b ((prefix_propTerm_key hk (h.key _ _ a)).1 e)⟩
  | removeAllWithPrefix k =>
    cases k with
    | none =>
      obtain ⟨t, h1, h2⟩ := h.removePrefix []
      simp only [PropOp.exec, removeAllProperties] at he
      rw [List.append_nil] at h1 h2
      rw [h1, Option.some.injEq] at he
      subst he
      refine h2.congr ?_
      intro k v
      simp only [PropOp.apply, iff_false]
      rintro ⟨_, h⟩
      exact h (propTerm_prefix k v)
    | some k =>
      obtain ⟨t, h1, h2⟩ := h.removePrefix k
      simp only [PropOp.exec, removeAllProperties] at he
      rw [if_pos trivial, List.append_nil, h1, Option.some.injEq] at he
      subst he
      refine h2.congr ?_
      intro k' v
      simp only [PropOp.apply, prefix_propTerm hk]

theorem propInv_history {start terms : List Str} {P : Str → Str → Prop} (hs : Sorted start) (hn : ∀ t ∈ start, ¬ bs "XPROPERTY" <+: t)
    (h : PropHistory start terms P) : PropInv start terms P := by
  induction h with
  | start => exact ⟨hs, fun _ _ h => h.elim, fun t ht hp => absurd hp (hn t ht), fun _ _ h => h.elim, fun _ _ => Iff.rfl⟩
  | step op _ hk he ih => exact propInv_step ih op hk he

/-! The map that is built from the terms. -/

theorem propertyMap_eq : ∀ (l : List Pair) (m : Map), (∀ p ∈ l, 61 ∉ p.1) →
    propertyMap (l.map (fun p => p.1 ++ bs "=" ++ p.2)) m = some (l.foldl (fun m p => StringMap.append m p.1 p.2) m)
  | [], m, _ => rfl
  | p :: l, m, h => by
    rw [List.map_cons, propertyMap, splitProperty_eq (h p (by simp))]
    exact propertyMap_eq l _ (fun q hq => h q (by simp [hq]))

theorem foldl_append_pairs : ∀ (l : List Pair) (m : Map), (l.foldl (fun m p => StringMap.append m p.1 p.2) m).pairs = m.pairs ++ l
  | [], m => by simp
  | p :: l, m => by rw [List.foldl_cons, foldl_append_pairs]; simp [StringMap.append]

theorem foldl_append_run (qs : List Pair → List Pair) : ∀ (l : List Pair) (m : Map),
    run qs m (l.map (fun p => Op.append p.1 p.2)) = some (l.foldl (fun m p => StringMap.append m p.1 p.2) m)
  | [], m => rfl
  | p :: l, m => by rw [List.map_cons, run, step, Option.bind_some, foldl_append_run]; rfl

theorem exists_pairs : ∀ (l : List Str), (∀ s ∈ l, ∃ k v, 61 ∉ k ∧ s = k ++ bs "=" ++ v) →
    ∃ ps : List Pair, l = ps.map (fun p => p.1 ++ bs "=" ++ p.2) ∧ ∀ p ∈ ps, 61 ∉ p.1
  | [], _ => ⟨[], rfl, by simp⟩
  | s :: l, h => by
    obtain ⟨ps, h1, h2⟩ := exists_pairs l (fun x hx => h x (by simp [hx]))
    obtain ⟨k, v, h3, h4⟩ := h s (by simp)
    refine ⟨(k, v) :: ps, by simp [h1, h4], ?_⟩
    intro p hp
    rcases List.mem_cons.1 hp with rfl | hp
    · exact h3
    · exact h2 p hp

theorem sorted_nodup {l : List Str} (h : Sorted l) : l.Nodup := by
  refine h.imp ?_
  rintro a b h rfl
  exact lt_irrefl' a h

/-- The map of a message with well-formed property terms. -/
theorem messageProperties_spec {start terms : List Str} {P : Str → Str → Prop} (h : PropInv start terms P) (qs : List Pair → List Pair) :
    ∃ (m : Map) (ops : List Op), messageProperties terms = some m ∧ run qs create ops = some m ∧ m.pairs.Nodup ∧ (∀ k v, (k, v) ∈ m.pairs ↔ P k v) ∧
      valuesWith (bs "XPROPERTY") terms = m.pairs.map (fun p => p.1 ++ bs "=" ++ p.2) ∧ ∀ p ∈ m.pairs, 61 ∉ p.1 := by
  obtain ⟨h1, _⟩ := @getTermsWithPrefix_spec (bs "XPROPERTY") terms terms h.sorted ⟨[], rfl, by simp⟩
  obtain ⟨ps, h2, h3⟩ := exists_pairs (valuesWith (bs "XPROPERTY") terms) (by
    intro s hs
    rw [mem_valuesWith] at hs
    obtain ⟨k, v, hp, e⟩ := h.only _ hs (List.prefix_append _ _)
    exact ⟨k, v, h.key _ _ hp, List.append_cancel_left e⟩)
  have hpairs : (ps.foldl (fun m p => StringMap.append m p.1 p.2) create).pairs = ps := by
    rw [foldl_append_pairs]; rfl
  refine ⟨_, _, ?_, foldl_append_run qs ps create, ?_, ?_, ?_, ?_⟩
  · unfold messageProperties
    rw [h1, h2, propertyMap_eq ps _ h3]
  · rw [hpairs]
    have := sorted_nodup (valuesWith_sorted (p := bs "XPROPERTY") h.sorted)
    rw [h2] at this
    exact List.Pairwise.of_map _ (fun a b h1 h2 => h1 (by rw [h2])) this
  · intro k v
    rw [hpairs]
    constructor
    · intro hm
      have : propTerm k v ∈ terms := mem_valuesWith.1 (by rw [h2]; exact List.mem_map.2 ⟨(k, v), hm, rfl⟩)
      obtain ⟨k', v', h4, h5⟩ := h.only _ this (propTerm_prefix k v)
      obtain ⟨rfl, rfl⟩ := propTerm_inj (h3 _ hm) (h.key _ _ h4) h5
      exact h4
    · intro hp
      have : k ++ bs "=" ++ v ∈ valuesWith (bs "XPROPERTY") terms := mem_valuesWith.2 (h.all _ _ hp)
      rw [h2, List.mem_map] at this
      obtain ⟨⟨k', v'⟩, h4, h5⟩ := this
      obtain ⟨rfl, rfl⟩ := propTerm_inj (k := k') (v := v') (h3 _ h4) (h.key _ _ hp) (by unfold propTerm; rw [← h5])
      exact h4
  · rw [hpairs, h2]
  · rw [hpairs]; exact h3

/-! ## Indexing again -/

theorem mem_foldl_addTerm {α : Type} (f : α → Str) : ∀ (l : List α) (d : List Str) (x : Str), x ∈ l.foldl (fun d a => addTerm (f a) d) d ↔ x ∈ d ∨ ∃ a ∈ l, x = f a
  | [], d, x => by simp
  | a :: l, d, x => by
    rw [List.foldl_cons, mem_foldl_addTerm f l, mem_addTerm]
    simp only [List.mem_cons]
    constructor
    · rintro ((h | h) | ⟨b, h, e⟩)
      · exact .inr ⟨a, .inl rfl, h⟩
      · exact .inl h
      · exact .inr ⟨b, .inr h, e⟩
    · rintro (h | ⟨b, (rfl | h), e⟩)
      · exact .inl (.inr h)
      · exact .inl (.inl e)
      · exact .inr ⟨b, h, e⟩

theorem sorted_foldl_addTerm {α : Type} (f : α → Str) : ∀ (l : List α) (d : List Str), Sorted d → Sorted (l.foldl (fun d a => addTerm (f a) d) d)
  | [], _, h => h
  | a :: l, d, h => by rw [List.foldl_cons]; exact sorted_foldl_addTerm f l _ (sorted_addTerm h)

theorem mem_removeIndexedTerms (id : Str) (tags : List Str) (ps : List Pair) (x : Str) : x ∈ removeIndexedTerms id tags ps ↔
    x = bs "Tmail" ∨ x = bs "Q" ++ id ∨ (∃ t ∈ tags, automaticTag t = false ∧ x = bs "K" ++ t) ∨ ∃ p ∈ ps, x = bs "XPROPERTY" ++ p.1 ++ bs "=" ++ p.2 := by
  have e : bs "T" ++ bs "mail" = bs "Tmail" := by decide
  unfold removeIndexedTerms
  simp only [mem_foldl_addTerm (fun p : Pair => bs "XPROPERTY" ++ p.1 ++ bs "=" ++ p.2), mem_foldl_addTerm (fun t => bs "K" ++ t), mem_addTerm, e, List.not_mem_nil, or_false,
    List.mem_filter, Bool.not_eq_true']
  constructor
  · rintro (((h | h) | ⟨t, ⟨h1, h2⟩, h3⟩) | h)
    · exact .inr (.inl h)
    · exact .inl h
    · exact .inr (.inr (.inl ⟨t, h1, h2, h3⟩))
    · exact .inr (.inr (.inr h))
  · rintro (h | h | ⟨t, h1, h2, h3⟩ | h)
    · exact .inl (.inl (.inr h))
    · exact .inl (.inl (.inl h))
    · exact .inl (.inr ⟨t, ⟨h1, h2⟩, h3⟩)
    · exact .inr h

theorem sorted_removeIndexedTerms (id : Str) (tags : List Str) (ps : List Pair) : Sorted (removeIndexedTerms id tags ps) := by
  unfold removeIndexedTerms
  exact sorted_foldl_addTerm _ _ _ (sorted_foldl_addTerm _ _ _ (sorted_addTerm (sorted_addTerm List.Pairwise.nil)))

/-- Two documents with the same terms are the same. -/
theorem sorted_ext {a b : List Str} (ha : Sorted a) (hb : Sorted b) (h : ∀ x, x ∈ a ↔ x ∈ b) : a = b := by
  have le : ∀ {l : List Str}, Sorted l → l.Pairwise (fun a b => strcmp a b ≠ .gt) := by
    intro l h
    refine h.imp ?_
    intro a b h h2
    rw [h] at h2; cases h2
  exact sorted_eq (le ha) (le hb) ((List.perm_ext_iff_of_nodup (sorted_nodup ha) (sorted_nodup hb)).2 h)

/-! ## Prefixes -/

/-- The prefixes of the table that are not empty. -/
def prefixes : List Str := prefixTable.filterMap (fun e => e.2.filter (· ≠ []))

theorem prefixes_free : ∀ p ∈ prefixes, ∀ q ∈ prefixes, p.isPrefixOf q = true → p = q := by decide +kernel

theorem prefixes_user : ∀ p ∈ prefixes, p.isPrefixOf (bs "XU") = false ∧ (bs "XU").isPrefixOf p = false := by decide +kernel

theorem comparable {a b x y : Str} (h : a ++ x = b ++ y) : a <+: b ∨ b <+: a :=
  List.prefix_or_prefix_of_prefix ⟨x, rfl⟩ ⟨y, h.symm⟩

theorem findPrefix_mem {n p : Str} (h : findPrefix n = some (some p)) (hp : p ≠ []) : p ∈ prefixes := by
  unfold findPrefix at h
  rw [Option.map_eq_some_iff] at h
  obtain ⟨e, h1, h2⟩ := h
  have hm := List.mem_of_find?_eq_some h1
  unfold prefixes
  rw [List.mem_filterMap]
  refine ⟨e, hm, ?_⟩
  rw [h2, Option.filter_some, if_pos (by simp [hp])]

theorem prefix_colon : ∀ {n m : Str}, 58 ∉ m → n ++ bs ":" <+: m ++ bs ":" → n = m := by
  have e : bs ":" = [58] := by decide
  rw [e]
  intro n
  induction n with
  | nil =>
    intro m h h2
    cases m with
    | nil => rfl
    | cons a m =>
      rw [List.nil_append, List.cons_append, List.cons_prefix_cons] at h2
      rw [h2.1] at h
      simp at h
  | cons a n ih =>
    intro m h h2
    cases m with
    | nil =>
      rw [List.nil_append, List.cons_append, List.cons_prefix_cons] at h2
      exact absurd h2.2 (by simp)
    | cons b m =>
      rw [List.cons_append, List.cons_append, List.cons_prefix_cons] at h2
      rw [List.mem_cons, not_or] at h
      rw [h2.1, ih h.2 h2.2]

end Notmuch.TermList
