import Verif.Proofs.Reindex

/-! # Reindexing: the message after it -/

namespace Notmuch.Reindex

open Notmuch.TermList
open Notmuch.Message

theorem reserved_eq {p q v y : Str} (hp : p ∈ reserved) (hq : q ∈ reserved) (h : p ++ v = q ++ y) : p = q ∧ v = y := by
  have key : ∀ p ∈ reserved, ∀ q ∈ reserved, p.isPrefixOf q = true → p = q := by decide +kernel
  have : p = q := by
    rcases comparable h with h | h
    · exact key p hp q hq (List.isPrefixOf_iff_prefix.2 h)
    · exact (key q hq p hp (List.isPrefixOf_iff_prefix.2 h)).symm
  subst this
  exact ⟨rfl, List.append_cancel_left h⟩

theorem not_reserved {p c v y : Str} (hp : p ∈ reserved) (hc : ∀ p ∈ reserved, p.isPrefixOf c = false ∧ c.isPrefixOf p = false) : p ++ v ≠ c ++ y := by
  intro h
  rcases comparable h with h | h
  · rw [← List.isPrefixOf_iff_prefix, (hc p hp).1] at h; cases h
  · rw [← List.isPrefixOf_iff_prefix, (hc p hp).2] at h; cases h

theorem wanted_reserved {W : World} {nd : Bool} {m : Msg} {os : List (Str × Mail)} (hok : ∀ o ∈ os, o.2.Ok W) (hpl : ∀ o ∈ os, o.2.Plain) {t : Str}
    (hth : ∀ o ∈ os, o.2.thread.getD m.thread = t) (hne : os ≠ []) {p v : Str} (hp : p ∈ reserved) :
    Wanted W nd m os (p ++ v) ↔ p ++ v = bs "T" ++ bs "mail" ∨ p ++ v = bs "Q" ++ m.id ∨ (∃ t', (after nd m os t).tags t' ∧ p ++ v = bs "K" ++ t') ∨
      (∃ k w, (after nd m os t).props k w ∧ p ++ v = bs "XPROPERTY" ++ (k ++ bs "=" ++ w)) ∨ (∃ e, (after nd m os t).files e ∧ p ++ v = bs "XFDIRENTRY" ++ e) ∨ p ++ v = bs "G" ++ t := by
  have hfold : ∀ y, p ++ v ≠ bs "XFOLDER:" ++ y := fun y => not_reserved hp (by decide +kernel)
  have hpath : ∀ y, p ++ v ≠ bs "P" ++ y := fun y => not_reserved hp (by decide +kernel)
  unfold Wanted
  rw [show bs "T" ++ bs "mail" = bs "Tmail" by decide]
  constructor
  · rintro (h | h | ⟨t', h1, h2, h3⟩ | ⟨k, w, h1, h2⟩ | ⟨o, ho, h⟩)
    · exact .inl h
    · exact .inr (.inl h)
    · exact .inr (.inr (.inl ⟨t', .inl ⟨h1, h2⟩, h3⟩))
    · exact .inr (.inr (.inr (.inl ⟨k, w, .inl h1, by rw [h2]; simp⟩)))
    · rcases h with ⟨_, _, d, _, _, h | h | ⟨q, _, h⟩⟩ | ⟨l, hl, h, _⟩ | h | ⟨a, ha, h⟩
      · exact .inr (.inr (.inr (.inr (.inl ⟨o.2.entry, ⟨o, ho, rfl⟩, h⟩))))
      · exact absurd h (hfold _)
      · exact absurd h (hpath _)
      · exact absurd ⟨v, h⟩ ((hpl o ho).links l hl p hp)
      · rw [hth o ho] at h; exact .inr (.inr (.inr (.inr (.inr h))))
      · have hpa := (hpl o ho).index a ha
        cases a with
        | term n v' =>
          rcases hpa with rfl | hpa
          · have h := h.1
            rw [prefix_tag] at h
            exact .inr (.inr (.inl ⟨v', .inr ⟨o, ho, ha⟩, h⟩))
          · exact absurd ⟨v, h.1⟩ (hpa p hp)
        | text w => exact absurd ⟨v, h⟩ (hpa.2 p hp)
        | prop k w => exact .inr (.inr (.inr (.inl ⟨k, w, .inr ⟨o, ho, ha⟩, by rw [show p ++ v = _ from h]; simp⟩)))
  · rintro (h | h | ⟨t', h1 | ⟨o, ho, h1⟩, h3⟩ | ⟨k, w, h1 | ⟨o, ho, h1⟩, h2⟩ | ⟨e, ⟨o, ho, rfl⟩, h⟩ | h)
    · exact .inl h
    · exact .inr (.inl h)
    · exact .inr (.inr (.inl ⟨t', h1.1, h1.2, h3⟩))
    · refine .inr (.inr (.inr (.inr ⟨o, ho, .inr (.inr (.inr ⟨_, h1, ?_, ?_⟩))⟩)))
      · rw [prefix_tag]; exact h3
      · rw [h3, ← prefix_tag]; exact (hok o ho).terms _ _ h1
    · exact .inr (.inr (.inr (.inl ⟨k, w, h1, by rw [h2]; simp⟩)))
    · exact .inr (.inr (.inr (.inr ⟨o, ho, .inr (.inr (.inr ⟨_, h1, by show _ = _; rw [h2]; simp⟩))⟩)))
    · obtain ⟨f, id, base, d, he, hd, _⟩ := (hok o ho).dir
      exact .inr (.inr (.inr (.inr ⟨o, ho, .inl ⟨id, base, d, he, hd, .inl h⟩⟩)))
    · obtain ⟨o, os', rfl⟩ := List.exists_cons_of_ne_nil hne
      refine .inr (.inr (.inr (.inr ⟨o, by simp, .inr (.inr (.inl ?_))⟩)))
      rw [hth o (by simp)]; exact h

theorem wanted_short {W : World} (hW : W.Ok) {nd : Bool} {m : Msg} {T : List Str} (hm : Holds W T m) {os : List (Str × Mail)} (hok : ∀ o ∈ os, o.2.Ok W) (hpl : ∀ o ∈ os, o.2.Plain) {x : Str}
    (h : Wanted W nd m os x) : x.length ≤ 245 := by
  have hid : m.id ∈ valuesWith (bs "Q") T := by rw [hm.id]; simp
  have hth := thread_short hm
  rcases h with rfl | rfl | ⟨t, h1, _, rfl⟩ | ⟨k, w, h1, rfl⟩ | ⟨o, ho, h⟩
  · decide
  · exact hm.short _ (mem_valuesWith.1 hid)
  · exact hm.short _ ((hm.tags t).2 h1)
  · refine hm.short _ ?_
    rw [List.append_assoc, List.append_assoc, hm.props]
    exact ⟨k, w, h1.1, by simp⟩
  · have ok := hok o ho
    rcases h with ⟨id, base, d, he, hd, rfl | rfl | ⟨q, hq, rfl⟩⟩ | ⟨l, hl, _, h⟩ | rfl | ⟨a, ha, h⟩
    · have := ok.entry
      rw [List.length_append, show (bs "XFDIRENTRY").length = 10 by decide +kernel]; omega
    · have := hW.folder id d hd
      rw [List.length_append, show (bs "XFOLDER:").length = 8 by decide +kernel]; omega
    · have := hW.paths id d hd q hq
      rw [List.length_append, show (bs "P").length = 1 by decide +kernel]; omega
    · exact h
    · have : (o.2.thread.getD m.thread).length ≤ 244 := by
        cases e : o.2.thread with
        | none => exact hth
        | some t => exact ok.thread t e
      rw [List.length_append, show (bs "G").length = 1 by decide +kernel]; omega
    · cases a with
      | term n v => exact h.2
      | text w => obtain rfl := h; exact ((hpl o ho).index _ ha).1
      | prop k v =>
        obtain rfl := h
        have := (ok.props k v ha).2
        simp only [List.length_append, show (bs "XPROPERTY").length = 9 by decide +kernel, show (bs "=").length = 1 by decide +kernel]
        omega

theorem values_one {p v : Str} {terms : List Str} (hs : Sorted terms) (h : ∀ x, p ++ x ∈ terms ↔ x = v) : valuesWith p terms = [v] :=
  sorted_ext (valuesWith_sorted hs) (List.pairwise_singleton _ _) (fun x => by rw [mem_valuesWith, h]; simp)

/-- The document is that of the message after reindexing. -/
theorem wanted_holds {W : World} (hW : W.Ok) {nd : Bool} {m : Msg} {T : List Str} (hm : Holds W T m) {os : List (Str × Mail)} (hok : ∀ o ∈ os, o.2.Ok W) (hpl : ∀ o ∈ os, o.2.Plain) {t : Str}
    (hth : ∀ o ∈ os, o.2.thread.getD m.thread = t) (hne : os ≠ []) {terms : List Str} (hs : Sorted terms) (hmem : ∀ x, x ∈ terms ↔ Wanted W nd m os x) :
    Holds W terms (after nd m os t) := by
  have key : ∀ {p v : Str}, p ∈ reserved → (p ++ v ∈ terms ↔ _) := fun hp => (hmem _).trans (wanted_reserved hok hpl hth hne hp)
  have rQ : bs "Q" ∈ reserved := by decide
  have rG : bs "G" ∈ reserved := by decide
  have rT : bs "T" ∈ reserved := by decide
  have rK : bs "K" ∈ reserved := by decide
  have rP : bs "XPROPERTY" ∈ reserved := by decide
  have rF : bs "XFDIRENTRY" ∈ reserved := by decide
  have kp : ∀ k v, (after nd m os t).props k v → 61 ∉ k := by
    rintro k v (h | ⟨o, ho, h⟩)
    · exact hm.propKeys k v h.1
    · exact ((hok o ho).props k v h).1
  refine ⟨hs, fun x h => wanted_short hW hm hok hpl ((hmem x).1 h), ?_, ?_, ?_, ?_, kp, ?_, ?_, ?_⟩
  · refine values_one hs (fun x => ?_)
    rw [key rQ]
    constructor
    · rintro (h | h | ⟨y, _, h⟩ | ⟨y, z, _, h⟩ | ⟨y, _, h⟩ | h)
      · exact absurd (reserved_eq rQ rT h).1 (by decide)
      · exact (reserved_eq rQ rQ h).2
      · exact absurd (reserved_eq rQ rK h).1 (by decide)
      · exact absurd (reserved_eq rQ rP h).1 (by decide)
      · exact absurd (reserved_eq rQ rF h).1 (by decide)
      · exact absurd (reserved_eq rQ rG h).1 (by decide)
    · rintro rfl; exact .inr (.inl rfl)
  · refine values_one hs (fun x => ?_)
    rw [key rG]
    constructor
    · rintro (h | h | ⟨y, _, h⟩ | ⟨y, z, _, h⟩ | ⟨y, _, h⟩ | h)
      · exact absurd (reserved_eq rG rT h).1 (by decide)
      · exact absurd (reserved_eq rG rQ h).1 (by decide)
      · exact absurd (reserved_eq rG rK h).1 (by decide)
      · exact absurd (reserved_eq rG rP h).1 (by decide)
      · exact absurd (reserved_eq rG rF h).1 (by decide)
      · exact (reserved_eq rG rG h).2
    · rintro rfl; exact .inr (.inr (.inr (.inr (.inr rfl))))
  · refine values_one hs (fun x => ?_)
    rw [key rT]
    constructor
    · rintro (h | h | ⟨y, _, h⟩ | ⟨y, z, _, h⟩ | ⟨y, _, h⟩ | h)
      · exact (reserved_eq rT rT h).2
      · exact absurd (reserved_eq rT rQ h).1 (by decide)
      · exact absurd (reserved_eq rT rK h).1 (by decide)
      · exact absurd (reserved_eq rT rP h).1 (by decide)
      · exact absurd (reserved_eq rT rF h).1 (by decide)
      · exact absurd (reserved_eq rT rG h).1 (by decide)
    · rintro rfl; exact .inl rfl
  · intro x
    rw [key rK]
    constructor
    · rintro (h | h | ⟨y, hy, h⟩ | ⟨y, z, _, h⟩ | ⟨y, _, h⟩ | h)
      · exact absurd (reserved_eq rK rT h).1 (by decide)
      · exact absurd (reserved_eq rK rQ h).1 (by decide)
      · rw [(reserved_eq rK rK h).2]; exact hy
      · exact absurd (reserved_eq rK rP h).1 (by decide)
      · exact absurd (reserved_eq rK rF h).1 (by decide)
      · exact absurd (reserved_eq rK rG h).1 (by decide)
    · intro h; exact .inr (.inr (.inl ⟨x, h, rfl⟩))
  · intro x
    rw [key rP]
    constructor
    · rintro (h | h | ⟨y, _, h⟩ | ⟨y, z, hy, h⟩ | ⟨y, _, h⟩ | h)
      · exact absurd (reserved_eq rP rT h).1 (by decide)
      · exact absurd (reserved_eq rP rQ h).1 (by decide)
      · exact absurd (reserved_eq rP rK h).1 (by decide)
      · exact ⟨y, z, hy, (reserved_eq rP rP h).2⟩
      · exact absurd (reserved_eq rP rF h).1 (by decide)
      · exact absurd (reserved_eq rP rG h).1 (by decide)
    · rintro ⟨k, v, h, rfl⟩; exact .inr (.inr (.inr (.inl ⟨k, v, h, rfl⟩)))
  · intro x
    rw [key rF]
    constructor
    · rintro (h | h | ⟨y, _, h⟩ | ⟨y, z, _, h⟩ | ⟨y, hy, h⟩ | h)
      · exact absurd (reserved_eq rF rT h).1 (by decide)
      · exact absurd (reserved_eq rF rQ h).1 (by decide)
      · exact absurd (reserved_eq rF rK h).1 (by decide)
      · exact absurd (reserved_eq rF rP h).1 (by decide)
      · rw [(reserved_eq rF rF h).2]; exact hy
      · exact absurd (reserved_eq rF rG h).1 (by decide)
    · intro h; exact .inr (.inr (.inr (.inr (.inl ⟨x, h, rfl⟩))))
  · rintro e ⟨o, ho, rfl⟩
    exact (hok o ho).dir

/-- The names of the files of the message after reindexing. -/
theorem fileNames_after {W : World} {nd : Bool} {m : Msg} {os : List (Str × Mail)} (hn : ∀ o ∈ os, nameOf W o.2.entry o.1) (hne : os ≠ []) {t : Str} {l : List Str}
    (h : FileNames W (after nd m os t) l) (f : Str) : f ∈ l ↔ ∃ o ∈ os, o.1 = f := by
  obtain ⟨es, _, hm, ⟨h1, _⟩ | ⟨_, hlen, hi⟩⟩ := h
  · obtain ⟨o, os', rfl⟩ := List.exists_cons_of_ne_nil hne
    have := (hm o.2.entry).2 ⟨o, by simp, rfl⟩
    rw [h1] at this; cases this
  · constructor
    · intro hf
      obtain ⟨i, hi', rfl⟩ := List.getElem_of_mem hf
      have he : es[i]? = some es[i] := List.getElem?_eq_getElem (by omega)
      obtain ⟨o, ho, he'⟩ := (hm es[i]).1 (List.getElem_mem _)
      refine ⟨o, ho, ?_⟩
      have := hi i _ _ he (List.getElem?_eq_getElem hi')
      rw [← he'] at this
      exact nameOf_unique (hn o ho) this
    · rintro ⟨o, ho, rfl⟩
      obtain ⟨i, hi', he⟩ := List.getElem_of_mem ((hm o.2.entry).2 ⟨o, ho, rfl⟩)
      have hl : i < l.length := by omega
      have := hi i _ _ (List.getElem?_eq_getElem hi') (List.getElem?_eq_getElem hl)
      rw [he] at this
      rw [nameOf_unique (hn o ho) this]
      exact List.getElem_mem _

/-- The same terms are wanted. -/
theorem wanted_again {W : World} {nd : Bool} {m : Msg} {os os' : List (Str × Mail)} (hok : ∀ o ∈ os, o.2.Ok W) {t : Str} (hth : ∀ o ∈ os, o.2.thread.getD m.thread = t)
    (hos : ∀ o, o ∈ os' ↔ o ∈ os) (x : Str) : Wanted W nd (after nd m os t) os' x ↔ Wanted W nd m os x := by
  have hg : ∀ o ∈ os, (o.2.gives W t x ↔ o.2.gives W m.thread x) := by
    intro o ho
    have h1 : o.2.thread.getD t = t := by
      have := hth o ho
      cases e : o.2.thread with
      | none => rfl
      | some t' => rw [e] at this; exact this
    unfold Mail.gives
    rw [h1, hth o ho]
  unfold Wanted
  constructor
  · rintro (h | h | ⟨t', h1 | ⟨o, ho, h1⟩, h2, h3⟩ | ⟨k, v, ⟨h1 | ⟨o, ho, h1⟩, h2⟩, h3⟩ | ⟨o, ho, h⟩)
    · exact .inl h
    · exact .inr (.inl h)
    · exact .inr (.inr (.inl ⟨t', h1.1, h1.2, h3⟩))
    · refine .inr (.inr (.inr (.inr ⟨o, ho, .inr (.inr (.inr ⟨_, h1, ?_, ?_⟩))⟩)))
      · rw [prefix_tag]; exact h3
      · rw [h3, ← prefix_tag]; exact (hok o ho).terms _ _ h1
    · exact .inr (.inr (.inr (.inl ⟨k, v, h1, h3⟩)))
    · exact .inr (.inr (.inr (.inr ⟨o, ho, .inr (.inr (.inr ⟨_, h1, h3⟩))⟩)))
    · exact .inr (.inr (.inr (.inr ⟨o, (hos o).1 ho, (hg o ((hos o).1 ho)).1 h⟩)))
  · rintro (h | h | ⟨t', h1, h2, h3⟩ | ⟨k, v, h1, h3⟩ | ⟨o, ho, h⟩)
    · exact .inl h
    · exact .inr (.inl h)
    · exact .inr (.inr (.inl ⟨t', .inl ⟨h1, h2⟩, h2, h3⟩))
    · exact .inr (.inr (.inr (.inl ⟨k, v, ⟨.inl h1, h1.2⟩, h3⟩)))
    · exact .inr (.inr (.inr (.inr ⟨o, (hos o).2 ho, (hg o ho).2 h⟩)))

end Notmuch.Reindex
