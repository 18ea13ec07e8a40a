import Verif.Proofs.TermList
import Verif.Props.StringMap

/-! # C36, C37: the terms of a document, the properties of a message -/

namespace Notmuch.Props
open Notmuch.TermList Notmuch.StringMap Notmuch.StringMapSpec

/-! ## C36 -/

/-- Two fields of the prefix table (other than the body, which has the empty prefix) never give the same term,
whatever the values: then they have the same prefix (`tag` and `is`, `id` and `mid`) and the values are equal. -/
theorem C36_prefixes {n1 n2 p1 p2 v1 v2 : Str} (h1 : findPrefix n1 = some (some p1)) (h2 : findPrefix n2 = some (some p2))
    (e1 : p1 ≠ []) (e2 : p2 ≠ []) (h : p1 ++ v1 = p2 ++ v2) : p1 = p2 ∧ v1 = v2 := by
  have m1 := findPrefix_mem h1 e1
  have m2 := findPrefix_mem h2 e2
  have hp : p1 = p2 := by
    rcases comparable h with hc | hc
    · exact prefixes_free _ m1 _ m2 (List.isPrefixOf_iff_prefix.2 hc)
    · exact (prefixes_free _ m2 _ m1 (List.isPrefixOf_iff_prefix.2 hc)).symm
  subst hp
  exact ⟨rfl, List.append_cancel_left h⟩

/-- Every name of a field has its own prefix, but for the two pairs of names for the same field. -/
theorem C36_names {n1 n2 p : Str} (h1 : findPrefix n1 = some (some p)) (h2 : findPrefix n2 = some (some p)) :
    n1 = n2 ∨ (n1 = bs "tag" ∧ n2 = bs "is") ∨ (n1 = bs "is" ∧ n2 = bs "tag") ∨ (n1 = bs "id" ∧ n2 = bs "mid") ∨ (n1 = bs "mid" ∧ n2 = bs "id") := by
  have key : ∀ a ∈ prefixTable, ∀ b ∈ prefixTable, a.2 ≠ none → a.2 = b.2 →
      a.1 = b.1 ∨ (a.1 = bs "tag" ∧ b.1 = bs "is") ∨ (a.1 = bs "is" ∧ b.1 = bs "tag") ∨ (a.1 = bs "id" ∧ b.1 = bs "mid") ∨ (a.1 = bs "mid" ∧ b.1 = bs "id") := by
    decide +kernel
  have get : ∀ n, findPrefix n = some (some p) → ∃ a ∈ prefixTable, a.1 = n ∧ a.2 = some p := by
    intro n h
    unfold findPrefix at h
    rw [Option.map_eq_some_iff] at h
    obtain ⟨e, h1, h2⟩ := h
    exact ⟨e, List.mem_of_find?_eq_some h1, by simpa using List.find?_some h1, h2⟩
  obtain ⟨a, ha, rfl, ha2⟩ := get n1 h1
  obtain ⟨b, hb, rfl, hb2⟩ := get n2 h2
  exact key a ha b hb (by rw [ha2]; simp) (by rw [ha2, hb2])

/-- The term of a header the user configured is never a term of another field. -/
theorem C36_user_other {n name p v w : Str} (h : findPrefix n = some (some p)) (hp : p ≠ []) : p ++ v ≠ userPrefix name ++ w := by
  intro e
  obtain ⟨a, b⟩ := prefixes_user p (findPrefix_mem h hp)
  unfold userPrefix at e
  rw [List.append_assoc, List.append_assoc] at e
  rcases comparable e with hc | hc
  · rw [← List.isPrefixOf_iff_prefix, a] at hc; cases hc
  · rw [← List.isPrefixOf_iff_prefix, b] at hc; cases hc

/-- Two headers the user configured never give the same term, if there is no colon in their names. -/
theorem C36_user_user {n1 n2 v1 v2 : Str} (h1 : 58 ∉ n1) (h2 : 58 ∉ n2) (h : userPrefix n1 ++ v1 = userPrefix n2 ++ v2) : n1 = n2 ∧ v1 = v2 := by
  have hn : n1 = n2 := by
    have hc := comparable h
    unfold userPrefix at hc
    simp only [List.append_assoc, List.prefix_append_right_inj] at hc
    rcases hc with hc | hc
    · exact prefix_colon h2 hc
    · exact (prefix_colon h1 hc).symm
  subst hn
  exact ⟨rfl, List.append_cancel_left h⟩

/-- With a colon in the name they do (the configuration does not refuse it). -/
theorem C36_user_colon : ∃ n1 n2 v1 v2, n1 ≠ n2 ∧ userPrefix n1 ++ v1 = userPrefix n2 ++ v2 :=
  ⟨bs "List", bs "List:Id", bs "Id:x", bs "x", by decide, by decide⟩

/-- All terms with a prefix start with one of six capital letters or are user-defined (`X`): words of a body that
start with another byte are not mistaken for a field. -/
theorem C36_body {n p v : Str} {c : UInt8} {w : Str} (h : findPrefix n = some (some p)) (hp : p ≠ []) (hc : c ∉ bs "TXGKQP") : p ++ v ≠ c :: w := by
  intro e
  have key : ∀ p ∈ prefixes, ∃ a r, p = a :: r ∧ a ∈ bs "TXGKQP" := by
    intro p hp
    have : ∀ p ∈ prefixes, (match p with | [] => false | a :: _ => decide (a ∈ bs "TXGKQP")) = true := by decide +kernel
    have := this p hp
    cases p with
    | nil => simp at this
    | cons a r => exact ⟨a, r, rfl, by simpa using this⟩
  obtain ⟨a, r, rfl, ha⟩ := key p (findPrefix_mem h hp)
  rw [List.cons_append, List.cons.injEq] at e
  exact hc (e.1 ▸ ha)

example : findPrefix (bs "tag") = some (some (bs "K")) ∧ findPrefix (bs "folder") = some (some (bs "XFOLDER:")) := by decide
example : userPrefix (bs "List") = bs "XUList:" := by decide

/-- `valuesWith` is what its name says, in order and without repetition. -/
theorem C36_values {p : Str} {terms : List Str} (hs : Sorted terms) :
    (∀ v, v ∈ valuesWith p terms ↔ p ++ v ∈ terms) ∧ (valuesWith p terms).Nodup ∧ Sorted (valuesWith p terms) :=
  ⟨fun _ => mem_valuesWith, sorted_nodup (valuesWith_sorted hs), valuesWith_sorted hs⟩

/-- Reading the metadata of a message: every field that was read before stays, every other is exactly what the
document has for it, whatever else the document has and whichever fields were there before. -/
theorem C36_read {sortTags : List Str → List Str} (hst : SortsTags sortTags) {terms : List Str} (hs : Sorted terms) (m m' : Metadata)
    (h : ensureMetadata sortTags terms m = some m') :
    m'.threadId = m.threadId.or (valuesWith (bs "G") terms).head? ∧
    m'.messageId = m.messageId.or (valuesWith (bs "Q") terms).head? ∧
    m'.inReplyTo = some ((m.inReplyTo.or (valuesWith (bs "XREPLYTO") terms).head?).getD []) ∧
    m'.tagList = some (m.tagList.getD (valuesWith (bs "K") terms)) ∧
    m'.filenameTermList = some (m.filenameTermList.getD (valuesWith (bs "XFDIRENTRY") terms)) ∧
    m'.propertyTermList = some (m.propertyTermList.getD (valuesWith (bs "XPROPERTY") terms)) ∧
    m'.referenceList = some (m.referenceList.getD (valuesWith (bs "XREFERENCE") terms)) ∧
    (m.ghost = none → ∀ t, valuesWith (bs "T") terms = [t] → (m'.ghost = some true ↔ t = bs "ghost") ∧ (m'.ghost = some false ↔ t = bs "mail")) ∧
    (∀ g, m.ghost = some g → m'.ghost = some g) := by
  rw [ensureMetadata_spec hst hs m, Option.map_eq_some_iff] at h
  obtain ⟨g, hg, rfl⟩ := h
  refine ⟨rfl, rfl, rfl, rfl, rfl, rfl, rfl, ?_, ?_⟩
  · intro hn t ht
    rw [hn, Option.none_or, ghostOf, ht] at hg
    simp only [List.head?_cons] at hg
    split at hg
    · rename_i h1
      cases hg
      subst h1
      exact (by decide : ((some false = some true ↔ bs "mail" = bs "ghost") ∧ (some false = some false ↔ bs "mail" = bs "mail")))
    · split at hg
      · rename_i h1 h2
        cases hg
        subst h2
        exact (by decide : ((some true = some true ↔ bs "ghost" = bs "ghost") ∧ (some true = some false ↔ bs "ghost" = bs "mail")))
      · cases hg
  · intro g' hg'
    rw [hg', Option.some_or] at hg
    exact hg.symm

/-- Reading succeeds for every document of a message, ghost or not. -/
theorem C36_read_succeeds {sortTags : List Str → List Str} (hst : SortsTags sortTags) {terms : List Str} (hs : Sorted terms) (m : Metadata)
    (ht : valuesWith (bs "T") terms = [bs "mail"] ∨ valuesWith (bs "T") terms = [bs "ghost"]) : ∃ m', ensureMetadata sortTags terms m = some m' := by
  rw [ensureMetadata_spec hst hs m]
  have : ∃ g, ghostOf terms = some g := by
    unfold ghostOf
    rcases ht with h | h <;> rw [h]
    · exact ⟨false, by decide⟩
    · exact ⟨true, by decide⟩
  obtain ⟨g, hg⟩ := this
  cases h : m.ghost with
  | none => exact ⟨_, by rw [Option.none_or, hg]; rfl⟩
  | some g => exact ⟨_, by rw [Option.some_or]; rfl⟩

example : Sorted [bs "Gt1", bs "Kinbox", bs "Kunread", bs "Qid@x", bs "Tmail", bs "XFDIRENTRY3:a", bs "XPROPERTYk=v", bs "hello"] := by
  unfold Sorted; decide +kernel

/-- Removing the terms of a field: the loop ends and takes exactly the terms with the prefix. -/
theorem C36_remove_terms {terms : List Str} (hs : Sorted terms) (p : Str) :
    ∃ terms', removeTerms p (terms.length + 1) terms = some terms' ∧ Sorted terms' ∧ ∀ t, t ∈ terms' ↔ t ∈ terms ∧ ¬ p <+: t := by
  refine ⟨_, removeTerms_spec (Nat.lt_succ_self _) hs, sorted_filter _ hs, ?_⟩
  intro t
  rw [List.mem_filter, Bool.not_eq_true', ← Bool.not_eq_true, List.isPrefixOf_iff_prefix]

/-- Removing the terms of one field of the table leaves all values of every other field. -/
theorem C36_remove_terms_other {terms terms' : List Str} (hs : Sorted terms) {n n2 p q : Str} (hp : findPrefix n = some (some p)) (hq : findPrefix n2 = some (some q))
    (e1 : p ≠ []) (e2 : q ≠ []) (hne : p ≠ q) (h : removeTerms p (terms.length + 1) terms = some terms') :
    valuesWith p terms' = [] ∧ valuesWith q terms' = valuesWith q terms := by
  obtain ⟨t2, h1, h2, h3⟩ := C36_remove_terms hs p
  rw [h, Option.some.injEq] at h1
  subst h1
  constructor
  · apply valuesWith_nil_of
    intro x hx
    exact ((h3 x).1 hx).2
  · refine sorted_ext (valuesWith_sorted h2) (valuesWith_sorted hs) ?_
    intro v
    rw [mem_valuesWith, mem_valuesWith, h3]
    constructor
    · exact fun h => h.1
    · intro hv
      refine ⟨hv, ?_⟩
      rintro ⟨r, hr⟩
      exact hne (C36_prefixes hp hq e1 e2 hr).1

/-- Preparing a message for indexing keeps its id, its properties and the tags that indexing does not set
itself; it is a real message; everything else is gone. -/
theorem C36_reindex {start terms : List Str} {P : Str → Str → Prop} (hs : Sorted start) (hn : ∀ t ∈ start, ¬ bs "XPROPERTY" <+: t)
    (H : PropHistory start terms P) (id : Str) (shown : List Pair) (hshown : ∀ k v, (k, v) ∈ shown ↔ P k v) :
    let d := removeIndexedTerms id (valuesWith (bs "K") terms) shown
    Sorted d ∧ valuesWith (bs "Q") d = [id] ∧ valuesWith (bs "T") d = [bs "mail"] ∧
      valuesWith (bs "XPROPERTY") d = valuesWith (bs "XPROPERTY") terms ∧
      (∀ t, t ∈ valuesWith (bs "K") d ↔ t ∈ valuesWith (bs "K") terms ∧ t ≠ bs "encrypted" ∧ t ≠ bs "signed" ∧ t ≠ bs "attachment") ∧
      (∀ x ∈ d, ∃ p ∈ [bs "Q", bs "T", bs "XPROPERTY", bs "K"], p <+: x) := by
  intro d
  have hd : Sorted d := sorted_removeIndexedTerms _ _ _
  have inv := propInv_history hs hn H
  have cross : ∀ {p q v w : Str}, p ∈ [bs "Q", bs "T", bs "XPROPERTY", bs "K"] → q ∈ [bs "Q", bs "T", bs "XPROPERTY", bs "K"] → p ++ v = q ++ w → p = q ∧ v = w := by
    intro p q v w hp hq h
    have : ∀ p ∈ [bs "Q", bs "T", bs "XPROPERTY", bs "K"], p ∈ prefixes := by decide +kernel
    have hpq : p = q := by
      rcases comparable h with hc | hc
      · exact prefixes_free _ (this p hp) _ (this q hq) (List.isPrefixOf_iff_prefix.2 hc)
      · exact (prefixes_free _ (this q hq) _ (this p hp) (List.isPrefixOf_iff_prefix.2 hc)).symm
    subst hpq
    exact ⟨rfl, List.append_cancel_left h⟩
  have eT : bs "Tmail" = bs "T" ++ bs "mail" := by decide
  have mem : ∀ x, x ∈ d ↔ _ := mem_removeIndexedTerms id (valuesWith (bs "K") terms) shown
  have single : ∀ a : Str, Sorted [a] := fun a => by simp [Sorted]
  refine ⟨hd, ?_, ?_, ?_, ?_, ?_⟩
  · refine sorted_ext (valuesWith_sorted hd) (single _) ?_
    intro v
    rw [mem_valuesWith, mem, List.mem_singleton, eT]
    constructor
    · rintro (h | h | ⟨t, _, _, h⟩ | ⟨p, _, h⟩)
      · exact absurd (cross (by decide) (by decide) h).1 (by decide)
      · exact (cross (by decide) (by decide) h).2
      · exact absurd (cross (by decide) (by decide) h).1 (by decide)
      · rw [List.append_assoc, List.append_assoc] at h
        exact absurd (cross (by decide) (by decide) h).1 (by decide)
    · rintro rfl; exact .inr (.inl rfl)
  · refine sorted_ext (valuesWith_sorted hd) (single _) ?_
    intro v
    rw [mem_valuesWith, mem, List.mem_singleton, eT]
    constructor
    · rintro (h | h | ⟨t, _, _, h⟩ | ⟨p, _, h⟩)
      · exact (cross (by decide) (by decide) h).2
      · exact absurd (cross (by decide) (by decide) h).1 (by decide)
      · exact absurd (cross (by decide) (by decide) h).1 (by decide)
      · rw [List.append_assoc, List.append_assoc] at h
        exact absurd (cross (by decide) (by decide) h).1 (by decide)
    · rintro rfl; exact .inl rfl
  · refine sorted_ext (valuesWith_sorted hd) (valuesWith_sorted inv.sorted) ?_
    intro v
    rw [mem_valuesWith, mem_valuesWith, mem, eT]
    constructor
    · rintro (h | h | ⟨t, _, _, h⟩ | ⟨⟨k, w⟩, hp, h⟩)
      · exact absurd (cross (by decide) (by decide) h).1 (by decide)
      · exact absurd (cross (by decide) (by decide) h).1 (by decide)
      · exact absurd (cross (by decide) (by decide) h).1 (by decide)
      · have := inv.all k w ((hshown k w).1 hp)
        rw [h]
        simpa [propTerm] using this
    · intro h
      obtain ⟨k, w, h1, h2⟩ := inv.only _ h (List.prefix_append _ _)
      exact .inr (.inr (.inr ⟨(k, w), (hshown k w).2 h1, by rw [h2]; simp [propTerm]⟩))
  · intro t
    have auto : automaticTag t = false ↔ t ≠ bs "encrypted" ∧ t ≠ bs "signed" ∧ t ≠ bs "attachment" := by
      unfold automaticTag
      simp only [Bool.or_eq_false_iff, decide_eq_false_iff_not, and_assoc]
    rw [mem_valuesWith, mem, eT, ← auto]
    constructor
    · rintro (h | h | ⟨t', h1, h2, h⟩ | ⟨⟨k, w⟩, hp, h⟩)
      · exact absurd (cross (by decide) (by decide) h).1 (by decide)
      · exact absurd (cross (by decide) (by decide) h).1 (by decide)
      · rw [(cross (by decide) (by decide) h).2]; exact ⟨h1, h2⟩
      · rw [List.append_assoc, List.append_assoc] at h
        exact absurd (cross (by decide) (by decide) h).1 (by decide)
    · rintro ⟨h1, h2⟩; exact .inr (.inr (.inl ⟨t, h1, h2, rfl⟩))
  · intro x hx
    rw [mem, eT] at hx
    rcases hx with h | h | ⟨t', h1, h2, h⟩ | ⟨⟨k, w⟩, hp, h⟩
    · exact ⟨_, by simp, h ▸ List.prefix_append _ _⟩
    · exact ⟨_, by simp, h ▸ List.prefix_append _ _⟩
    · exact ⟨bs "K", by simp, h ▸ List.prefix_append _ _⟩
    · refine ⟨bs "XPROPERTY", by simp, ?_⟩
      rw [h, List.append_assoc, List.append_assoc]; exact List.prefix_append _ _

/-! ## C37 -/

/-- After every sequence of operations, `notmuch_message_get_property` gives a value the key has, and NULL just when
it has none. -/
theorem C37_get {start terms : List Str} {P : Str → Str → Prop} (hs : Sorted start) (hn : ∀ t ∈ start, ¬ bs "XPROPERTY" <+: t)
    (H : PropHistory start terms P) (qs : List Pair → List Pair) (hq : QSort cmppair qs) (key : Str) :
    ∃ m m' r, messageProperties terms = some m ∧ get qs m key = some (m', r) ∧ (∀ v, r = some v → P key v) ∧ (r = none ↔ ∀ v, ¬ P key v) := by
  obtain ⟨m, ops, h1, h2, h3, h4, _⟩ := messageProperties_spec (propInv_history hs hn H) qs
  obtain ⟨m', r, g1, g2, g3, g4⟩ := C22_get qs hq ops m h2 key
  refine ⟨m, m', r, h1, g1, fun v hv => (h4 _ _).1 (g3 v hv), ?_⟩
  rw [g4]
  simp only [h4]

/-- After every sequence of operations, iterating over the properties of a key (`exact`), or of the keys with a
prefix, shows exactly the pairs that were added and not removed since, each once (so counting them counts these),
by key. -/
theorem C37_iterate {start terms : List Str} {P : Str → Str → Prop} (hs : Sorted start) (hn : ∀ t ∈ start, ¬ bs "XPROPERTY" <+: t)
    (H : PropHistory start terms P) (qs : List Pair → List Pair) (hq : QSort cmppair qs) (key : Str) (exact : Bool) :
    ∃ m m' it shown, messageProperties terms = some m ∧ iterCreate qs m key exact = some (m', it) ∧
      (∀ n ≥ m.pairs.length, walk m' n it = shown) ∧ shown.Nodup ∧ shown.Pairwise (fun p q => LexLe p.1 q.1) ∧
      ∀ k v, (k, v) ∈ shown ↔ P k v ∧ Matches key exact k := by
  obtain ⟨m, ops, h1, h2, h3, h4, _⟩ := messageProperties_spec (propInv_history hs hn H) qs
  obtain ⟨m', it, g1, _, shown, g3, g4, g5⟩ := C22_iterate qs hq ops m h2 key exact
  refine ⟨m, m', it, shown, h1, g1, g3, ?_, g4, ?_⟩
  · rw [List.nodup_iff_count]
    intro p
    rw [g5 p]
    split
    · exact List.nodup_iff_count.1 h3 p
    · exact Nat.zero_le _
  · intro k v
    rw [← List.count_pos_iff, g5, ← h4]
    split
    · rename_i h
      rw [List.count_pos_iff]
      exact ⟨fun a => ⟨a, h⟩, fun a => a.1⟩
    · rename_i h
      exact ⟨fun a => absurd a (by omega), fun a => absurd a.2 h⟩

/-- Nothing but the properties changes, and the document stays one. -/
theorem C37_other {start terms : List Str} {P : Str → Str → Prop} (hs : Sorted start) (hn : ∀ t ∈ start, ¬ bs "XPROPERTY" <+: t)
    (H : PropHistory start terms P) : Sorted terms ∧ ∀ t, ¬ bs "XPROPERTY" <+: t → (t ∈ terms ↔ t ∈ start) :=
  ⟨(propInv_history hs hn H).sorted, (propInv_history hs hn H).other⟩

/-- Removing always succeeds: all with a prefix, all of a key, all. -/
theorem C37_removeAll_succeeds {start terms : List Str} {P : Str → Str → Prop} (hs : Sorted start) (hn : ∀ t ∈ start, ¬ bs "XPROPERTY" <+: t)
    (H : PropHistory start terms P) (key : Option Str) (pre : Bool) : ∃ terms', removeAllProperties terms key pre = some terms' :=
  ⟨_, removeTerms_spec (Nat.lt_succ_self _) (propInv_history hs hn H).sorted⟩

/-- Adding succeeds for every key without `=` if key and value have at most 235 bytes together. -/
theorem C37_add_succeeds (terms : List Str) (key value : Str) (hk : 61 ∉ key) (hl : key.length + value.length ≤ 235) :
    ∃ t, (PropOp.add key value).exec terms = some t := by
  have h2 : ¬ (bs "XPROPERTY" ++ (key ++ bs "=" ++ value)).length > 245 := by
    have a : (bs "XPROPERTY").length = 9 := by decide
    have b : (bs "=").length = 1 := by decide
    simp only [List.length_append, a, b]
    omega
  refine ⟨addTerm (bs "XPROPERTY" ++ (key ++ bs "=" ++ value)) terms, ?_⟩
  simp only [PropOp.exec, modifyProperty]
  rw [if_neg hk, if_neg h2, if_neg (by simp)]

/-- A longer one ends the process (`COERCE_STATUS` of a status it does not know). -/
theorem C37_long_aborts (terms : List Str) (key value : Str) (d : Bool) (hk : 61 ∉ key) (hl : key.length + value.length > 235) :
    modifyProperty terms key value d = .abort := by
  have h2 : (bs "XPROPERTY" ++ (key ++ bs "=" ++ value)).length > 245 := by
    have a : (bs "XPROPERTY").length = 9 := by decide
    have b : (bs "=").length = 1 := by decide
    simp only [List.length_append, a, b]
    omega
  unfold modifyProperty
  rw [if_neg hk, if_pos h2]

/-- A key with `=` is refused by adding and removing one property. -/
theorem C37_equals_refused (terms : List Str) (key value : Str) (d : Bool) (hk : 61 ∈ key) :
    modifyProperty terms key value d = .illegalArgument := by unfold modifyProperty; rw [if_pos hk]

/-- Removing all of a key does not refuse it: it removes a property of another key. -/
theorem C37_removeAll_equals : ∃ terms terms' k v, (PropOp.add k v).exec [] = some terms ∧ removeAllProperties terms (some (bs "a=b")) false = some terms' ∧
    k ≠ bs "a=b" ∧ propTerm k v ∈ terms ∧ propTerm k v ∉ terms' :=
  ⟨[bs "XPROPERTYa=b=c"], [], bs "a", bs "b=c", rfl, by decide +kernel, by decide, by decide, by decide⟩

example : PropHistory [bs "Kinbox", bs "zebra"] [bs "Kinbox", bs "XPROPERTYk=w", bs "zebra"]
    ((PropOp.remove (bs "k") (bs "v")).apply ((PropOp.add (bs "k") (bs "w")).apply ((PropOp.add (bs "k") (bs "v")).apply (fun _ _ => False)))) :=
  ((PropHistory.start.step (terms' := [bs "Kinbox", bs "XPROPERTYk=v", bs "zebra"]) (.add (bs "k") (bs "v")) trivial (by decide +kernel)).step
    (terms' := [bs "Kinbox", bs "XPROPERTYk=v", bs "XPROPERTYk=w", bs "zebra"]) (.add (bs "k") (bs "w")) trivial (by decide +kernel)).step
    (.remove (bs "k") (bs "v")) trivial (by decide +kernel)

end Notmuch.Props
