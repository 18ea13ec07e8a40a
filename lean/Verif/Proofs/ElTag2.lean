import Verif.Proofs.ElTag
import Verif.Props.TagOps

namespace Notmuch.ElTag
open Notmuch.TagUtil Notmuch.StringUtil Notmuch.TagSpec Notmuch.ElTagSpec Notmuch.StringMapSpec
open Notmuch.StringMap (strcmp strcmp_lt lexLe_total lexLe_trans)

/-! ### The tags shown -/

theorem final_cons {o : TagOp} {os : List TagOp} {tags tags' : List Str} {t : Str}
    (h : ∀ x, x ∈ tags' ↔ if x = o.tag then o.remove = false else x ∈ tags) :
    Final (o :: os) false tags t ↔ Final os false tags' t := by
  unfold Final
  rw [lastIs_cons, unnamed_cons, h t]
  by_cases e : t = o.tag
  · subst e
    simp
  · have e' : ¬ o.tag = t := fun h => e h.symm
    simp [e, e']

theorem updateOne_text (o : TagOp) (tags : List Str) : ∃ r, updateOne tags (text o) = some r ∧
    (∀ x, x ∈ r ↔ if x = o.tag then o.remove = false else x ∈ tags) ∧ (tags.Nodup → r.Nodup) := by
  unfold text updateOne
  cases hr : o.remove
  · refine ⟨_, rfl, fun x => ?_, ?_⟩
    · by_cases e : x = o.tag
      · subst e; split <;> simp_all
      · rw [if_neg e]; split <;> simp [e]
    · intro hn
      split
      · exact hn
      · rename_i h; exact List.nodup_cons.2 ⟨h, hn⟩
  · refine ⟨_, rfl, fun x => ?_, ?_⟩
    · by_cases e : x = o.tag
      · subst e; simp
      · simp [e]
    · intro hn
      exact hn.filter _

theorem updateLoop_text (ops : List TagOp) : ∀ tags, ∃ r, updateLoop tags (ops.map text) = some r ∧
    (∀ t, t ∈ r ↔ Final ops false tags t) ∧ (tags.Nodup → r.Nodup) := by
  induction ops with
  | nil => intro tags; exact ⟨tags, rfl, fun t => by simp [Final, lastIs_nil, Unnamed], id⟩
  | cons o os ih =>
    intro tags
    obtain ⟨r1, e1, h1, n1⟩ := updateOne_text o tags
    obtain ⟨r, e, h, n⟩ := ih r1
    refine ⟨r, ?_, fun t => ?_, fun hn => n (n1 hn)⟩
    · simp only [List.map_cons, updateLoop, e1, e]
    · rw [h t, final_cons h1]

theorem insertTag_perm (x : Str) (l : List Str) : (insertTag x l).Perm (x :: l) := by
  induction l with
  | nil => exact List.Perm.refl _
  | cons y l ih =>
    unfold insertTag
    split
    · exact (ih.cons y).trans (List.Perm.swap x y l)
    · exact List.Perm.refl _

theorem sortTags_perm (l : List Str) : (sortTags l).Perm l := by
  induction l with
  | nil => exact List.Perm.refl _
  | cons x l ih => exact (insertTag_perm x _).trans (ih.cons x)

theorem insertTag_sorted {x : Str} {l : List Str} (h : l.Pairwise LexLe) : (insertTag x l).Pairwise LexLe := by
  induction l with
  | nil => simp [insertTag]
  | cons y l ih =>
    unfold insertTag
    rw [List.pairwise_cons] at h
    split
    · rename_i hc
      rw [List.pairwise_cons]
      refine ⟨fun z hz => ?_, ih h.2⟩
      rcases List.mem_cons.1 ((insertTag_perm x l).mem_iff.1 hz) with rfl | hz
      · exact ((strcmp_lt _ _).1 hc).1
      · exact h.1 z hz
    · rename_i hc
      have hxy : LexLe x y := by
        rcases lexLe_total x y with h' | h'
        · exact h'
        · by_cases e : x = y
          · subst e; exact h'
          · exact absurd ((strcmp_lt _ _).2 ⟨h', e⟩) hc
      rw [List.pairwise_cons]
      refine ⟨fun z hz => ?_, List.pairwise_cons.2 h⟩
      rcases List.mem_cons.1 hz with rfl | hz
      · exact hxy
      · exact lexLe_trans _ _ _ hxy (h.1 z hz)

theorem sortTags_sorted (l : List Str) : (sortTags l).Pairwise LexLe := by
  induction l with
  | nil => exact List.Pairwise.nil
  | cons x l ih => exact insertTag_sorted ih

theorem updateTags_text (tags : List Str) (ops : List TagOp) : ∃ r, updateTags tags (ops.map text) = some r ∧
    r.Pairwise LexLe ∧ (∀ t, t ∈ r ↔ Final ops false tags t) ∧ (tags.Nodup → r.Nodup) := by
  obtain ⟨r, e, h, n⟩ := updateLoop_text ops tags
  refine ⟨sortTags r, by simp [updateTags, e], sortTags_sorted r, fun t => ?_, fun hn => ?_⟩
  · rw [(sortTags_perm r).mem_iff, h]
  · exact (sortTags_perm r).nodup_iff.2 (n hn)

/-! ### The database -/

section
variable {α : Type} {rx : Str → Option (Str → Bool)} {sel : Str → Option (α → List Str → Bool)}

theorem run_effect {ops : List TagOp} {q : Str} {f : α → List Str → Bool} (hf : sel q = some f)
    (hs : q = bs "*" → ∀ a t, f a t = true) (hp : ∀ o ∈ ops, Plain o) (db : List (α × List Str)) :
    ∃ db', runQuery rx sel ops q db = (db', true) ∧ Tagged f ops db db' := by
  unfold runQuery
  rw [hf]
  simp only
  obtain ⟨res, e, hlen, h⟩ := Props.C12_tag_query_effect rx (q == bs "*") false ops (db.map (fun m => (f m.1 m.2, m.2)))
    (fun o ho => (hp o ho).1) (fun _ o ho => (hp o ho).2) (fun hq m hm => by
      obtain ⟨x, _, rfl⟩ := List.mem_map.1 hm
      exact hs (by simpa using hq) _ _)
  rw [e]
  refine ⟨_, rfl, ?_, ?_⟩
  · rw [List.length_map] at hlen
    clear h e
    induction db generalizing res with
    | nil => cases res <;> simp_all
    | cons m db ih =>
      cases res with
      | nil => simp at hlen
      | cons r res => simp at hlen; simpa using ih res hlen
  · intro i x y hx hy t
    obtain ⟨m', hm', h'⟩ := h i (f x.1 x.2, x.2) (by rw [List.getElem?_map, hx]; rfl)
    rw [List.getElem?_zipWith, hx, hm'] at hy
    simp only [Option.some.injEq] at hy
    subst hy
    exact h' t

theorem same_refl (a : List (α × List Str)) : Same a a :=
  ⟨rfl, fun i x y hx hy t => by rw [hx] at hy; cases hy; rfl⟩

theorem same_symm {a b : List (α × List Str)} (h : Same a b) : Same b a :=
  ⟨h.1.symm, fun i x y hx hy t => (h.2 i y x hy hx t).symm⟩

theorem mid {a b : List (α × List Str)} (h : a.map Prod.fst = b.map Prod.fst) {i : Nat} {x : α × List Str} (hx : a[i]? = some x) :
    ∃ y, b[i]? = some y ∧ y.1 = x.1 := by
  have h1 := congrArg (fun l => l[i]?) h
  simp only [List.getElem?_map, hx, Option.map_some] at h1
  cases hy : b[i]? with
  | none => rw [hy] at h1; cases h1
  | some y => rw [hy] at h1; exact ⟨y, rfl, (Option.some.inj h1).symm⟩

theorem same_trans {a b c : List (α × List Str)} (h : Same a b) (h' : Same b c) : Same a c := by
  refine ⟨h.1.trans h'.1, fun i x z hx hz t => ?_⟩
  obtain ⟨y, hy, _⟩ := mid h.1 hx
  exact (h.2 i x y hx hy t).trans (h'.2 i y z hy hz t)

theorem final_congr {ops : List TagOp} {a b : List Str} (h : ∀ t, t ∈ a ↔ t ∈ b) (t : Str) : Final ops false a t ↔ Final ops false b t := by
  unfold Final; rw [h t]

theorem tagged_congr {g : α → Bool} {ops : List TagOp} {a a' b b' : List (α × List Str)} (hs : Same a a')
    (h : Tagged (fun x _ => g x) ops a b) (h' : Tagged (fun x _ => g x) ops a' b') : Same b b' := by
  refine ⟨h.1.symm.trans (hs.1.trans h'.1), fun i y y' hy hy' t => ?_⟩
  obtain ⟨x, hx, _⟩ := mid h.1.symm hy
  obtain ⟨x', hx', e⟩ := mid hs.1 hx
  have := hs.2 i x x' hx hx'
  rw [h.2 i x y hx hy t, h'.2 i x' y' hx' hy' t, e]
  split
  · exact final_congr this t
  · exact this t

theorem lastIs_nodup {ops : List TagOp} {t : Str} {b : Bool} (h : (ops.map (·.tag)).Nodup) :
    LastIs ops t b ↔ ∃ o ∈ ops, o.tag = t ∧ o.remove = b := by
  constructor
  · rintro ⟨pre, op, post, rfl, ht, hr, _⟩
    exact ⟨op, by simp, ht, hr⟩
  · rintro ⟨o, ho, ht, hr⟩
    obtain ⟨pre, post, rfl⟩ := List.append_of_mem ho
    refine ⟨pre, o, post, rfl, ht, hr, fun o' ho' e => ?_⟩
    rw [List.map_append, List.map_cons, List.nodup_append] at h
    have := (List.nodup_cons.1 h.2.1).1
    apply this
    rw [ht, ← e]
    exact List.mem_map.2 ⟨o', ho', rfl⟩

theorem inv_tags (ops : List TagOp) : (ops.map inv).map (·.tag) = ops.map (·.tag) := by
  rw [List.map_map]; rfl

theorem unnamed_inv {ops : List TagOp} {t : Str} : Unnamed (ops.map inv) t ↔ Unnamed ops t := by
  unfold Unnamed
  constructor
  · intro h o ho; exact h (inv o) (List.mem_map.2 ⟨o, ho, rfl⟩)
  · intro h o ho
    obtain ⟨o', ho', rfl⟩ := List.mem_map.1 ho
    exact h o' ho'

theorem undo_tags {ops : List TagOp} {tags tags' tags'' : List Str} (he : Effective ops tags)
    (h1 : ∀ t, t ∈ tags' ↔ Final ops false tags t) (h2 : ∀ t, t ∈ tags'' ↔ Final (ops.map inv) false tags' t) (t : Str) :
    t ∈ tags'' ↔ t ∈ tags := by
  rw [h2 t]
  unfold Final
  rw [lastIs_nodup (by rw [inv_tags]; exact he.1), unnamed_inv]
  constructor
  · rintro (⟨o', ho', e, hr⟩ | ⟨hu, _, ht⟩)
    · obtain ⟨o, ho, rfl⟩ := List.mem_map.1 ho'
      have := (he.2 o ho).2 (by simpa [inv] using hr)
      rw [← e]; exact this
    · rcases (h1 t).1 ht with h | h
      · exact absurd hu (lastIs_not_unnamed h)
      · exact h.2.2
  · intro ht
    by_cases hu : Unnamed ops t
    · exact Or.inr ⟨hu, rfl, (h1 t).2 (Or.inr ⟨hu, rfl, ht⟩)⟩
    · left
      obtain ⟨o, ho, e⟩ : ∃ o ∈ ops, o.tag = t := by
        rcases lastIs_or_unnamed ops t with ⟨p, o, q, e, h, _⟩ | ⟨p, o, q, e, h, _⟩ | h
        · exact ⟨o, by rw [e]; simp, h⟩
        · exact ⟨o, by rw [e]; simp, h⟩
        · exact absurd h hu
      refine ⟨inv o, List.mem_map.2 ⟨o, ho, rfl⟩, e, ?_⟩
      have := (he.2 o ho).1 (by rw [e]; exact ht)
      simp [inv, this]

theorem undo_same {g : α → Bool} {ops : List TagOp} {a b c : List (α × List Str)}
    (he : ∀ m ∈ a, g m.1 = true → Effective ops m.2)
    (h1 : Tagged (fun x _ => g x) ops a b) (h2 : Tagged (fun x _ => g x) (ops.map inv) b c) : Same a c := by
  refine ⟨h1.1.trans h2.1, fun i x z hx hz t => ?_⟩
  obtain ⟨y, hy, e⟩ := mid h1.1 hx
  have hxy := h1.2 i x y hx hy
  have hyz := h2.2 i y z hy hz
  rw [e] at hyz
  cases hg : g x.1
  · simp only [hg, Bool.false_eq_true, if_false] at hxy hyz
    rw [hyz t, hxy t]
  · simp only [hg, if_true] at hxy hyz
    exact (undo_tags (he x (List.mem_of_getElem? hx) hg) hxy hyz t).symm

end

end Notmuch.ElTag
