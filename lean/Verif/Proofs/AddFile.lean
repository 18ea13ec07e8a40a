import Verif.Proofs.AddFileHeaders
import Verif.Proofs.Reindex
import Verif.Proofs.Open
import Verif.Proofs.ThreadRemove
import Verif.Props.MessageId

/-! # Adding a file: linking -/

namespace Notmuch.AddFile

open Notmuch.TermList
open Notmuch.Message (Handle addTermTo removeTermFrom sync prefixOf)
open Notmuch.Reindex (Adds adds_maybe adds_addTermTo adds_sync)

theorem dis {p q : Str} (h : ¬ p <+: q ∧ ¬ q <+: p) (x y : Str) : p ++ x ≠ q ++ y := by
  intro e
  rcases comparable e with h' | h'
  · exact h.1 h'
  · exact h.2 h'

theorem dis_iff {p q : Str} (h : ¬ p <+: q ∧ ¬ q <+: p) (x y : Str) : p ++ x = q ++ y ↔ False := ⟨fun e => dis h x y e, False.elim⟩

theorem app_iff (p x y : Str) : p ++ x = p ++ y ↔ x = y := ⟨List.append_cancel_left, fun h => by rw [h]⟩

theorem prefix_ref : prefixOf (bs "reference") = bs "XREFERENCE" := by decide +kernel
theorem prefix_reply : prefixOf (bs "replyto") = bs "XREPLYTO" := by decide +kernel
theorem prefix_thr : prefixOf (bs "thread") = bs "G" := by decide +kernel
theorem prefix_type : prefixOf (bs "type") = bs "T" := by decide +kernel

theorem hexDigits_length : ∀ n k, (Open.hexDigits n k).length = n
  | 0, _ => rfl
  | n + 1, k => by simp [Open.hexDigits, hexDigits_length n]

theorem hex16_length (n : Nat) : (Open.hex16 n).length = 16 := hexDigits_length 16 _

attribute [local irreducible] Open.hex16

theorem sync_modified {h : Handle} (hw : h.writable = true) (hm : h.modified = true) : sync h = { h with stored := h.terms, modified := false } := by
  unfold sync; rw [if_neg (by rw [hw]; simp), if_neg (by rw [hm]; simp)]

/-! ## Lists -/

theorem All2.find {α β : Type} {R : α → β → Prop} {as : List α} {bs : List β} (h : All2 R as bs) (p : α → Bool) (q : β → Bool) (hp : ∀ a b, R a b → p a = q b) :
    (as.find? p = none ∧ bs.find? q = none) ∨ ∃ a b, as.find? p = some a ∧ bs.find? q = some b ∧ R a b ∧ a ∈ as ∧ b ∈ bs := by
  induction h with
  | nil => exact .inl ⟨rfl, rfl⟩
  | @cons a b as bs hab h ih =>
    rw [List.find?_cons, List.find?_cons, ← hp a b hab]
    cases hpa : p a with
    | true => exact .inr ⟨a, b, rfl, rfl, hab, by simp, by simp⟩
    | false =>
      rcases ih with ih | ⟨a', b', h1, h2, h3, h4, h5⟩
      · exact .inl ih
      · exact .inr ⟨a', b', h1, h2, h3, by simp [h4], by simp [h5]⟩

theorem All2.map {α β : Type} {R R' : α → β → Prop} {as : List α} {bs : List β} (h : All2 R as bs) (f : α → α) (g : β → β)
    (hf : ∀ a ∈ as, ∀ b ∈ bs, R a b → R' (f a) (g b)) : All2 R' (as.map f) (bs.map g) := by
  induction h with
  | nil => exact .nil
  | @cons a b as bs hab h ih =>
    exact .cons (hf a (by simp) b (by simp) hab) (ih (fun a ha b hb => hf a (by simp [ha]) b (by simp [hb])))

theorem All2.concat {α β : Type} {R : α → β → Prop} {as : List α} {bs : List β} (h : All2 R as bs) {a : α} {b : β} (hab : R a b) : All2 R (as ++ [a]) (bs ++ [b]) := by
  induction h with
  | nil => exact .cons hab .nil
  | cons h1 _ ih => exact .cons h1 ih

theorem All2.left {α β : Type} {R : α → β → Prop} {as : List α} {bs : List β} (h : All2 R as bs) : ∀ a ∈ as, ∃ b ∈ bs, R a b := by
  induction h with
  | nil => intro a ha; cases ha
  | @cons a b as bs hab h ih =>
    intro x hx
    rcases List.mem_cons.1 hx with rfl | hx
    · exact ⟨b, by simp, hab⟩
    · obtain ⟨y, hy, h⟩ := ih x hx; exact ⟨y, by simp [hy], h⟩

theorem All2.right {α β : Type} {R : α → β → Prop} {as : List α} {bs : List β} (h : All2 R as bs) : ∀ b ∈ bs, ∃ a ∈ as, R a b := by
  induction h with
  | nil => intro a ha; cases ha
  | @cons a b as bs hab h ih =>
    intro x hx
    rcases List.mem_cons.1 hx with rfl | hx
    · exact ⟨a, by simp, hab⟩
    · obtain ⟨y, hy, h⟩ := ih x hx; exact ⟨y, by simp [hy], h⟩

theorem SaysDb.ids {db : Db} {A : Threading.Db} (h : SaysDb db A) : db.docs.map (·.docId) = A.docs.map (·.docId) := by
  have := h.docs
  generalize db.docs = l at this
  generalize A.docs = l' at this
  induction this with
  | nil => rfl
  | cons h1 _ ih => simp [h1.1, ih]

/-- `replace_document` of documents that say the same. -/
theorem SaysDb.put {db : Db} {A : Threading.Db} (h : SaysDb db A) {d : Doc} {a : Threading.Doc} (hi : d.docId = a.docId) (hd : Says d.terms a) :
    SaysDb (putDoc db d) (Threading.putDoc A a) := by
  unfold putDoc Threading.putDoc
  rw [h.ids, hi]
  by_cases hm : a.docId ∈ A.docs.map (·.docId)
  · rw [if_pos hm, if_pos hm]
    refine ⟨h.docs.map _ _ ?_, h.lastThread, h.lastDoc⟩
    rintro x _ y _ ⟨h1, h2⟩
    simp only [h1]
    by_cases he : y.docId = a.docId
    · rw [if_pos he, if_pos he]; exact ⟨hi, hd⟩
    · rw [if_neg he, if_neg he]; exact ⟨h1, h2⟩
  · rw [if_neg hm, if_neg hm]
    exact ⟨h.docs.concat ⟨hi, hd⟩, h.lastThread, h.lastDoc⟩

theorem getTerm_one {p v : Str} {terms : List Str} (hs : Sorted terms) (h : ∀ x, p ++ x ∈ terms ↔ x = v) : (getTerm p terms).1 = some v := by
  obtain ⟨h1, _⟩ := @getTerm_spec p terms terms hs ⟨[], rfl, by simp⟩
  rw [h1]
  have hv := valuesWith_sorted (p := p) hs
  have hm : ∀ x, x ∈ valuesWith p terms ↔ x = v := fun x => by rw [mem_valuesWith, h]
  cases hl : valuesWith p terms with
  | nil => have := (hm v).2 rfl; rw [hl] at this; cases this
  | cons y l => rw [List.head?_cons, (hm y).1 (by rw [hl]; simp)]

theorem readGhost_says {terms : List Str} {a : Threading.Doc} (h : Says terms a) : readGhost terms = some (decide (a.kind = .ghost)) := by
  rw [@readGhost_spec terms terms h.sorted ⟨[], rfl, by simp⟩]
  have h1 := (@getTerm_spec (bs "T") terms terms h.sorted ⟨[], rfl, by simp⟩).1
  rw [← h1, getTerm_one h.sorted h.kind]
  cases a.kind <;> decide +kernel

theorem threadOf_says {terms : List Str} {a : Threading.Doc} (h : Says terms a) {t : Nat} (ht : a.threads = [t]) : threadOf terms = some (Open.hex16 t) := by
  unfold threadOf
  refine getTerm_one h.sorted (fun x => ?_)
  rw [h.threads, ht]; simp

theorem idOf_says {terms : List Str} {a : Threading.Doc} (h : Says terms a) : (getTerm (bs "Q") terms).1 = some a.mid := getTerm_one h.sorted h.id

theorem find_says (E : Env) {db : Db} {A : Threading.Db} (h : SaysDb db A) (id : Str) :
    (findId E db id = none ∧ Threading.findMid A (Threading.normId (sha1OfString E.digest) id) = none) ∨
    ∃ d a, findId E db id = some d ∧ Threading.findMid A (Threading.normId (sha1OfString E.digest) id) = some a ∧ (d.docId = a.docId ∧ Says d.terms a) ∧ d ∈ db.docs ∧ a ∈ A.docs := by
  unfold findId Threading.findMid
  refine h.docs.find _ _ ?_
  rintro d a ⟨_, hs⟩
  rw [Bool.eq_iff_iff]
  simp only [decide_eq_true_eq, beq_iff_eq]
  rw [hs.id]; exact eq_comm

/-! ## The terms of a document -/

/-- Terms without the prefixes of linking change nothing. -/
theorem Says.quiet {T T' : List Str} {a : Threading.Doc} (h : Says T a) (hs : Sorted T') {S : Str → Prop} (hm : ∀ x, x ∈ T' ↔ x ∈ T ∨ S x)
    (hq : ∀ x, S x → ∀ p ∈ [bs "Q", bs "G", bs "T", bs "XREFERENCE", bs "XFDIRENTRY"], ¬ p <+: x) : Says T' a := by
  have key : ∀ p ∈ [bs "Q", bs "G", bs "T", bs "XREFERENCE", bs "XFDIRENTRY"], ∀ x, p ++ x ∈ T' ↔ p ++ x ∈ T := by
    intro p hp x
    rw [hm]
    constructor
    · rintro (h | h)
      · exact h
      · exact absurd (List.prefix_append _ _) (hq _ h p hp)
    · exact .inl
  refine ⟨hs, ?_, ?_, ?_, ?_, ?_⟩ <;> intro x <;> rw [key _ (by simp)]
  · exact h.id x
  · exact h.kind x
  · exact h.threads x
  · exact h.refs x
  · exact h.files x

theorem Says.ref {T T' : List Str} {a : Threading.Doc} (h : Says T a) (hs : Sorted T') {r : Str} (hm : ∀ x, x ∈ T' ↔ x ∈ T ∨ (x = bs "XREFERENCE" ++ r ∧ x.length ≤ 245)) :
    Says T' (if r.length > Threading.refMax then a else { a with refs := Threading.addTo a.refs r }) := by
  by_cases hl : r.length > Threading.refMax
  · rw [if_pos hl]
    refine h.quiet hs hm ?_
    rintro x ⟨rfl, hx⟩
    exfalso
    have : (bs "XREFERENCE").length = 10 := by decide
    rw [List.length_append, this] at hx
    unfold Threading.refMax at hl; omega
  · rw [if_neg hl]
    have hx : (bs "XREFERENCE" ++ r).length ≤ 245 := by
      have : (bs "XREFERENCE").length = 10 := by decide
      rw [List.length_append, this]
      unfold Threading.refMax at hl; omega
    refine ⟨hs, ?_, ?_, ?_, ?_, ?_⟩ <;> intro x <;> rw [hm]
    · rw [dis_iff (by decide +kernel)]; simp [h.id]
    · rw [dis_iff (by decide +kernel)]; simp [h.kind]
    · rw [dis_iff (by decide +kernel)]; simp [h.threads]
    · rw [app_iff, h.refs, Threading.mem_addTo]
      constructor
      · rintro (h | ⟨rfl, _⟩)
        · exact .inl h
        · exact .inr rfl
      · rintro (h | rfl)
        · exact .inl h
        · exact .inr ⟨rfl, hx⟩
    · rw [dis_iff (by decide +kernel)]; simp [h.files]

theorem Says.thread {T T' : List Str} {a : Threading.Doc} (h : Says T a) (hs : Sorted T') {t : Nat} (hm : ∀ x, x ∈ T' ↔ x ∈ T ∨ x = bs "G" ++ Open.hex16 t) :
    Says T' { a with threads := Threading.addTo a.threads t } := by
  refine ⟨hs, ?_, ?_, ?_, ?_, ?_⟩ <;> intro x <;> rw [hm]
  · rw [dis_iff (by decide +kernel)]; simp [h.id]
  · rw [dis_iff (by decide +kernel)]; simp [h.kind]
  · rw [app_iff, h.threads]
    simp only [Threading.mem_addTo]
    constructor
    · rintro (⟨u, hu, e⟩ | rfl)
      · exact ⟨u, .inl hu, e⟩
      · exact ⟨t, .inr rfl, rfl⟩
    · rintro ⟨u, hu | rfl, e⟩
      · exact .inl ⟨u, hu, e⟩
      · exact .inr e
  · rw [dis_iff (by decide +kernel)]; simp [h.refs]
  · rw [dis_iff (by decide +kernel)]; simp [h.files]

/-! ## Bounds -/

/-- Threads are below the last one, and there is room for `n` more. -/
structure Room (A : Threading.Db) (n : Nat) : Prop where
  one : ∀ a ∈ A.docs, ∃ t, a.threads = [t] ∧ t ≤ A.lastThread
  room : A.lastThread + n < 2 ^ 64

/-! ## Merging -/

theorem mergeOne_terms (w l : Nat) (d : Doc) : (mergeOne (Open.hex16 w) (Open.hex16 l) d).terms = addTerm (bs "G" ++ Open.hex16 w) (removeTerm (bs "G" ++ Open.hex16 l) d.terms) := by
  have e1 : (bs "G").length = 1 := by decide
  have hl : ¬ (prefixOf (bs "thread") ++ Open.hex16 l).length > 245 := by rw [prefix_thr, List.length_append, e1, hex16_length]; omega
  have hw : ¬ (prefixOf (bs "thread") ++ Open.hex16 w).length > 245 := by rw [prefix_thr, List.length_append, e1, hex16_length]; omega
  unfold mergeOne
  simp only
  unfold removeTermFrom
  simp only [if_neg hl, Option.getD_some]
  unfold addTermTo
  simp only [if_neg hw, Option.getD_some]
  rw [sync_modified (by rw [Message.invalidate_writable]; simp [Message.invalidate_writable, object, Message.create]) (by rw [Reindex.invalidate_modified])]
  simp only [Message.invalidate_terms, prefix_thr]
  rw [if_neg]
  · rfl
  · intro h
    have : bs "G" ++ Open.hex16 w ∈ addTerm (bs "G" ++ Open.hex16 w) (removeTerm (bs "G" ++ Open.hex16 l) (object d.terms).terms) := by rw [mem_addTerm]; exact .inl rfl
    rw [h] at this; cases this

theorem mem_mergeOne (w l : Nat) (d : Doc) (x : Str) : x ∈ (mergeOne (Open.hex16 w) (Open.hex16 l) d).terms ↔ x = bs "G" ++ Open.hex16 w ∨ (x ∈ d.terms ∧ x ≠ bs "G" ++ Open.hex16 l) := by
  rw [mergeOne_terms, mem_addTerm, mem_removeTerm]

theorem sorted_mergeOne (w l : Nat) {d : Doc} (h : Sorted d.terms) : Sorted (mergeOne (Open.hex16 w) (Open.hex16 l) d).terms := by
  rw [mergeOne_terms]; exact sorted_addTerm (sorted_removeTerm h)

theorem hasThread_iff {A : Threading.Db} {n : Nat} (hr : Room A n) {terms : List Str} {a : Threading.Doc} (ha : a ∈ A.docs) (h : Says terms a) {l : Nat} (hl : l ≤ A.lastThread) :
    bs "G" ++ Open.hex16 l ∈ terms ↔ l ∈ a.threads := by
  obtain ⟨t, ht, hb⟩ := hr.one a ha
  have := hr.room
  rw [h.threads]
  constructor
  · rintro ⟨u, hu, e⟩
    rw [ht] at hu
    obtain rfl : u = t := by simpa using hu
    rw [ht, Open.hex16_inj (by omega) (by omega) e]; simp
  · intro h; exact ⟨l, h, rfl⟩

theorem SaysDb.merge {db : Db} {A : Threading.Db} (h : SaysDb db A) {n : Nat} (hr : Room A n) {w l : Nat} (hl : l ≤ A.lastThread) :
    SaysDb (merge db (Open.hex16 w) (Open.hex16 l)) (Threading.merge A w l) := by
  refine ⟨h.docs.map _ _ ?_, h.lastThread, h.lastDoc⟩
  rintro d hd a ha ⟨h1, h2⟩
  have hiff := hasThread_iff hr ha h2 hl
  by_cases hm : l ∈ a.threads
  · rw [if_pos (hiff.2 hm), if_pos hm]
    refine ⟨h1, ?_⟩
    obtain ⟨t, ht, hb⟩ := hr.one a ha
    have : l = t := by rw [ht] at hm; simpa using hm
    subst this
    have hf : Threading.addTo (a.threads.filter (· ≠ l)) w = [w] := by rw [ht]; simp [Threading.addTo]
    refine ⟨sorted_mergeOne _ _ h2.sorted, ?_, ?_, ?_, ?_, ?_⟩ <;> intro x <;> rw [mem_mergeOne, ne_eq]
    · rw [dis_iff (by decide +kernel), dis_iff (by decide +kernel)]; simp [h2.id]
    · rw [dis_iff (by decide +kernel), dis_iff (by decide +kernel)]; simp [h2.kind]
    · rw [app_iff, app_iff, h2.threads, hf, ht]
      constructor
      · rintro (h | ⟨⟨u, hu, e⟩, hn⟩)
        · exact ⟨w, by simp, h⟩
        · obtain rfl : u = l := by simpa using hu
          exact absurd e hn
      · rintro ⟨u, hu, e⟩
        obtain rfl : u = w := by simpa using hu
        exact .inl e
    · rw [dis_iff (by decide +kernel), dis_iff (by decide +kernel)]; simp [h2.refs]
    · rw [dis_iff (by decide +kernel), dis_iff (by decide +kernel)]; simp [h2.files]
  · rw [if_neg (fun h => hm (hiff.1 h)), if_neg hm]
    exact ⟨h1, h2⟩

theorem Room.merge {A : Threading.Db} {n : Nat} (hr : Room A n) {w l : Nat} (hw : w ≤ A.lastThread) : Room (Threading.merge A w l) n := by
  refine ⟨?_, hr.room⟩
  intro a ha
  unfold Threading.merge at ha
  obtain ⟨b, hb, rfl⟩ := List.mem_map.1 ha
  obtain ⟨t, ht, hle⟩ := hr.one b hb
  by_cases hm : l ∈ b.threads
  · rw [if_pos hm]
    have : l = t := by rw [ht] at hm; simpa using hm
    subst this
    exact ⟨w, by simp [ht, Threading.addTo], hw⟩
  · rw [if_neg hm]
    exact ⟨t, ht, hle⟩

/-! ## Resolving -/

theorem ghostObject_spec (id : Str) (t : Nat) : ∃ h, ghostObject id (Open.hex16 t) = some h ∧ (sync h).stored ≠ [] ∧ Sorted (sync h).stored ∧
    ∀ x, x ∈ (sync h).stored ↔ x = bs "Q" ++ id ∨ x = bs "Tghost" ∨ x = bs "G" ++ Open.hex16 t := by
  have e1 : (bs "G").length = 1 := by decide
  obtain ⟨h1, g1, a1, _⟩ := adds_addTermTo (n := bs "type") (v := bs "ghost") (h := object [bs "Q" ++ id]) (by decide +kernel)
  obtain ⟨h2, g2, a2, m2⟩ := adds_addTermTo (n := bs "thread") (v := Open.hex16 t) (h := h1) (by rw [prefix_thr, List.length_append, e1, hex16_length]; omega)
  have a := a1.trans a2
  have hst : (sync h2).stored = h2.terms := by
    unfold sync
    rw [if_neg (by rw [a.writable]; simp [object, Message.create]), if_neg (by rw [m2]; simp)]
  refine ⟨h2, by unfold ghostObject; rw [g1, Option.bind_some, g2], ?_, ?_, ?_⟩ <;> rw [hst]
  · intro h0
    have : bs "Q" ++ id ∈ h2.terms := by rw [a.mem]; left; simp [object, Message.create]
    rw [h0] at this; cases this
  · exact a.sorted (by simp [object, Message.create, Sorted])
  · intro x
    rw [a.mem, prefix_type, prefix_thr, show bs "T" ++ bs "ghost" = bs "Tghost" by decide +kernel]
    simp [object, Message.create]

/-- The new ghost. -/
theorem ghost_says (id : Str) (t n : Nat) {T : List Str} (hs : Sorted T) (hm : ∀ x, x ∈ T ↔ x = bs "Q" ++ id ∨ x = bs "Tghost" ∨ x = bs "G" ++ Open.hex16 t) :
    Says T ⟨n, id, .ghost, [t], [], []⟩ := by
  have e : bs "Tghost" = bs "T" ++ bs "ghost" := by decide +kernel
  rw [e] at hm
  refine ⟨hs, ?_, ?_, ?_, ?_, ?_⟩ <;> intro x <;> rw [hm]
  · rw [app_iff, dis_iff (by decide +kernel), dis_iff (by decide +kernel)]; simp
  · rw [app_iff, dis_iff (by decide +kernel), dis_iff (by decide +kernel)]; simp [kindTerm]
  · rw [app_iff, dis_iff (by decide +kernel), dis_iff (by decide +kernel)]; simp
  · rw [dis_iff (by decide +kernel), dis_iff (by decide +kernel), dis_iff (by decide +kernel)]; simp
  · rw [dis_iff (by decide +kernel), dis_iff (by decide +kernel), dis_iff (by decide +kernel)]; simp

/-- Every document but ghosts that are new was there, and all are still there. -/
structure Kept (db db' : Db) : Prop where
  back : ∀ d' ∈ db'.docs, (∃ d ∈ db.docs, SameButThread d d') ∨ (OnlyGhost d' ∧ ∀ d ∈ db.docs, d.docId ≠ d'.docId)
  forth : ∀ d ∈ db.docs, ∃ d' ∈ db'.docs, SameButThread d d'
  bound : (∀ d ∈ db.docs, d.docId ≤ db.lastDoc) → ∀ d ∈ db'.docs, d.docId ≤ db'.lastDoc

theorem SameButThread.refl (d : Doc) : SameButThread d d := ⟨rfl, rfl, fun _ _ => Iff.rfl⟩
theorem SameButThread.trans {a b c : Doc} (h : SameButThread a b) (h' : SameButThread b c) : SameButThread a c :=
  ⟨h'.docId.trans h.docId, h'.values.trans h.values, fun x hx => (h'.terms x hx).trans (h.terms x hx)⟩

theorem Kept.refl (db : Db) : Kept db db := ⟨fun d h => .inl ⟨d, h, .refl d⟩, fun d h => ⟨d, h, .refl d⟩, fun h => h⟩

theorem same_mergeOne (w l : Nat) (d : Doc) : SameButThread d (mergeOne (Open.hex16 w) (Open.hex16 l) d) := by
  refine ⟨rfl, rfl, fun x hx => ?_⟩
  rw [mem_mergeOne]
  have : ∀ v, x ≠ bs "G" ++ v := by rintro v rfl; exact hx (List.prefix_append _ _)
  simp [this]

theorem ghost_mergeOne (w l : Nat) {d : Doc} (h : OnlyGhost d) (hl : bs "G" ++ Open.hex16 l ∈ d.terms) : OnlyGhost (mergeOne (Open.hex16 w) (Open.hex16 l) d) := by
  obtain ⟨h1, id, th, h2⟩ := h
  refine ⟨h1, id, Open.hex16 w, fun x => ?_⟩
  rw [h2, show bs "Tghost" = bs "T" ++ bs "ghost" by decide +kernel] at hl
  rw [dis_iff (by decide +kernel), dis_iff (by decide +kernel), app_iff] at hl
  simp only [false_or] at hl
  rw [mem_mergeOne, h2, hl]
  constructor
  · rintro (h | ⟨h | h | h, hn⟩)
    · exact .inr (.inr h)
    · exact .inl h
    · exact .inr (.inl h)
    · exact absurd h hn
  · rintro (h | h | h)
    · exact .inr ⟨.inl h, by rw [h]; exact dis (by decide +kernel) _ _⟩
    · exact .inr ⟨.inr (.inl h), by rw [h, show bs "Tghost" = bs "T" ++ bs "ghost" by decide +kernel]; exact dis (by decide +kernel) _ _⟩
    · exact .inl h

theorem Kept.merge {db0 db : Db} (h : Kept db0 db) (w l : Nat) : Kept db0 (merge db (Open.hex16 w) (Open.hex16 l)) := by
  have hid : ∀ d : Doc, (if bs "G" ++ Open.hex16 l ∈ d.terms then mergeOne (Open.hex16 w) (Open.hex16 l) d else d).docId = d.docId := by intro d; split <;> rfl
  have hs : ∀ d : Doc, SameButThread d (if bs "G" ++ Open.hex16 l ∈ d.terms then mergeOne (Open.hex16 w) (Open.hex16 l) d else d) := by
    intro d; split
    · exact same_mergeOne w l d
    · exact .refl d
  refine ⟨?_, ?_, ?_⟩
  · intro d' hd'
    obtain ⟨d, hd, rfl⟩ := List.mem_map.1 hd'
    rcases h.back d hd with ⟨e, he, hse⟩ | ⟨hg, hn⟩
    · exact .inl ⟨e, he, hse.trans (hs d)⟩
    · right
      refine ⟨?_, fun e he => by rw [hid]; exact hn e he⟩
      split
      · rename_i hm; exact ghost_mergeOne w l hg hm
      · exact hg
  · intro d hd
    obtain ⟨d', hd', hse⟩ := h.forth d hd
    exact ⟨_, List.mem_map.2 ⟨d', hd', rfl⟩, hse.trans (hs d')⟩
  · intro hb d' hd'
    obtain ⟨d, hd, rfl⟩ := List.mem_map.1 hd'
    rw [hid]; exact h.bound hb d hd

theorem putDoc_new {db : Db} {d : Doc} (h : ∀ e ∈ db.docs, e.docId ≠ d.docId) : putDoc db d = { db with docs := db.docs ++ [d] } := by
  unfold putDoc
  rw [if_neg]
  intro hm
  obtain ⟨e, he, hid⟩ := List.mem_map.1 hm
  exact h e he hid

theorem mem_putDoc (db : Db) (d : Doc) : d ∈ (putDoc db d).docs := by
  unfold putDoc
  split
  · rename_i hm
    obtain ⟨e, he, hid⟩ := List.mem_map.1 hm
    exact List.mem_map.2 ⟨e, he, by rw [if_pos hid]⟩
  · simp

theorem mem_putDoc_other {db : Db} {d e : Doc} (h : e.docId ≠ d.docId) : e ∈ (putDoc db d).docs ↔ e ∈ db.docs := by
  unfold putDoc
  split
  · simp only [List.mem_map]
    constructor
    · rintro ⟨x, hx, hxe⟩
      by_cases hid : x.docId = d.docId
      · rw [if_pos hid] at hxe; exact absurd (hxe ▸ rfl) h
      · rw [if_neg hid] at hxe; exact hxe ▸ hx
    · intro he; exact ⟨e, he, by rw [if_neg h]⟩
  · simp only [List.mem_append, List.mem_singleton]
    constructor
    · rintro (h' | rfl)
      · exact h'
      · exact absurd rfl h
    · exact .inl

/-- Resolving a message id. -/
theorem resolve_says (E : Env) {db0 db : Db} {A : Threading.Db} (h : SaysDb db A) {n : Nat} (hr : Room A (n + 1)) (hk : Kept db0 db) (hb : ∀ d ∈ db.docs, d.docId ≤ db.lastDoc)
    (ref : Str) : ∃ db', resolve E db ref = some (Open.hex16 (Threading.resolve (sha1OfString E.digest) A ref).1, db') ∧
      SaysDb db' (Threading.resolve (sha1OfString E.digest) A ref).2 ∧ Room (Threading.resolve (sha1OfString E.digest) A ref).2 n ∧
      (Threading.resolve (sha1OfString E.digest) A ref).1 ≤ (Threading.resolve (sha1OfString E.digest) A ref).2.lastThread ∧
      A.lastThread ≤ (Threading.resolve (sha1OfString E.digest) A ref).2.lastThread ∧ Kept db0 db' ∧ (∀ d ∈ db'.docs, d.docId ≤ db'.lastDoc) := by
  unfold resolve Threading.resolve
  rcases find_says E h ref with ⟨f1, f2⟩ | ⟨d, a, f1, f2, ⟨hi, hs⟩, hd, ha⟩
  · rw [f1, f2]
    simp only [genDoc, genThread, Threading.genDoc, Threading.genThread]
    rw [h.lastThread, h.lastDoc]
    obtain ⟨g, hg, hne, hso, hm⟩ := ghostObject_spec (Threading.normId (sha1OfString E.digest) ref) (A.lastThread + 1)
    rw [hg]
    refine ⟨_, rfl, ?_, ?_, ?_, ?_, ?_⟩
    · unfold written; rw [if_neg hne]
      have h' : SaysDb ⟨db.docs, A.lastThread + 1, A.lastDoc + 1⟩ ⟨A.docs, A.lastThread + 1, A.lastDoc + 1⟩ := ⟨h.docs, rfl, rfl⟩
      exact h'.put (d := ⟨A.lastDoc + 1, (sync g).stored, none⟩) rfl (ghost_says _ _ _ hso hm)
    · have := hr.room
      refine ⟨?_, by unfold Threading.putDoc; split <;> (simp only; omega)⟩
      intro b hb'
      have hlt : (Threading.putDoc ⟨A.docs, A.lastThread + 1, A.lastDoc + 1⟩ ⟨A.lastDoc + 1, Threading.normId (sha1OfString E.digest) ref, .ghost, [A.lastThread + 1], [], []⟩).lastThread = A.lastThread + 1 := by
        unfold Threading.putDoc; split <;> rfl
      rw [hlt]
      have hcase : b ∈ A.docs ∨ b = ⟨A.lastDoc + 1, Threading.normId (sha1OfString E.digest) ref, .ghost, [A.lastThread + 1], [], []⟩ := by
        unfold Threading.putDoc at hb'
        split at hb'
        · obtain ⟨c, hc, hcb⟩ := List.mem_map.1 hb'
          split at hcb
          · exact .inr hcb.symm
          · exact .inl (hcb ▸ hc)
        · rcases List.mem_append.1 hb' with h | h
          · exact .inl h
          · exact .inr (by simpa using h)
      rcases hcase with hb' | rfl
      · obtain ⟨t, ht, hle⟩ := hr.one b hb'
        exact ⟨t, ht, by omega⟩
      · exact ⟨_, rfl, Nat.le_refl _⟩
    · unfold Threading.putDoc; split <;> exact Nat.le_refl _
    · unfold Threading.putDoc; split <;> exact Nat.le_succ _
    · have hfr : ∀ e ∈ db.docs, e.docId ≠ A.lastDoc + 1 := by
        intro e he h0; have := hb e he; rw [h.lastDoc] at this; omega
      unfold written; rw [if_neg hne]
      rw [putDoc_new (db := ⟨db.docs, A.lastThread + 1, A.lastDoc + 1⟩) (d := ⟨A.lastDoc + 1, (sync g).stored, none⟩) hfr]
      refine ⟨⟨?_, ?_, ?_⟩, ?_⟩
      · intro d' hd'
        rcases List.mem_append.1 hd' with h1 | h1
        · exact hk.back d' h1
        · right
          obtain rfl := List.mem_singleton.1 h1
          refine ⟨⟨rfl, _, _, hm⟩, fun e he => ?_⟩
          obtain ⟨e', he', hse⟩ := hk.forth e he
          rw [← hse.docId]; exact hfr e' he'
      · intro e he
        obtain ⟨e', he', hse⟩ := hk.forth e he
        exact ⟨e', by simp [he'], hse⟩
      all_goals
        intros
        rename_i hd'
        rcases List.mem_append.1 hd' with h1 | h1
        · have := hb _ h1; rw [h.lastDoc] at this; simp only; omega
        · obtain rfl := List.mem_singleton.1 h1; exact Nat.le_refl _
  · rw [f1, f2]
    obtain ⟨t, ht, hle⟩ := hr.one a ha
    have := hr.room
    simp only
    rw [threadOf_says hs ht, Threading.thread_eq ht]
    exact ⟨db, rfl, h, ⟨hr.one, by omega⟩, hle, Nat.le_refl _, hk, hb⟩

end Notmuch.AddFile
