import Verif.Proofs.AddFile

/-! # Adding a file: the whole -/

namespace Notmuch.AddFile

open Notmuch.TermList
open Notmuch.Message (Handle addTermTo removeTermFrom sync prefixOf)
open Notmuch.Reindex (Adds adds_maybe adds_addTermTo adds_sync)

attribute [local irreducible] Open.hex16

/-- The state of the loop over the parents: `t0` is the thread and `T0` are the terms before. -/
structure Linked (E : Env) (db0 : Db) (t0 : Option Nat) (T0 : List Str) (done : List Str) (n : Nat) (s : Link) (S : Threading.Link) : Prop where
  says : SaysDb s.db S.db
  cur : Says s.h.terms S.cur
  tid : s.thread = S.tid.map Open.hex16
  tidBound : ∀ t, S.tid = some t → t ≤ S.db.lastThread
  first : ∀ t, t0 = some t → S.tid = some t
  room : Room S.db n
  kept : Kept db0 s.db
  bound : ∀ d ∈ s.db.docs, d.docId ≤ s.db.lastDoc
  writable : s.h.writable = true
  modified : s.h.modified = true
  terms : ∀ x, x ∈ s.h.terms ↔ x ∈ T0 ∨ (∃ r ∈ done, Term (bs "XREFERENCE") r x) ∨ ∃ t, t0 = none ∧ S.tid = some t ∧ x = bs "G" ++ Open.hex16 t

theorem add_thread (t : Nat) (h : Handle) : Adds h ((addTermTo (bs "thread") (Open.hex16 t) h).getD h) (fun x => x = bs "G" ++ Open.hex16 t) ∧
    ((addTermTo (bs "thread") (Open.hex16 t) h).getD h).modified = true := by
  have e1 : (bs "G").length = 1 := by decide
  obtain ⟨h', g, a, m⟩ := adds_addTermTo (n := bs "thread") (v := Open.hex16 t) (h := h) (by rw [prefix_thr, List.length_append, e1, hex16_length]; omega)
  rw [g, prefix_thr] at *
  exact ⟨a, m⟩

theorem linkParent_says (E : Env) {db0 : Db} {t0 : Option Nat} {T0 done : List Str} {n : Nat} {s : Link} {S : Threading.Link}
    (h : Linked E db0 t0 T0 done (n + 1) s S) (ref : Str) :
    ∃ s', linkParent E s ref = some s' ∧ Linked E db0 t0 T0 (done ++ [ref]) n s' (Threading.linkParent (sha1OfString E.digest) S ref) := by
  obtain ⟨a1, m1⟩ := adds_maybe (bs "reference") ref s.h
  rw [prefix_ref] at a1
  have c1 := h.cur.ref (a1.sorted h.cur.sorted) a1.mem
  have m1 := m1 h.modified
  have w1 := a1.writable.trans h.writable
  obtain ⟨db', r1, r2, r3, r4, r5, r6, r7⟩ := resolve_says E h.says h.room h.kept h.bound ref
  have hT : ∀ x, x ∈ ((addTermTo (bs "reference") ref s.h).getD s.h).terms ↔ x ∈ T0 ∨ (∃ r ∈ done ++ [ref], Term (bs "XREFERENCE") r x) ∨ ∃ t, t0 = none ∧ S.tid = some t ∧ x = bs "G" ++ Open.hex16 t := by
    intro x
    rw [a1.mem, h.terms]
    simp only [List.mem_append, List.mem_singleton, or_and_right, exists_or, exists_eq_left]
    unfold Term
    grind
  unfold linkParent Threading.linkParent
  generalize (addTermTo (bs "reference") ref s.h).getD s.h = h1 at a1 c1 m1 w1 hT
  generalize Threading.resolve (sha1OfString E.digest) S.db ref = R at r1 r2 r3 r4 r5
  obtain ⟨pt, A'⟩ := R
  simp only at r1 r2 r3 r4 r5
  rw [r1]
  simp only [h.tid]
  cases ht : S.tid with
  | none =>
    simp only [Option.map_none]
    obtain ⟨a2, m2⟩ := add_thread pt h1
    refine ⟨_, rfl, r2, c1.thread (a2.sorted c1.sorted) a2.mem, rfl, ?_, ?_, r3, r6, r7, a2.writable.trans w1, m2, ?_⟩
    · rintro t ⟨⟩; exact r4
    · intro t e; have := h.first t e; rw [ht] at this; cases this
    · intro x
      rw [a2.mem, hT, ht]
      have ht0 : t0 = none := by
        cases e : t0 with
        | none => rfl
        | some t => have := h.first t e; rw [ht] at this; cases this
      simp [ht0, or_assoc]
  | some t =>
    simp only [Option.map_some]
    have htb : t ≤ A'.lastThread := Nat.le_trans (h.tidBound t ht) r5
    have hinj : Open.hex16 t = Open.hex16 pt ↔ t = pt := by
      have := r3.room
      exact ⟨Open.hex16_inj (by omega) (by omega), fun e => by rw [e]⟩
    rw [ht] at hT
    by_cases he : t = pt
    · rw [if_pos (hinj.2 he), if_pos he]
      refine ⟨_, rfl, r2, c1, rfl, ?_, ?_, r3, r6, r7, w1, m1, hT⟩
      · rintro u ⟨⟩; exact htb
      · intro u e; have := h.first u e; rw [ht] at this; exact this
    · rw [if_neg (fun e => he (hinj.1 e)), if_neg he]
      refine ⟨_, rfl, r2.merge r3 r4, c1, rfl, ?_, ?_, r3.merge htb, r6.merge t pt, ?_, w1, m1, hT⟩
      · rintro u ⟨⟩; exact htb
      · intro u e; have := h.first u e; rw [ht] at this; exact this
      · have hmb := ((Kept.refl db').merge t pt).bound r7
        exact hmb

theorem linkParents_says (E : Env) {db0 : Db} {t0 : Option Nat} {T0 : List Str} {n : Nat} : ∀ (refs : List Str) {done : List Str} {s : Link} {S : Threading.Link},
    Linked E db0 t0 T0 done (n + refs.length) s S →
    ∃ s', linkParents E refs s = some s' ∧ Linked E db0 t0 T0 (done ++ refs) n s' (refs.foldl (Threading.linkParent (sha1OfString E.digest)) S)
  | [], done, s, S, h => ⟨s, rfl, by simpa using h⟩
  | r :: refs, done, s, S, h => by
    obtain ⟨s1, e1, h1⟩ := linkParent_says E (n := n + refs.length) (by simpa [Nat.add_assoc] using h) r
    obtain ⟨s2, e2, h2⟩ := linkParents_says E refs h1
    refine ⟨s2, by unfold linkParents; rw [e1, Option.bind_some, e2], ?_⟩
    simpa using h2

theorem finish_says (E : Env) {db0 : Db} {t0 : Option Nat} {T0 done : List Str} {n : Nat} {s : Link} {S : Threading.Link} (h : Linked E db0 t0 T0 done (n + 1) s S) :
    Linked E db0 t0 T0 done n (finishThread s) (Threading.finishThread S) ∧ (Threading.finishThread S).tid ≠ none := by
  unfold finishThread Threading.finishThread
  have := h.room.room
  cases ht : S.tid with
  | some t =>
    rw [h.tid, ht]
    simp only [Option.map_some]
    exact ⟨⟨h.says, h.cur, h.tid, h.tidBound, h.first, ⟨h.room.one, by omega⟩, h.kept, h.bound, h.writable, h.modified, h.terms⟩, by simp⟩
  | none =>
    rw [h.tid, ht]
    simp only [Option.map_none, genThread, Threading.genThread]
    refine ⟨?_, by simp⟩
    rw [h.says.lastThread]
    obtain ⟨a2, m2⟩ := add_thread (S.db.lastThread + 1) s.h
    refine ⟨⟨h.says.docs, rfl, h.says.lastDoc⟩, h.cur.thread (a2.sorted h.cur.sorted) a2.mem, rfl, ?_, ?_, ⟨?_, ?_⟩, ⟨h.kept.back, h.kept.forth, h.kept.bound⟩, h.bound,
      a2.writable.trans h.writable, m2, ?_⟩
    · rintro t ⟨⟩; exact Nat.le_refl _
    · intro t e; have := h.first t e; rw [ht] at this; cases this
    · intro a ha; obtain ⟨t, h1, h2⟩ := h.room.one a ha; exact ⟨t, h1, Nat.le_succ_of_le h2⟩
    · simp only; omega
    · intro x
      rw [a2.mem, h.terms, ht]
      have ht0 : t0 = none := by
        cases e : t0 with
        | none => rfl
        | some t => have := h.first t e; rw [ht] at this; cases this
      simp [ht0, or_assoc]

/-! ## The name -/

theorem nameTerm_cases {W : Message.World} {e x : Str} (h : NameTerm W e x) : x = bs "XFDIRENTRY" ++ e ∨ bs "XFOLDER:" <+: x ∨ bs "P" <+: x := by
  obtain ⟨id, base, d, _, _, h | h | ⟨p, _, h⟩⟩ := h
  · exact .inl h
  · exact .inr (.inl ⟨_, h.symm⟩)
  · exact .inr (.inr ⟨_, h.symm⟩)

theorem nameTerm_not {W : Message.World} {e x p : Str} (h : NameTerm W e (p ++ x)) (hp : p ∈ [bs "Q", bs "G", bs "T", bs "XREFERENCE", bs "XREPLYTO"]) : False := by
  have key : ∀ q ∈ [bs "XFDIRENTRY", bs "XFOLDER:", bs "P"], ¬ p <+: q ∧ ¬ q <+: p := by
    intro q hq
    simp only [List.mem_cons, List.not_mem_nil, or_false] at hp hq
    rcases hp with rfl | rfl | rfl | rfl | rfl <;> rcases hq with rfl | rfl | rfl <;> decide +kernel
  rcases nameTerm_cases h with h | ⟨y, h⟩ | ⟨y, h⟩
  · exact dis (key _ (by simp)) _ _ h
  · exact dis (key _ (by simp)) _ _ h.symm
  · exact dis (key _ (by simp)) _ _ h.symm

theorem nameTerm_file {W : Message.World} {e x : Str} (hn : ∃ f, Message.nameOf W e f) : NameTerm W e (bs "XFDIRENTRY" ++ x) ↔ x = e := by
  constructor
  · intro h
    rcases nameTerm_cases h with h | ⟨y, h⟩ | ⟨y, h⟩
    · exact List.append_cancel_left h
    · exact absurd h (dis (by decide +kernel) _ _)
    · exact absurd h (dis (by decide +kernel) _ _)
  · rintro rfl
    obtain ⟨f, id, base, d, h1, h2, _⟩ := hn
    exact ⟨id, base, d, h1, h2, .inl rfl⟩

/-- The name of the file and the type. -/
theorem addName_spec {E : Env} {name e : Str} (hW : E.W.Ok) (he : E.entry name = some e) (hl : e.length ≤ 235) (hn : ∃ f, Message.nameOf E.W e f) (new ghost : Bool) (hg : ghost = true → new = true)
    (h : Handle) (hw : h.writable = true) (hs : Sorted h.terms) : ∃ h', addName E name new ghost h = some (h', .success) ∧ h'.writable = true ∧ h'.modified = true ∧ Sorted h'.terms ∧
      ∀ x, x ∈ h'.terms ↔ ((x ∈ h.terms ∨ NameTerm E.W e x) ∧ ¬ (ghost = true ∧ x = bs "Tghost")) ∨ (new = true ∧ x = bs "Tmail") := by
  obtain ⟨h1, e1, a1⟩ := Reindex.adds_filename hW hl hn h
  have m1 : h1.modified = true := by
    -- the entry is always added
    obtain ⟨h0, e0, a0, m0⟩ := adds_addTermTo (n := bs "file-direntry") (v := e) (h := h) (by
      rw [Message.prefix_file, List.length_append, show (bs "XFDIRENTRY").length = 10 by decide +kernel]; omega)
    obtain ⟨f, id, base, d, rfl, hd, _⟩ := hn
    unfold Message.addFilename at e1
    simp only [e0, Message.parse_entry, hd] at e1
    cases hdt : Message.addDirTerms E.W d h0 with
    | none => rw [hdt] at e1; cases e1
    | some h2 =>
      rw [hdt] at e1
      simp only [Option.some.injEq, Prod.mk.injEq, and_true] at e1
      subst e1
      unfold Message.addDirTerms at hdt
      have hf : ∀ (l : List Str) (o : Option Handle), (∀ g, o = some g → g.modified = true) → ∀ g, l.foldl (fun (h : Option Handle) p => h.bind (addTermTo (bs "path") p)) o = some g → g.modified = true := by
        intro l
        induction l with
        | nil => intro o ho g hg; exact ho g hg
        | cons p l ih =>
          intro o ho g hg
          refine ih _ ?_ g hg
          intro g' hg'
          cases o with
          | none => cases hg'
          | some g0 =>
            replace hg' : addTermTo (bs "path") p g0 = some g' := hg'
            unfold addTermTo at hg'
            simp only at hg'
            split at hg'
            · cases hg'
            · simp only [Option.some.injEq] at hg'
              rw [← hg', Reindex.invalidate_modified]
      cases hfo : addTermTo (bs "folder") (E.W.folder d) h0 with
      | none => rw [hfo] at hdt; cases hdt
      | some h3 =>
        rw [hfo] at hdt
        refine hf _ (some h3) ?_ _ hdt
        rintro g ⟨⟩
        unfold addTermTo at hfo
        simp only at hfo
        split at hfo
        · cases hfo
        · simp only [Option.some.injEq] at hfo
          rw [← hfo, Reindex.invalidate_modified]
  have hm1 : ∀ x, x ∈ h1.terms ↔ x ∈ h.terms ∨ NameTerm E.W e x := a1.mem
  unfold addName
  rw [he]
  simp only [e1]
  cases new with
  | false =>
    have : ghost = false := by cases ghost with
      | false => rfl
      | true => exact absurd (hg rfl) (by simp)
    subst this
    refine ⟨h1, rfl, a1.writable.trans hw, m1, a1.sorted hs, fun x => ?_⟩
    rw [hm1]; simp
  | true =>
    obtain ⟨h2, e2, a2, m2⟩ := adds_addTermTo (n := bs "type") (v := bs "mail") (h := h1) (by decide +kernel)
    have et : prefixOf (bs "type") ++ bs "mail" = bs "Tmail" := by decide +kernel
    rw [et] at a2
    simp only [e2, if_true]
    cases ghost with
    | false =>
      refine ⟨h2, rfl, a2.writable.trans (a1.writable.trans hw), m2, a2.sorted (a1.sorted hs), fun x => ?_⟩
      rw [a2.mem, hm1]; simp
    | true =>
      have eg : prefixOf (bs "type") ++ bs "ghost" = bs "Tghost" := by decide +kernel
      have hlen : ¬ (bs "Tghost").length > 245 := by decide +kernel
      unfold removeTermFrom
      simp only [eg, if_neg hlen, Option.map_some, if_true]
      refine ⟨_, rfl, ?_, ?_, ?_, fun x => ?_⟩
      · rw [Message.invalidate_writable]; exact a2.writable.trans (a1.writable.trans hw)
      · rw [Reindex.invalidate_modified]; simp [m2]
      · rw [Message.invalidate_terms]; exact sorted_removeTerm (a2.sorted (a1.sorted hs))
      · rw [Message.invalidate_terms, mem_removeTerm, a2.mem, hm1]
        have : bs "Tmail" ≠ bs "Tghost" := by decide +kernel
        constructor
        · rintro ⟨h | rfl, hn⟩
          · exact .inl ⟨h, fun h' => hn h'.2⟩
          · exact .inr ⟨trivial, rfl⟩
        · rintro (⟨h, hn⟩ | ⟨_, rfl⟩)
          · exact ⟨.inl h, fun h' => hn ⟨trivial, h'⟩⟩
          · exact ⟨.inr rfl, this⟩

/-- After the name, a new message. -/
theorem named_new {W : Message.World} {e : Str} (hn : ∃ f, Message.nameOf W e f) {T : List Str} (hs : Sorted T) (id : Str) (n : Nat)
    (hm : ∀ x, x ∈ T ↔ x = bs "Q" ++ id ∨ NameTerm W e x ∨ x = bs "Tmail") : Says T ⟨n, id, .mail, [], [], [e]⟩ := by
  have et : bs "Tmail" = bs "T" ++ bs "mail" := by decide +kernel
  rw [et] at hm
  have nn : ∀ {p x : Str}, p ∈ [bs "Q", bs "G", bs "T", bs "XREFERENCE", bs "XREPLYTO"] → (NameTerm W e (p ++ x) ↔ False) := fun hp => ⟨fun h => nameTerm_not h hp, False.elim⟩
  refine ⟨hs, ?_, ?_, ?_, ?_, ?_⟩ <;> intro x <;> rw [hm]
  · rw [app_iff, nn (by simp), dis_iff (by decide +kernel)]; simp
  · rw [app_iff, nn (by simp), dis_iff (by decide +kernel)]; simp [kindTerm]
  · rw [nn (by simp), dis_iff (by decide +kernel), dis_iff (by decide +kernel)]; simp
  · rw [nn (by simp), dis_iff (by decide +kernel), dis_iff (by decide +kernel)]; simp
  · rw [nameTerm_file hn, dis_iff (by decide +kernel), dis_iff (by decide +kernel)]; simp

/-- After the name, a message or ghost that was there. -/
theorem named_old {W : Message.World} {e : Str} (hn : ∃ f, Message.nameOf W e f) {T0 T : List Str} {a : Threading.Doc} (h : Says T0 a) (hs : Sorted T) {g : Bool} (hg : g = decide (a.kind = .ghost))
    (hm : ∀ x, x ∈ T ↔ ((x ∈ T0 ∨ NameTerm W e x) ∧ ¬ (g = true ∧ x = bs "Tghost")) ∨ (g = true ∧ x = bs "Tmail")) :
    Says T { a with kind := .mail, files := Threading.addTo a.files e } := by
  have et : bs "Tmail" = bs "T" ++ bs "mail" := by decide +kernel
  have eg : bs "Tghost" = bs "T" ++ bs "ghost" := by decide +kernel
  rw [et, eg] at hm
  have nn : ∀ {p x : Str}, p ∈ [bs "Q", bs "G", bs "T", bs "XREFERENCE", bs "XREPLYTO"] → (NameTerm W e (p ++ x) ↔ False) := fun hp => ⟨fun h => nameTerm_not h hp, False.elim⟩
  refine ⟨hs, ?_, ?_, ?_, ?_, ?_⟩ <;> intro x <;> rw [hm]
  · rw [nn (by simp), dis_iff (by decide +kernel), dis_iff (by decide +kernel)]; simp [h.id]
  · rw [nn (by simp), app_iff, app_iff, h.kind]
    have hmg : bs "mail" ≠ bs "ghost" := by decide +kernel
    cases hk : a.kind with
    | mail => simp [hg, hk, kindTerm]
    | ghost =>
      simp only [hg, hk, decide_true, true_and, kindTerm, or_false]
      constructor
      · rintro (⟨h1, h2⟩ | h)
        · exact absurd h1 h2
        · exact h
      · exact .inr
  · rw [nn (by simp), dis_iff (by decide +kernel), dis_iff (by decide +kernel)]; simp [h.threads]
  · rw [nn (by simp), dis_iff (by decide +kernel), dis_iff (by decide +kernel)]; simp [h.refs]
  · rw [nameTerm_file hn, dis_iff (by decide +kernel), dis_iff (by decide +kernel)]; simp [h.files, Threading.mem_addTo]

end Notmuch.AddFile
