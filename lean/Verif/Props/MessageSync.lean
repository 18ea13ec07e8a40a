import Verif.Spec.MessageSync

/-!
# C13, C14, C15: freezing messages, revisions, atomic sections (lib/message.cc, lib/database.cc)
-/

namespace Notmuch.Props
open Notmuch.MessageSync Notmuch.MessageSpec

/-! ### C13 -/

/-- Nothing is unsaved unless the message is frozen; an unmodified object shows what is stored. -/
def Synced (s : State) : Prop :=
  (s.h.frozen = 0 → s.h.modified = false) ∧
  (s.h.modified = false → s.db.view s.h.docId = some s.h.doc)

theorem sync_terms (s : State) : (sync s).h.doc.terms = s.h.doc.terms ∧ (sync s).h.frozen = s.h.frozen ∧
    (sync s).h.docId = s.h.docId ∧ (sync s).db.writable = s.db.writable ∧
    (∀ i, i ≠ s.h.docId → (sync s).db.view i = s.db.view i) := by
  unfold sync
  split
  · simp
  · split
    · simp
    · simp only [writeDoc, newRevision]
      split <;> simp_all [replaceDoc]

theorem suf_terms (s : State) : (syncUnlessFrozen s).h.doc.terms = s.h.doc.terms ∧
    (syncUnlessFrozen s).h.frozen = s.h.frozen ∧
    (syncUnlessFrozen s).h.docId = s.h.docId ∧ (syncUnlessFrozen s).db.writable = s.db.writable ∧
    (∀ i, i ≠ s.h.docId → (syncUnlessFrozen s).db.view i = s.db.view i) := by
  unfold syncUnlessFrozen
  split
  · exact sync_terms s
  · simp

/-- After the conditional sync nothing is unsaved, provided an unmodified object is in step. -/
theorem suf_synced (s : State) (hw : s.db.writable = true)
    (h : s.h.modified = false → s.db.view s.h.docId = some s.h.doc) :
    Synced (syncUnlessFrozen s) := by
  unfold syncUnlessFrozen
  by_cases hf : s.h.frozen = 0
  · rw [if_pos hf]
    unfold sync
    rw [if_neg (by simp [hw])]
    split
    · rename_i hm; exact ⟨fun _ => hm, h⟩
    · simp [Synced, writeDoc, replaceDoc]
  · rw [if_neg hf]
    exact ⟨fun h0 => absurd h0 hf, h⟩

theorem addTerm_facts (s : State) (t : Term) :
    (∀ x, x ∈ (addTerm s t).h.doc.terms ↔ x = t ∨ x ∈ s.h.doc.terms) ∧
    (addTerm s t).db = s.db ∧ (addTerm s t).h.frozen = s.h.frozen ∧
    (addTerm s t).h.docId = s.h.docId ∧ (addTerm s t).h.modified = true := by
  refine ⟨?_, rfl, rfl, rfl, rfl⟩
  intro x
  simp only [addTerm]
  split
  · rename_i h
    constructor
    · exact Or.inr
    · rintro (rfl | h') <;> assumption
  · simp [or_comm]

theorem removeTerm_facts (s : State) (t : Term) :
    (∀ x, x ∈ (removeTerm s t).h.doc.terms ↔ x ≠ t ∧ x ∈ s.h.doc.terms) ∧
    (removeTerm s t).db = s.db ∧ (removeTerm s t).h.frozen = s.h.frozen ∧
    (removeTerm s t).h.docId = s.h.docId ∧
    ((removeTerm s t).h.modified = false → (removeTerm s t).h = s.h ∧ s.h.modified = false) := by
  unfold removeTerm
  split
  · rename_i h
    refine ⟨?_, rfl, rfl, rfl, by simp⟩
    intro x; simp [and_comm]
  · rename_i h
    refine ⟨?_, rfl, rfl, rfl, fun h => ⟨rfl, h⟩⟩
    intro x
    constructor
    · intro hx; exact ⟨by rintro rfl; exact h hx, hx⟩
    · exact fun hx => hx.2

theorem removeTerms_facts (ts : List Term) : ∀ s : State,
    (∀ x, x ∈ (ts.foldl removeTerm s).h.doc.terms ↔ x ∉ ts ∧ x ∈ s.h.doc.terms) ∧
    (ts.foldl removeTerm s).db = s.db ∧ (ts.foldl removeTerm s).h.frozen = s.h.frozen ∧
    (ts.foldl removeTerm s).h.docId = s.h.docId ∧
    ((ts.foldl removeTerm s).h.modified = false → (ts.foldl removeTerm s).h = s.h ∧ s.h.modified = false) := by
  induction ts with
  | nil => intro s; simp
  | cons t ts ih =>
    intro s
    obtain ⟨a1, a2, a3, a4, a5⟩ := removeTerm_facts s t
    obtain ⟨b1, b2, b3, b4, b5⟩ := ih (removeTerm s t)
    simp only [List.foldl_cons]
    refine ⟨?_, b2.trans a2, b3.trans a3, b4.trans a4, ?_⟩
    · intro x; rw [b1, a1]; simp only [List.mem_cons, not_or, ne_eq, and_assoc, and_left_comm]
    · intro h
      obtain ⟨c1, c2⟩ := b5 h
      obtain ⟨d1, d2⟩ := a5 c2
      exact ⟨c1.trans d1, d2⟩

/-- Everything one call does. -/
theorem call_facts (s : State) (c : Call) (hw : s.db.writable = true) (hs : Synced s) :
    let s' := (call s c).2
    s'.db.writable = true ∧ s'.h.docId = s.h.docId ∧ s'.h.frozen = depth s.h.frozen [c] ∧
    (∀ x, x ∈ s'.h.doc.terms ↔ after c (· ∈ s.h.doc.terms) x) ∧ Synced s' ∧
    (∀ i, i ≠ s.h.docId → s'.db.view i = s.db.view i) ∧
    (s'.h.frozen > 0 → s'.db = s.db) := by
  have hadd : ∀ t : Term, let s' := syncUnlessFrozen (addTerm s t)
      s'.db.writable = true ∧ s'.h.docId = s.h.docId ∧ s'.h.frozen = s.h.frozen ∧
      (∀ x, x ∈ s'.h.doc.terms ↔ x = t ∨ x ∈ s.h.doc.terms) ∧ Synced s' ∧
      (∀ i, i ≠ s.h.docId → s'.db.view i = s.db.view i) ∧ (s'.h.frozen > 0 → s'.db = s.db) := by
    intro t
    obtain ⟨a1, a2, a3, a4, a5⟩ := addTerm_facts s t
    obtain ⟨b1, b2, b3, b4, b5⟩ := suf_terms (addTerm s t)
    refine ⟨by rw [b4, a2, hw], b3.trans a4, b2.trans a3, ?_, ?_, ?_, ?_⟩
    · intro x; rw [b1]; exact a1 x
    · apply suf_synced _ (by rw [a2, hw])
      intro h; rw [a5] at h; simp at h
    · intro i hi
      rw [b5 i (by rw [a4]; exact hi), a2]
    · intro h
      rw [b2] at h
      unfold syncUnlessFrozen
      rw [if_neg (by omega), a2]
  have hrem : ∀ s1 : State, (∃ ts : List Term, s1 = ts.foldl removeTerm s) → let s' := syncUnlessFrozen s1
      s'.db.writable = true ∧ s'.h.docId = s.h.docId ∧ s'.h.frozen = s.h.frozen ∧
      (∀ x, x ∈ s'.h.doc.terms ↔ x ∈ s1.h.doc.terms) ∧ Synced s' ∧
      (∀ i, i ≠ s.h.docId → s'.db.view i = s.db.view i) ∧ (s'.h.frozen > 0 → s'.db = s.db) := by
    rintro s1 ⟨ts, rfl⟩
    obtain ⟨a1, a2, a3, a4, a5⟩ := removeTerms_facts ts s
    obtain ⟨b1, b2, b3, b4, b5⟩ := suf_terms (ts.foldl removeTerm s)
    refine ⟨by rw [b4, a2, hw], b3.trans a4, b2.trans a3, ?_, ?_, ?_, ?_⟩
    · intro x; rw [b1]
    · apply suf_synced _ (by rw [a2, hw])
      intro h
      obtain ⟨c1, c2⟩ := a5 h
      rw [c1, a2]
      exact hs.2 c2
    · intro i hi
      rw [b5 i (by rw [a4]; exact hi), a2]
    · intro h
      rw [b2] at h
      unfold syncUnlessFrozen
      rw [if_neg (by omega), a2]
  have hsame : s.db.writable = true ∧ s.h.docId = s.h.docId ∧ s.h.frozen = s.h.frozen ∧
      (∀ x, x ∈ s.h.doc.terms ↔ x ∈ s.h.doc.terms) ∧ Synced s ∧
      (∀ i, i ≠ s.h.docId → s.db.view i = s.db.view i) ∧ (s.h.frozen > 0 → s.db = s.db) :=
    ⟨hw, rfl, rfl, fun _ => Iff.rfl, hs, fun _ _ => rfl, fun _ => rfl⟩
  cases c with
  | freeze =>
    simp only [call, hw, Bool.true_eq_false, if_false]
    exact ⟨trivial, trivial, by simp [depth], by simp [after], ⟨by simp, hs.2⟩, by simp, by simp⟩
  | thaw =>
    simp only [call, hw, Bool.true_eq_false, if_false]
    by_cases hf : s.h.frozen > 0
    · rw [if_pos hf]
      obtain ⟨b1, b2, b3, b4, b5⟩ := suf_terms { s with h := { s.h with frozen := s.h.frozen - 1 } }
      refine ⟨by rw [b4]; exact hw, b3, by rw [b2]; simp [depth], by intro x; rw [b1]; simp [after],
        suf_synced _ hw hs.2, b5, ?_⟩
      intro h
      rw [b2] at h
      unfold syncUnlessFrozen
      rw [if_neg (Nat.ne_of_gt h)]
    · rw [if_neg hf]
      exact ⟨hw, rfl, by simp [depth]; omega, by simp [after], hs, by simp, by simp⟩
  | addTag t =>
    simp only [call, hw, Bool.true_eq_false, if_false, after, depth]
    by_cases ht : t.length > tagMax
    · rw [if_pos ht]
      have ht' : ¬ t.length ≤ 200 := by unfold tagMax at ht; omega
      simpa only [ht', false_and, false_or] using hsame
    · rw [if_neg ht]
      have ht' : t.length ≤ 200 := by unfold tagMax at ht; omega
      simpa only [ht', true_and] using hadd (.tag t)
  | removeTag t =>
    simp only [call, hw, Bool.true_eq_false, if_false, after, depth]
    by_cases ht : t.length > tagMax
    · rw [if_pos ht]
      have ht' : ¬ t.length ≤ 200 := by unfold tagMax at ht; omega
      simpa only [ht', false_and, not_false_eq_true, true_and] using hsame
    · rw [if_neg ht]
      have ht' : t.length ≤ 200 := by unfold tagMax at ht; omega
      have := hrem (removeTerm s (.tag t)) ⟨[.tag t], rfl⟩
      simpa only [ht', true_and, (removeTerm_facts s (.tag t)).1] using this
  | removeAllTags =>
    simp only [call, hw, Bool.true_eq_false, if_false, after, depth]
    have := hrem ((s.h.doc.terms.filter Term.isTag).foldl removeTerm s) ⟨_, rfl⟩
    obtain ⟨c1, c2, c3, c4, c5⟩ := this
    refine ⟨c1, c2, c3, ?_, c5⟩
    intro x
    rw [c4, (removeTerms_facts _ s).1, List.mem_filter]
    constructor
    · rintro ⟨h1, h2⟩
      refine ⟨?_, h2⟩
      rintro t rfl
      exact h1 ⟨h2, rfl⟩
    · rintro ⟨h1, h2⟩
      refine ⟨?_, h2⟩
      rintro ⟨_, h3⟩
      cases x with
      | tag t => exact h1 t rfl
      | prop k v => simp [Term.isTag] at h3
  | addProp k v =>
    simp only [call, hw, Bool.true_eq_false, if_false, after, depth]
    by_cases hk : 61 ∈ k
    · rw [if_pos hk]
      simpa only [hk, not_true_eq_false, false_and, false_or] using hsame
    · rw [if_neg hk]
      by_cases ht : k.length + 1 + v.length > propMax
      · rw [if_pos ht]
        have ht' : ¬ k.length + v.length < 236 := by unfold propMax at ht; omega
        simpa only [ht', false_and, and_false, false_or] using hsame
      · rw [if_neg ht]
        have ht' : k.length + v.length < 236 := by unfold propMax at ht; omega
        simpa only [hk, not_false_eq_true, ht', true_and] using hadd (.prop k v)
  | removeProp k v =>
    simp only [call, hw, Bool.true_eq_false, if_false, after, depth]
    by_cases hk : 61 ∈ k
    · rw [if_pos hk]
      simpa only [hk, not_true_eq_false, false_and, not_false_eq_true, true_and] using hsame
    · rw [if_neg hk]
      by_cases ht : k.length + 1 + v.length > propMax
      · rw [if_pos ht]
        have ht' : ¬ k.length + v.length < 236 := by unfold propMax at ht; omega
        simpa only [ht', false_and, and_false, not_false_eq_true, true_and] using hsame
      · rw [if_neg ht]
        have ht' : k.length + v.length < 236 := by unfold propMax at ht; omega
        have := hrem (removeTerm s (.prop k v)) ⟨[.prop k v], rfl⟩
        simpa only [hk, not_false_eq_true, ht', true_and, (removeTerm_facts s (.prop k v)).1] using this

theorem after_congr (c : Call) (P Q : Term → Prop) (h : ∀ x, P x ↔ Q x) (x : Term) :
    after c P x ↔ after c Q x := by
  cases c <;> simp [after, h]

theorem afterAll_congr (cs : List Call) : ∀ (P Q : Term → Prop), (∀ x, P x ↔ Q x) → ∀ x,
    afterAll cs P x ↔ afterAll cs Q x := by
  induction cs with
  | nil => intro P Q h x; exact h x
  | cons c cs ih => intro P Q h x; exact ih _ _ (after_congr c P Q h) x

theorem depth_cons (n : Nat) (c : Call) (cs : List Call) : depth n (c :: cs) = depth (depth n [c]) cs := by
  cases c <;> rfl

theorem depth_append (cs cs' : List Call) : ∀ n, depth n (cs ++ cs') = depth (depth n cs) cs' := by
  induction cs with
  | nil => intro n; rfl
  | cons c cs ih => intro n; rw [List.cons_append, depth_cons, ih, depth_cons n c cs]

theorem calls_facts (cs : List Call) : ∀ s : State, s.db.writable = true → Synced s →
    (calls s cs).db.writable = true ∧ (calls s cs).h.docId = s.h.docId ∧
    (calls s cs).h.frozen = depth s.h.frozen cs ∧
    (∀ x, x ∈ (calls s cs).h.doc.terms ↔ afterAll cs (· ∈ s.h.doc.terms) x) ∧ Synced (calls s cs) ∧
    (∀ i, i ≠ s.h.docId → (calls s cs).db.view i = s.db.view i) := by
  induction cs with
  | nil => intro s hw hs; exact ⟨hw, rfl, rfl, fun _ => Iff.rfl, hs, fun _ _ => rfl⟩
  | cons c cs ih =>
    intro s hw hs
    obtain ⟨a1, a2, a3, a4, a5, a6, _⟩ := call_facts s c hw hs
    obtain ⟨b1, b2, b3, b4, b5, b6⟩ := ih (call s c).2 a1 a5
    refine ⟨b1, b2.trans a2, ?_, ?_, b5, ?_⟩
    · rw [depth_cons, ← a3]; exact b3
    · intro x
      have := b4 x
      refine this.trans ?_
      exact afterAll_congr cs _ _ a4 x
    · intro i hi
      exact (b6 i (by rw [a2]; exact hi)).trans (a6 i hi)

theorem calls_append (s : State) (cs cs' : List Call) : calls s (cs ++ cs') = calls (calls s cs) cs' :=
  List.foldl_append

theorem _root_.Notmuch.MessageSpec.Fresh.synced {s : State} (h : Fresh s) : Synced s := ⟨fun _ => h.modified, fun _ => h.stored⟩

/-- **C13** (the result): after any sequence of calls on a message object that leaves it unfrozen, the
database holds exactly the tags and properties that the calls, in order, produce. -/
theorem C13_unfrozen_saved (s : State) (hs : Fresh s) (cs : List Call) (h0 : depth 0 cs = 0) :
    ∃ d, (calls s cs).db.view s.h.docId = some d ∧
      ∀ x, x ∈ d.terms ↔ afterAll cs (· ∈ s.h.doc.terms) x := by
  obtain ⟨b1, b2, b3, b4, b5, b6⟩ := calls_facts cs s hs.writable hs.synced
  rw [hs.frozen, h0] at b3
  refine ⟨_, b2 ▸ b5.2 (b5.1 b3), b4⟩

/-- **C13** (the freeze): what the database holds, while the message is frozen, is what it held when
the message was frozen: no call between a freeze and the matching thaw is visible, whatever other
calls (and inner freeze/thaw pairs) come between. -/
theorem C13_frozen_invisible (s : State) (hs : Fresh s) (before mid : List Call)
    (hmid : ∀ p, p <+: mid → depth (depth 0 before + 1) p > 0) :
    (calls s (before ++ .freeze :: mid)).db = (calls s before).db := by
  obtain ⟨b1, b2, b3, b4, b5, b6⟩ := calls_facts before s hs.writable hs.synced
  rw [calls_append]
  rw [hs.frozen] at b3
  have key : ∀ (mid : List Call) (s1 : State), s1.db.writable = true → Synced s1 →
      (∀ p, p <+: mid → depth s1.h.frozen p > 0) → (calls s1 mid).db = s1.db := by
    intro mid
    induction mid with
    | nil => intro s1 _ _ _; rfl
    | cons c mid ih =>
      intro s1 hw hs1 hp
      obtain ⟨a1, a2, a3, a4, a5, a6, a7⟩ := call_facts s1 c hw hs1
      have hpos : (call s1 c).2.h.frozen > 0 := by
        rw [a3]; exact hp [c] ⟨mid, rfl⟩
      have := ih (call s1 c).2 a1 a5 (by
        intro p hpre
        rw [a3, ← depth_cons]
        exact hp (c :: p) (by obtain ⟨t, rfl⟩ := hpre; exact ⟨t, rfl⟩))
      exact this.trans (a7 hpos)
  obtain ⟨a1, a2, a3, a4, a5, a6, a7⟩ := call_facts (calls s before) .freeze b1 b5
  have e : (call (calls s before) .freeze).2.h.frozen = depth 0 before + 1 := by
    rw [a3, b3]; rfl
  have := key mid (call (calls s before) .freeze).2 a1 a5 (by rw [e]; exact hmid)
  exact this.trans (a7 (by rw [e]; omega))

/-- The object itself always shows all calls made so far, and no other message is touched. -/
theorem C13_object_view (s : State) (hs : Fresh s) (cs : List Call) :
    (∀ x, x ∈ (calls s cs).h.doc.terms ↔ afterAll cs (· ∈ s.h.doc.terms) x) ∧
    ∀ i, i ≠ s.h.docId → (calls s cs).db.view i = s.db.view i := by
  obtain ⟨_, _, _, b4, _, b6⟩ := calls_facts cs s hs.writable hs.synced
  exact ⟨b4, b6⟩

/-- A thaw without a freeze is refused and changes nothing; calls on a read-only database are
refused and change nothing. -/
theorem C13_refused (s : State) (c : Call) :
    (s.db.writable = true → s.h.frozen = 0 → call s .thaw = (.unbalancedFreezeThaw, s)) ∧
    (s.db.writable = false → call s c = (.readOnly, s)) := by
  constructor
  · intro hw hf; simp [call, hw, hf]
  · intro hw; cases c <;> simp [call, hw]

/-- An example database with two messages. -/
def exDb : Db :=
  { writable := true, needsUpgrade := false,
    view := fun i => if i = 1 then some ⟨[.tag (bs "inbox")], 3⟩ else if i = 2 then some ⟨[], 5⟩ else none
    viewBound := 5
    disk := fun i => if i = 1 then some ⟨[.tag (bs "inbox")], 3⟩ else if i = 2 then some ⟨[], 5⟩ else none
    diskBound := 5, revision := 5, nesting := 0, dirty := false }
def exState : State := { db := exDb, h := { docId := 1, doc := ⟨[.tag (bs "inbox")], 3⟩, frozen := 0, modified := false } }

example : Fresh exState := ⟨rfl, rfl, rfl, rfl⟩
example : depth 0 [.addTag (bs "a"), .freeze, .removeAllTags, .freeze, .addTag (bs "b"), .thaw, .thaw] = 0 := rfl
example : ∀ p, p <+: [Call.removeAllTags, .freeze, .addTag (bs "b"), .thaw] → depth (depth 0 [.addTag (bs "a")] + 1) p > 0 := by
  intro p hp
  rw [List.prefix_iff_eq_take] at hp
  rw [hp]
  match p.length with
  | 0 => decide
  | 1 => decide
  | 2 => decide
  | 3 => decide
  | n + 4 => simp [depth]

/-- Synchronising tags to maildir flags does not respect the freeze: when a file is renamed, the
unsaved tags of a frozen message become visible. -/
theorem C13_rename_counterexample :
    ∃ s : State, Fresh s ∧
      (calls s [.freeze, .addTag (bs "x")]).db.view s.h.docId = s.db.view s.h.docId ∧
      (renameFile (calls s [.freeze, .addTag (bs "x")])).h.frozen > 0 ∧
      ∃ d, (renameFile (calls s [.freeze, .addTag (bs "x")])).db.view s.h.docId = some d ∧
        Term.tag (bs "x") ∈ d.terms := by
  refine ⟨exState, ⟨rfl, rfl, rfl, rfl⟩, rfl, by decide, _, rfl, ?_⟩
  decide +kernel

/-! ### C14 -/

/-- What every reachable database satisfies. -/
structure Inv (db : Db) : Prop where
  bound : db.viewBound = db.revision + (if db.dirty then 1 else 0)
  lastMods : ∀ i d, db.view i = some d → d.lastMod ≤ db.viewBound
  dirtyNest : db.dirty = true → db.nesting > 0
  diskMods : ∀ i d, db.disk i = some d → d.lastMod ≤ db.diskBound
  roClean : db.writable = false → db.dirty = false

theorem Inv.reopen {db : Db} (h : Inv db) : Inv (reopen db) :=
  ⟨by simp [MessageSync.reopen], h.diskMods, by simp [MessageSync.reopen], h.diskMods, by simp [MessageSync.reopen]⟩

theorem Inv.flush {db : Db} (h : Inv db) : Inv (flush db) := by
  unfold MessageSync.flush
  split
  · exact ⟨h.bound, h.lastMods, h.dirtyNest, h.lastMods, h.roClean⟩
  · exact h

theorem Inv.step {db : Db} (h : Inv db) (o : Op) : Inv (step db o) := by
  cases o with
  | beginAtomic =>
    simp only [MessageSync.step, beginAtomic]
    split
    · exact ⟨h.bound, h.lastMods, fun _ => Nat.succ_pos _, h.diskMods, h.roClean⟩
    · split
      · exact h
      · exact ⟨h.bound, h.lastMods, fun _ => Nat.succ_pos _, h.diskMods, h.roClean⟩
  | endAtomic =>
    simp only [MessageSync.step, endAtomic]
    split
    · exact h
    · split
      · rename_i hn hc
        refine ⟨h.bound, h.lastMods, ?_, h.diskMods, h.roClean⟩
        intro hd
        rcases hc with hc | hc
        · have := h.roClean hc; rw [this] at hd; simp at hd
        · simp only; omega
      · split
        · rename_i hd
          have := h.bound
          refine ⟨by simpa [hd] using this, h.lastMods, by simp, h.diskMods, by simp⟩
        · rename_i hd
          refine ⟨h.bound, h.lastMods, by simp [hd], h.diskMods, h.roClean⟩
  | write id terms =>
    simp only [MessageSync.step]
    split
    · rename_i hw
      have hb := h.bound
      simp only [writeDoc, newRevision]
      split
      · rename_i hn
        refine ⟨?_, ?_, fun _ => by simpa [replaceDoc] using Nat.pos_of_ne_zero hn, h.diskMods, by simp [replaceDoc, hw]⟩
        · simp only [replaceDoc]
          cases hd : db.dirty <;> simp [hd] at hb ⊢ <;> omega
        · intro i d hi
          simp only [replaceDoc] at hi ⊢
          split at hi
          · simp at hi; subst hi; simp; omega
          · have := h.lastMods i d hi; omega
      · rename_i hn
        have hdf : db.dirty = false := by
          cases hd : db.dirty with
          | false => rfl
          | true => have := h.dirtyNest hd; omega
        refine ⟨?_, ?_, by simp [replaceDoc, hdf], h.diskMods, by simp [replaceDoc, hw]⟩
        · simp only [replaceDoc]
          simp [hdf] at hb ⊢; omega
        · intro i d hi
          simp only [replaceDoc] at hi ⊢
          split at hi
          · simp at hi; subst hi; simp; omega
          · have := h.lastMods i d hi; omega
    · exact h
  | flush => exact h.flush
  | crash => exact h.reopen
  | close => exact h.flush.reopen

theorem inv_empty (w : Bool) : Inv (emptyDb w) :=
  ⟨rfl, by simp [emptyDb], by simp [emptyDb], by simp [emptyDb], by simp [emptyDb]⟩

theorem inv_run (ops : List Op) : ∀ db, Inv db → Inv (run db ops) := by
  induction ops with
  | nil => intro db h; exact h
  | cons o ops ih => intro db h; exact ih _ (h.step o)

theorem inv_after (w : Bool) (hist : List Op) : Inv (dbAfter w hist) := inv_run _ _ (inv_empty w)

theorem step_session (db : Db) (o : Op) (h : o ≠ .crash ∧ o ≠ .close) :
    db.revision ≤ (step db o).revision ∧
    (∀ i, (∀ ts, o ≠ .write i ts) → (step db o).view i = db.view i) ∧
    (∀ i ts, o = .write i ts → db.writable = true → ∃ d, (step db o).view i = some d ∧ d.terms = ts ∧
      d.lastMod > db.revision) ∧
    (step db o).writable = db.writable := by
  cases o with
  | beginAtomic =>
    simp only [step, beginAtomic]
    split
    · simp
    · split <;> simp
  | endAtomic =>
    simp only [step, endAtomic]
    split
    · simp
    · split
      · simp
      · split <;> simp
  | write id terms =>
    simp only [step]
    cases hw : db.writable
    · simp [hw]
    · simp only [if_true, writeDoc, newRevision]
      refine ⟨?_, ?_, ?_, ?_⟩
      · split <;> simp [replaceDoc]
      · intro i hi
        have hne : i ≠ id := by rintro rfl; exact hi terms rfl
        split <;> simp [replaceDoc, hne]
      · rintro i ts ⟨⟩ _
        split <;> simp [replaceDoc]
      · split <;> simp [replaceDoc, hw]
  | flush => simp only [step, flush]; split <;> simp
  | crash => exact absurd rfl h.1
  | close => exact absurd rfl h.2

/-- **C14**: within a session the revision never decreases. -/
theorem C14_revision_monotone (db : Db) (ops : List Op) (hs : Session ops) :
    db.revision ≤ (run db ops).revision := by
  induction ops generalizing db with
  | nil => exact Nat.le_refl _
  | cons o ops ih =>
    exact Nat.le_trans (step_session db o (hs o (by simp))).1
      (ih (step db o) (fun x hx => hs x (by simp [hx])))

/-- **C14**: when no atomic section is open, no message has a last-modification revision
beyond the database revision; and what is on disk never has one beyond the revision that a reader
opening the database gets. -/
theorem C14_committed_bound (w : Bool) (hist : List Op) :
    ((dbAfter w hist).nesting = 0 → ∀ i d, (dbAfter w hist).view i = some d →
      d.lastMod ≤ (dbAfter w hist).revision) ∧
    (∀ i d, (reopen (dbAfter w hist)).view i = some d → d.lastMod ≤ (reopen (dbAfter w hist)).revision) := by
  have h := inv_after w hist
  constructor
  · intro hn i d hi
    have hb := h.bound
    have hd : (dbAfter w hist).dirty = false := by
      cases hd : (dbAfter w hist).dirty with
      | false => rfl
      | true => have := h.dirtyNest hd; omega
    have := h.lastMods i d hi
    simp [hd] at hb
    omega
  · exact h.diskMods

/-- **C14**: searching for messages modified after revision `r`, `r` having been read while no
atomic section was open, finds exactly the messages written since; all others are as they were. -/
theorem C14_lastmod_exact (hist ops : List Op) (hn : (dbAfter true hist).nesting = 0)
    (hs : Session ops) (i : Nat) :
    ((∃ d, (run (dbAfter true hist) ops).view i = some d ∧ d.lastMod > (dbAfter true hist).revision) ↔
      ∃ ts, Op.write i ts ∈ ops) ∧
    ((∀ ts, Op.write i ts ∉ ops) → (run (dbAfter true hist) ops).view i = (dbAfter true hist).view i) := by
  have hwr : (dbAfter true hist).writable = true := by
    have : ∀ (ops : List Op) (db : Db), (run db ops).writable = db.writable := by
      intro ops
      induction ops with
      | nil => intro db; rfl
      | cons o ops ih =>
        intro db
        refine (ih (step db o)).trans ?_
        cases o with
        | crash => rfl
        | close => simp only [step, closeReopen, reopen, flush]; split <;> rfl
        | beginAtomic => exact (step_session db _ (by simp)).2.2.2
        | endAtomic => exact (step_session db _ (by simp)).2.2.2
        | write id ts => exact (step_session db _ (by simp)).2.2.2
        | flush => exact (step_session db _ (by simp)).2.2.2
    exact this hist (emptyDb true)
  have hold := (C14_committed_bound true hist).1 hn i
  generalize dbAfter true hist = db0 at hold hwr ⊢
  -- generalise over the start
  have key : ∀ (ops : List Op) (db : Db), Session ops → db.writable = true → db0.revision ≤ db.revision →
      ((∀ ts, Op.write i ts ∉ ops) → (run db ops).view i = db.view i) ∧
      ((∃ d, db.view i = some d ∧ d.lastMod > db0.revision) ∨ (∃ ts, Op.write i ts ∈ ops) →
        ∃ d, (run db ops).view i = some d ∧ d.lastMod > db0.revision) := by
    intro ops
    induction ops with
    | nil => intro db _ _ _; simp [run]
    | cons o ops ih =>
      intro db hs hw hr
      obtain ⟨a1, a2, a3, a4⟩ := step_session db o (hs o (by simp))
      obtain ⟨b1, b2⟩ := ih (step db o) (fun x hx => hs x (by simp [hx])) (a4.trans hw) (Nat.le_trans hr a1)
      constructor
      · intro hno
        refine (b1 (fun ts h => hno ts (by simp [h]))).trans (a2 i ?_)
        intro ts e; exact hno ts (by simp [e])
      · intro h
        apply b2
        by_cases hex : ∃ ts, o = .write i ts
        · obtain ⟨ts, e⟩ := hex
          obtain ⟨d, d1, _, d2⟩ := a3 i ts e hw
          exact Or.inl ⟨d, d1, by omega⟩
        · rcases h with ⟨d, hd, hl⟩ | ⟨ts, h⟩
          · exact Or.inl ⟨d, by rw [a2 i (fun ts e => hex ⟨ts, e⟩)]; exact hd, hl⟩
          · rcases List.mem_cons.1 h with e | h
            · exact absurd ⟨ts, e.symm⟩ hex
            · exact Or.inr ⟨ts, h⟩
  obtain ⟨k1, k2⟩ := key ops db0 hs hwr (Nat.le_refl _)
  refine ⟨⟨?_, fun h => k2 (Or.inr h)⟩, k1⟩
  rintro ⟨d, hd, hl⟩
  by_cases h : ∃ ts, Op.write i ts ∈ ops
  · exact h
  · rw [k1 (fun ts hts => h ⟨ts, hts⟩)] at hd
    have := hold d hd
    omega

/-- Closing outside an atomic section and opening again keeps everything, also the revision. -/
theorem C14_close_keeps (w : Bool) (hist : List Op) (hn : (dbAfter w hist).nesting = 0) :
    (closeReopen (dbAfter w hist)).view = (dbAfter w hist).view ∧
    (closeReopen (dbAfter w hist)).revision = (dbAfter w hist).revision := by
  have h := inv_after w hist
  have hd : (dbAfter w hist).dirty = false := by
    cases hd : (dbAfter w hist).dirty with
    | false => rfl
    | true => have := h.dirtyNest hd; omega
  have hb := h.bound
  simp [hd] at hb
  unfold closeReopen flush
  rw [if_pos hn]
  exact ⟨rfl, hb⟩

example : (dbAfter true [.write 1 [], .beginAtomic, .write 2 [], .write 1 [], .endAtomic]).nesting = 0 ∧
    (dbAfter true [.write 1 [], .beginAtomic, .write 2 [], .write 1 [], .endAtomic]).revision = 2 ∧
    Session [.write 1 [], .flush] := by
  refine ⟨rfl, rfl, ?_⟩
  intro o ho; simp at ho; rcases ho with rfl | rfl <;> simp

/-- A crash can take back revisions that a client has seen: afterwards the same numbers are used for
different changes, so "modified since revision r" may miss changes made after a crash. -/
theorem C14_crash_reuses_revisions :
    ∃ hist : List Op, ∃ r, r = (dbAfter true hist).revision ∧ (dbAfter true hist).nesting = 0 ∧
      ∃ d, (dbAfter true (hist ++ [.crash, .write 2 []])).view 2 = some d ∧ d.lastMod ≤ r :=
  ⟨[.write 1 []], _, rfl, rfl, _, rfl, by decide⟩

/-! ### C15 -/

theorem run_append (db : Db) (a b : List Op) : run db (a ++ b) = run (run db a) b := List.foldl_append

/-- **C15**: if the process dies at any moment, what is found afterwards is the state of the
database at some earlier moment outside all atomic sections: of every section either all
changes or none. -/
theorem C15_crash_all_or_nothing (w : Bool) (hist : List Op) :
    ∃ p, p <+: hist ∧ (dbAfter w p).nesting = 0 ∧
      (dbAfter w (hist ++ [.crash])).view = (dbAfter w p).view := by
  have key : ∃ p, p <+: hist ∧ (dbAfter w p).nesting = 0 ∧ (dbAfter w hist).disk = (dbAfter w p).view := by
    have hrev : ∀ l : List Op, ∃ p, p <+: l.reverse ∧ (dbAfter w p).nesting = 0 ∧
        (dbAfter w l.reverse).disk = (dbAfter w p).view := by
      intro l
      induction l with
      | nil => exact ⟨[], List.prefix_refl _, rfl, rfl⟩
      | cons o l ih =>
        obtain ⟨p, hp, hn, hd⟩ := ih
        rw [List.reverse_cons]
        have e : dbAfter w (l.reverse ++ [o]) = step (dbAfter w l.reverse) o := run_append _ _ _
        by_cases hsame : (step (dbAfter w l.reverse) o).disk = (dbAfter w l.reverse).disk
        · exact ⟨p, hp.trans (List.prefix_append _ _), hn, by rw [e, hsame, hd]⟩
        · refine ⟨l.reverse ++ [o], List.prefix_refl _, ?_⟩
          rw [e]
          cases o with
          | beginAtomic => exfalso; apply hsame; simp only [step, beginAtomic]; split <;> try rfl
                           split <;> rfl
          | endAtomic => exfalso; apply hsame; simp only [step, endAtomic]; split <;> try rfl
                         split <;> try rfl
                         split <;> rfl
          | write id ts =>
            exfalso; apply hsame
            simp only [step, writeDoc, newRevision]
            split
            · split <;> rfl
            · rfl
          | flush =>
            simp only [step, flush] at hsame ⊢
            split at hsame
            · rename_i h0; simp [h0]
            · exact absurd rfl hsame
          | crash => exact absurd rfl hsame
          | close => simp [step, closeReopen, reopen]
    have := hrev hist.reverse
    rwa [List.reverse_reverse] at this
  obtain ⟨p, hp, hn, hd⟩ := key
  refine ⟨p, hp, hn, ?_⟩
  rw [← hd, dbAfter, run_append]
  rfl

theorem closeReopen_open (db : Db) (h : db.nesting > 0) : (closeReopen db).view = (reopen db).view := by
  unfold closeReopen flush
  rw [if_neg (Nat.ne_of_gt h)]

/-- **C15**: in particular the changes of a section that was still open are lost entirely, by
a crash and equally by closing the database: what remains is a state from before the section. -/
theorem C15_open_section_lost (hist body : List Op)
    (hbody : ∀ p, p <+: body → (dbAfter true (hist ++ .beginAtomic :: p)).nesting > 0) (o : Op)
    (ho : o = .crash ∨ o = .close) :
    ∃ p, p <+: hist ∧ (dbAfter true p).nesting = 0 ∧
      (dbAfter true (hist ++ .beginAtomic :: body ++ [o])).view = (dbAfter true p).view := by
  obtain ⟨p, hp, hn, hv⟩ := C15_crash_all_or_nothing true (hist ++ .beginAtomic :: body)
  have hclose : (dbAfter true (hist ++ .beginAtomic :: body ++ [o])).view =
      (dbAfter true (hist ++ .beginAtomic :: body ++ [.crash])).view := by
    rcases ho with rfl | rfl
    · rfl
    · have hpos := hbody body (List.prefix_refl _)
      have e1 : ∀ o, dbAfter true (hist ++ .beginAtomic :: body ++ [o]) =
          step (dbAfter true (hist ++ .beginAtomic :: body)) o := fun o => run_append _ _ _
      rw [e1, e1]
      exact closeReopen_open _ hpos
  refine ⟨p, ?_, hn, hclose.trans hv⟩
  rcases List.prefix_or_prefix_of_prefix hp (List.prefix_append hist (.beginAtomic :: body)) with h | h
  · exact h
  · obtain ⟨q, rfl⟩ := h
    rw [List.prefix_append_right_inj] at hp
    cases q with
    | nil => simp
    | cons x q =>
      rw [List.cons_prefix_cons] at hp
      obtain ⟨rfl, hq⟩ := hp
      have := hbody q hq
      omega

example : ∀ p, p <+: [Op.write 2 [], .beginAtomic, .endAtomic] →
    (dbAfter true ([.write 1 []] ++ .beginAtomic :: p)).nesting > 0 := by
  intro p hp
  rw [List.prefix_iff_eq_take] at hp
  rw [hp]
  match p.length with
  | 0 => decide
  | 1 => decide
  | 2 => decide
  | n + 3 => simp; decide

/-- **C15**: an end without a begin is refused and changes nothing; the end of an inner section
commits nothing: only the nesting changes. -/
theorem C15_nesting (db : Db) :
    (db.nesting = 0 → endAtomic db = (.unbalancedAtomic, db)) ∧
    (db.nesting > 1 → endAtomic db = (.success, { db with nesting := db.nesting - 1 })) ∧
    (db.nesting > 0 → beginAtomic db = (.success, { db with nesting := db.nesting + 1 })) := by
  refine ⟨?_, ?_, ?_⟩
  · intro h; simp [endAtomic, h]
  · intro h; unfold endAtomic; rw [if_neg (by omega), if_pos (Or.inr h)]
  · intro h; simp [beginAtomic, h]

/-- Inside a section: the revision stands still and `dirty` records whether anything was written. -/
theorem section_run (body : List Op) : ∀ db : Db, db.writable = true → db.nesting > 0 → Session body →
    (∀ p, p <+: body → (run db p).nesting > 0) →
    (run db body).revision = db.revision ∧ (run db body).writable = true ∧
    ((run db body).dirty = true ↔ db.dirty = true ∨ ∃ i ts, Op.write i ts ∈ body) := by
  induction body with
  | nil => intro db hw _ _ _; simp [run, hw]
  | cons o body ih =>
    intro db hw hn hs hp
    have hpos : (step db o).nesting > 0 := hp [o] ⟨body, rfl⟩
    have hone : (step db o).revision = db.revision ∧ (step db o).writable = true ∧
        ((step db o).dirty = true ↔ db.dirty = true ∨ ∃ i ts, Op.write i ts = o) := by
      cases o with
      | beginAtomic =>
        simp only [step, beginAtomic]
        rw [if_pos (Or.inr hn)]
        simp [hw]
      | endAtomic =>
        simp only [step, endAtomic] at hpos ⊢
        rw [if_neg (by omega)] at hpos ⊢
        by_cases h1 : db.nesting > 1
        · rw [if_pos (Or.inr h1)]; simp [hw]
        · rw [if_neg (by simp [hw, h1])] at hpos
          split at hpos <;> simp only at hpos <;> omega
      | write id ts =>
        simp only [step, hw, if_true, writeDoc, newRevision]
        rw [if_pos (by omega)]
        simp [replaceDoc, hw]
      | flush =>
        simp only [step, flush]
        rw [if_neg (by omega)]
        simp [hw]
      | crash => exact absurd rfl (hs _ (by simp)).1
      | close => exact absurd rfl (hs _ (by simp)).2
    obtain ⟨a1, a2, a3⟩ := hone
    obtain ⟨b1, b2, b3⟩ := ih (step db o) a2 hpos (fun x hx => hs x (by simp [hx])) (by
      intro p ⟨t, ht⟩
      exact hp (o :: p) ⟨t, by simp [ht]⟩)
    refine ⟨b1.trans a1, b2, b3.trans ?_⟩
    rw [a3, or_assoc]
    apply or_congr Iff.rfl
    constructor
    · rintro (⟨i, ts, h⟩ | ⟨i, ts, h⟩)
      · exact ⟨i, ts, by simp [h]⟩
      · exact ⟨i, ts, by simp [h]⟩
    · rintro ⟨i, ts, h⟩
      rcases List.mem_cons.1 h with h | h
      · exact Or.inl ⟨i, ts, h⟩
      · exact Or.inr ⟨i, ts, h⟩

theorem run_writable (ops : List Op) (db : Db) : (run db ops).writable = db.writable := by
  induction ops generalizing db with
  | nil => rfl
  | cons o ops ih =>
    refine (ih (step db o)).trans ?_
    cases o with
    | crash => rfl
    | close => simp only [step, closeReopen, reopen, flush]; split <;> rfl
    | beginAtomic => exact (step_session db _ (by simp)).2.2.2
    | endAtomic => exact (step_session db _ (by simp)).2.2.2
    | write id ts => exact (step_session db _ (by simp)).2.2.2
    | flush => exact (step_session db _ (by simp)).2.2.2

/-- **C15**: a whole atomic section (with any nested sections inside) advances the revision by one
if it wrote any message, and not at all otherwise. -/
theorem C15_one_revision (hist body : List Op) (hn : (dbAfter true hist).nesting = 0) (hs : Session body)
    (hbody : ∀ p, p <+: body → (dbAfter true (hist ++ .beginAtomic :: p)).nesting > 0)
    (hend : (dbAfter true (hist ++ .beginAtomic :: body)).nesting = 1) :
    (dbAfter true (hist ++ .beginAtomic :: body ++ [.endAtomic])).nesting = 0 ∧
    ((∃ i ts, Op.write i ts ∈ body) →
      (dbAfter true (hist ++ .beginAtomic :: body ++ [.endAtomic])).revision = (dbAfter true hist).revision + 1) ∧
    ((∀ i ts, Op.write i ts ∉ body) →
      (dbAfter true (hist ++ .beginAtomic :: body ++ [.endAtomic])).revision = (dbAfter true hist).revision) := by
  have hinv := inv_after true hist
  have hd : (dbAfter true hist).dirty = false := by
    cases hd : (dbAfter true hist).dirty with
    | false => rfl
    | true => have := hinv.dirtyNest hd; omega
  have hw : (dbAfter true hist).writable = true := run_writable hist (emptyDb true)
  have hstart : ∀ p, dbAfter true (hist ++ .beginAtomic :: p) =
      run (step (dbAfter true hist) .beginAtomic) p := fun p => run_append _ _ _
  have h1 : (step (dbAfter true hist) .beginAtomic).nesting > 0 := by
    have := hbody [] (List.nil_prefix)
    rwa [hstart] at this
  have h2 : (step (dbAfter true hist) .beginAtomic).revision = (dbAfter true hist).revision ∧
      (step (dbAfter true hist) .beginAtomic).dirty = false ∧
      (step (dbAfter true hist) .beginAtomic).writable = true := by
    simp only [step, beginAtomic]
    split
    · exact ⟨rfl, hd, hw⟩
    · split <;> exact ⟨rfl, hd, hw⟩
  obtain ⟨a1, a2, a3⟩ := section_run body _ h2.2.2 h1 hs (by intro p hp; rw [← hstart]; exact hbody p hp)
  rw [← hstart] at a1 a2 a3
  have hlast : dbAfter true (hist ++ .beginAtomic :: body ++ [.endAtomic]) =
      step (dbAfter true (hist ++ .beginAtomic :: body)) .endAtomic := run_append _ _ _
  rw [hlast]
  simp only [step, endAtomic]
  rw [if_neg (by omega), if_neg (by rw [a2, hend]; simp)]
  rw [h2.2.1] at a3
  refine ⟨?_, ?_, ?_⟩
  · split <;> simp [hend]
  · intro hex
    rw [if_pos (a3.2 (Or.inr hex))]
    simp [a1, h2.1]
  · intro hno
    rw [if_neg (by
      rw [a3]; rintro (h | ⟨i, ts, h⟩)
      · cases h
      · exact hno i ts h)]
    simp [a1, h2.1]

example : (dbAfter true ([.write 1 []] ++ .beginAtomic :: [.beginAtomic, .write 2 [], .endAtomic, .write 1 []])).nesting = 1 ∧
    (dbAfter true [.write 1 []]).nesting = 0 := ⟨rfl, rfl⟩

end Notmuch.Props
