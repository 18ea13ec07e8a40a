import Verif.Proofs.ElTag2
import Verif.Props.BoolTerm

/-!
# C76: tagging from Emacs

`run` is the effect of one line of `notmuch tag --batch` on the state `σ` of the database; `runQuery` is the one of notmuch-tag.c.
-/

namespace Notmuch.Props
open Notmuch.ElTag Notmuch.ElTagSpec Notmuch.TagUtil Notmuch.TagSpec Notmuch.StringMapSpec
open Notmuch.BoolTermSpec (Reads LegalPrefix)

/-- **C76**: what Emacs sends makes notmuch do exactly the changes asked for, for exactly the query asked for, once; the command is remembered for
undo if and only if it succeeded (and that is asked for), and an error of notmuch is reported. -/
theorem C76_tag {σ : Type} (run : List TagOp → Str → σ → σ × Bool) (s : St σ) (q : Str) (ops : List TagOp) (omitHist : Bool)
    (hne : ops ≠ []) (h : ∀ o ∈ ops, Sendable o) (hq : OneLine q) :
    notmuchTag run s (some q) (ops.map text) omitHist =
      if (run ops q s.db).2 then
        ({ db := (run ops q s.db).1, hist := if omitHist then s.hist else (q, ops.map text) :: s.hist }, .done)
      else ({ s with db := (run ops q s.db).1 }, .tagFailed) :=
  tag_ok run hne h hq s omitHist

/-- **C76**: a string without a newline passes the check of Emacs if and only if it is `+` or `-` and a tag without blanks that is not empty; if one change does not
pass nothing is done. -/
theorem C76_check {σ : Type} (run : List TagOp → Str → σ → σ × Bool) (s : St σ) (q : Option Str) (changes : List Str) (omitHist : Bool) :
    (∀ c, 10 ∉ c → (validChange c = true ↔ ∃ o : TagOp, c = text o ∧ o.tag ≠ [] ∧ ∀ d ∈ o.tag, ¬ Space d)) ∧
    ((∃ c ∈ changes, validChange c = false) → notmuchTag run s q changes omitHist = (s, .badChange)) ∧
    ((∀ c ∈ changes, validChange c = true) → q = none → notmuchTag run s q changes omitHist = (s, .nothingToTag)) ∧
    (q ≠ none → notmuchTag run s q [] omitHist = (s, .done)) := by
  refine ⟨fun c hc => valid_iff hc, ?_, ?_, ?_⟩
  · rintro ⟨c, hc, hv⟩
    unfold notmuchTag
    rw [if_neg]
    intro h
    rw [List.all_eq_true] at h
    rw [h c hc] at hv
    cases hv
  · rintro h rfl
    unfold notmuchTag
    rw [if_pos (List.all_eq_true.2 h)]
  · intro h
    cases q with
    | none => exact absurd rfl h
    | some q => rfl

/-- **C76** (effect): every message that matches gets exactly the tags the changes say and no other message is touched. -/
theorem C76_tag_effect {α : Type} (rx : Str → Option (Str → Bool)) (sel : Str → Option (α → List Str → Bool)) (s : St (List (α × List Str)))
    (q : Str) (ops : List TagOp) (f : α → List Str → Bool) (hne : ops ≠ []) (h : ∀ o ∈ ops, Sendable o) (hp : ∀ o ∈ ops, Plain o)
    (hq : OneLine q) (hf : sel q = some f) (hs : q = bs "*" → ∀ a t, f a t = true) :
    ∃ db, notmuchTag (runQuery rx sel) s (some q) (ops.map text) false = ({ db := db, hist := (q, ops.map text) :: s.hist }, .done) ∧
      Tagged f ops s.db db := by
  obtain ⟨db, e, ht⟩ := run_effect (rx := rx) hf hs hp s.db
  refine ⟨db, ?_, ht⟩
  rw [tag_ok _ hne h hq, e]
  rfl

/-- **C76** (display): the tags Emacs then shows are sorted, none twice, and they are the tags the database has after the same changes. -/
theorem C76_shown (tags : List Str) (ops : List TagOp) (hn : tags.Nodup) :
    ∃ r, updateTags tags (ops.map text) = some r ∧ r.Pairwise LexLe ∧ r.Nodup ∧ (∀ t, t ∈ r ↔ Final ops false tags t) ∧
      ∀ stored b, opListApply tags ops false b = some stored → ∀ t, t ∈ r ↔ t ∈ stored := by
  obtain ⟨r, e, h1, h2, h3⟩ := updateTags_text tags ops
  exact ⟨r, e, h1, h3 hn, h2, fun stored b hs t => by rw [h2 t, opListApply_spec _ _ _ _ _ hs t]⟩

/-- **C76**: a change list is the list of changes itself, or the list of the opposite ones in the same order; a bare tag means its addition. -/
theorem C76_change_list (ops : List TagOp) (tag : Str) (h : ∀ o ∈ ops, 10 ∉ o.tag) (ht : 10 ∉ tag) (h1 : tag.head? ≠ some 43) (h2 : tag.head? ≠ some 45) :
    changeList false (ops.map text) = ops.map text ∧ changeList true (ops.map text) = (ops.map inv).map text ∧
    changeList false [tag] = [text ⟨tag, false⟩] ∧ changeList true [tag] = [text ⟨tag, true⟩] := by
  refine ⟨?_, ?_, ?_, ?_⟩
  · rw [changeList_text _ _ h]; simp
  · rw [changeList_text _ _ h]; simp
  · simp [changeList, linesOf_one ht, h1, h2, text]
  · simp [changeList, linesOf_one ht, h1, h2, text]

/-- One undo, of the command at the top of the history: it is gone, and every message that now matches has none of the added and all of the removed tags. -/
theorem C76_undo_effect {α : Type} (rx : Str → Option (Str → Bool)) (sel : Str → Option (α → List Str → Bool)) (s : St (List (α × List Str)))
    (q : Str) (ops : List TagOp) (hist : List (Str × List Str)) (f : α → List Str → Bool) (hh : s.hist = (q, ops.map text) :: hist) (hne : ops ≠ [])
    (h : ∀ o ∈ ops, Sendable o ∧ o.tag.head? ≠ some 45) (hp : ∀ o ∈ ops, Plain o)
    (hq : OneLine q) (hf : sel q = some f) (hs : q = bs "*" → ∀ a t, f a t = true) :
    ∃ db, tagUndo (runQuery rx sel) s = ({ db := db, hist := hist }, .done) ∧ Tagged f (ops.map inv) s.db db := by
  obtain ⟨db, e, ht⟩ := run_effect (rx := rx) (ops := ops.map inv) hf hs (fun o ho => by
    obtain ⟨o', ho', rfl⟩ := List.mem_map.1 ho
    exact hp o' ho') s.db
  refine ⟨db, ?_, ht⟩
  unfold tagUndo
  rw [hh]
  simp only
  rw [changeList_text true ops (fun o ho hc => (h o ho).1.noSpace _ hc (by simp [Space]))]
  simp only [if_true]
  rw [tag_ok _ (by simpa using hne) (fun o ho => by
    obtain ⟨o', ho', rfl⟩ := List.mem_map.1 ho
    exact inv_sendable (h o' ho').1 (h o' ho').2) hq, e]
  rfl

/-- The state after these commands. -/
def doAll {α : Type} (rx : Str → Option (Str → Bool)) (sel : Str → Option (α → List Str → Bool)) :
    List (Str × List TagOp) → St (List (α × List Str)) → St (List (α × List Str))
  | [], s => s
  | c :: cs, s => doAll rx sel cs (notmuchTag (runQuery rx sel) s (some c.1) (c.2.map text) false).1

/-- The state after so many undos. -/
def undoTimes {α : Type} (rx : Str → Option (Str → Bool)) (sel : Str → Option (α → List Str → Bool)) :
    Nat → St (List (α × List Str)) → St (List (α × List Str))
  | 0, s => s
  | n + 1, s => undoTimes rx sel n (tagUndo (runQuery rx sel) s).1

theorem doAll_snoc {α : Type} (rx : Str → Option (Str → Bool)) (sel : Str → Option (α → List Str → Bool)) (cs : List (Str × List TagOp))
    (c : Str × List TagOp) : ∀ s, doAll rx sel (cs ++ [c]) s =
      (notmuchTag (runQuery rx sel) (doAll rx sel cs s) (some c.1) (c.2.map text) false).1 := by
  induction cs with
  | nil => intro s; rfl
  | cons d cs ih => intro s; exact ih _

/-- **C76** (undo): undoing as many times as one has tagged gives every message the tags it had, whatever the commands, if each change was one. -/
theorem C76_undo {α : Type} (rx : Str → Option (Str → Bool)) (sel : Str → Option (α → List Str → Bool)) (cs : List (Str × List TagOp))
    (s : St (List (α × List Str)))
    (h : ∀ (k : Nat) (q : Str) (ops : List TagOp), cs[k]? = some (q, ops) → Undoable sel (doAll rx sel (cs.take k) s).db q ops) :
    Same s.db (undoTimes rx sel cs.length (doAll rx sel cs s)).db ∧ (undoTimes rx sel cs.length (doAll rx sel cs s)).hist = s.hist := by
  -- undo any state with the same history and the same tags
  suffices H : ∀ (cs : List (Str × List TagOp)),
      (∀ (k : Nat) (q : Str) (ops : List TagOp), cs[k]? = some (q, ops) → Undoable sel (doAll rx sel (cs.take k) s).db q ops) →
      ∀ s', Same (doAll rx sel cs s).db s'.db → s'.hist = (doAll rx sel cs s).hist →
      Same s.db (undoTimes rx sel cs.length s').db ∧ (undoTimes rx sel cs.length s').hist = s.hist from
    H cs h _ (same_refl _) rfl
  clear h cs
  intro cs
  rw [← List.reverse_reverse cs]
  generalize cs.reverse = rs
  induction rs with
  | nil => intro _ s' h1 h2; exact ⟨h1, h2⟩
  | cons c rs ih =>
    rw [List.reverse_cons]
    obtain ⟨q, ops⟩ := c
    intro h s' h1 h2
    have hu := h rs.reverse.length q ops (by simp)
    rw [List.take_left'  rfl] at hu
    have hu' := hu
    obtain ⟨g, hsel, hst, heff⟩ := hu.stable
    obtain ⟨db, e, ht⟩ := C76_tag_effect rx sel (doAll rx sel rs.reverse s) q ops _ hu.nonempty (fun o ho => (hu.sendable o ho).1) hu.plain hu.query hsel
      (fun hq a _ => hst hq a)
    rw [doAll_snoc] at h1 h2
    simp only at h1 h2
    rw [e] at h1 h2
    simp only at h1 h2
    obtain ⟨db2, e2, ht2⟩ := C76_undo_effect rx sel s' q ops _ _ h2 hu.nonempty hu.sendable hu.plain hu.query hsel (fun hq a _ => hst hq a)
    obtain ⟨db3, _, ht3⟩ := run_effect (rx := rx) (ops := ops.map inv) hsel (fun hq a _ => hst hq a) (fun o ho => by
      obtain ⟨o', ho', rfl⟩ := List.mem_map.1 ho
      exact hu.plain o' ho') db
    have hsame : Same (doAll rx sel rs.reverse s).db db2 :=
      same_trans (undo_same heff ht ht3) (tagged_congr h1 ht3 ht2)
    have hlen : (rs.reverse ++ [(q, ops)]).length = rs.reverse.length + 1 := by simp
    rw [hlen, undoTimes, e2]
    refine ih (fun k q' ops' hk => ?_) ⟨db2, (doAll rx sel rs.reverse s).hist⟩ hsame rfl
    have hk' : k < rs.reverse.length := by
      rw [List.getElem?_eq_some_iff] at hk
      exact hk.1
    have := h k q' ops' (by rw [List.getElem?_append_left hk']; exact hk)
    rwa [List.take_append_of_le_length (Nat.le_of_lt hk')] at this

/-- **C76** (no more undo): with an empty history nothing is done. -/
theorem C76_undo_empty {σ : Type} (run : List TagOp → Str → σ → σ × Bool) (db : σ) :
    tagUndo run { db := db, hist := [] } = ({ db := db, hist := [] }, .noUndo) := rfl

/-- **C76** (message ids): the query made of a message id reads as the term `id` with exactly that message id, whatever bytes are in it. -/
theorem C76_id_query (id : Str) : Reads (idToQuery id) (bs "id") id ∧ StringUtil.parseBooleanTerm (idToQuery id) = some (bs "id", id) := by
  suffices h : Reads (idToQuery id) (bs "id") id from ⟨h, StringUtil.parse_of_reads h⟩
  refine ⟨⟨by decide +kernel, by decide +kernel, ?_⟩, [], [], (fun _ h => by cases h), (fun _ h => by cases h), ?_⟩
  · intro c hc
    have : c = 105 := (Option.some.inj hc).symm
    subst this
    decide
  · unfold idToQuery escapeTerm
    have e0 : bs "id:" = bs "id" ++ [58] := by decide +kernel
    by_cases hq : (id.isEmpty || id.any (fun c => !isPlain c)) = true
    · right
      rw [if_pos hq]
      refine ⟨id.flatMap (fun c => if c = 34 then [34, 34] else [c]), ?_, by rw [e0]; simp⟩
      clear hq e0
      induction id with
      | nil => exact .nil
      | cons c s ih =>
        rw [List.flatMap_cons]
        by_cases e : c = 34
        · subst e; exact .quote ih
        · rw [if_neg e]; exact .other e ih
    · left
      rw [if_neg hq, e0]
      simp only [Bool.or_eq_true, not_or, List.any_eq_true, Bool.not_eq_true', not_exists, not_and, Bool.not_eq_false] at hq
      refine ⟨⟨fun c hc => ?_, ?_⟩, by simp⟩
      · have := hq.2 c hc
        clear hc
        revert this; revert c; apply forall_byte; decide +kernel
      · intro hh
        cases id with
        | nil => cases hh
        | cons c s =>
          have := hq.2 c (by simp)
          simp at hh
          subst hh
          exact absurd this (by decide)

/-- **C76**: Emacs and notmuch itself (C05) write the same query for a message id, but for an id with a DEL character, which only Emacs quotes. -/
theorem C76_id_same (id : Str) (h : 127 ∉ id) : idToQuery id = StringUtil.makeBooleanTerm (some (bs "id")) id := by
  have e0 : bs "id:" = bs "id" ++ [58] := by decide +kernel
  have hq : StringUtil.needQuoting id = (id.isEmpty || id.any (fun c => !isPlain c)) := by
    unfold StringUtil.needQuoting
    congr 1
    induction id with
    | nil => rfl
    | cons c s ih =>
      simp only [List.mem_cons, not_or] at h
      rw [List.any_cons, List.any_cons, ih h.2]
      congr 1
      have h1 := h.1
      clear ih h
      revert h1; revert c; apply forall_byte; decide +kernel
  unfold idToQuery escapeTerm StringUtil.makeBooleanTerm
  simp only
  rw [hq, e0]
  congr 1
  have hb : ∀ t : Str, t.flatMap (fun c => if c = 34 then [34, 34] else [c]) = StringUtil.quoteBody t := by
    intro t
    induction t with
    | nil => rfl
    | cons c t ih =>
      rw [List.flatMap_cons, ih, StringUtil.quoteBody]
      by_cases e : c = 34
      · subst e; rfl
      · rw [if_neg e, if_neg e]; rfl
  rw [hb]

/-- **C76** (bad query): a query that notmuch cannot parse changes nothing, is reported, and is not remembered. -/
theorem C76_bad_query {α : Type} (rx : Str → Option (Str → Bool)) (sel : Str → Option (α → List Str → Bool)) (s : St (List (α × List Str)))
    (q : Str) (ops : List TagOp) (hne : ops ≠ []) (h : ∀ o ∈ ops, Sendable o) (hq : OneLine q) (hf : sel q = none) (omitHist : Bool) :
    notmuchTag (runQuery rx sel) s (some q) (ops.map text) omitHist = (s, .tagFailed) := by
  rw [tag_ok _ hne h hq]
  simp [runQuery, hf]

/-- A database of one message, that matches every query but `tag:inbox`, which asks for that tag. -/
private def one (ops : List TagOp) (q : Str) (tags : List Str) : List Str × Bool :=
  if q = bs "tag:inbox" ∧ bs "inbox" ∉ tags then (tags, true)
  else match opListApply tags ops false true with
    | some t => (t, true)
    | none => (tags, false)

/-- Undo takes back changes that were none: a tag the message had before it was added once more is lost; so is one that was added and removed.  If the
changes make the message leave the query nothing is undone, and an undo that fails cannot be tried again. -/
theorem C76_undo_counterexample :
    let tagged tags q changes := (notmuchTag one { db := tags, hist := [] } (some q) changes false).1
    ((tagged [bs "a"] (bs "id:x") [bs "+a"]).db = [bs "a"] ∧ (tagUndo one (tagged [bs "a"] (bs "id:x") [bs "+a"])).1.db = []) ∧
    ((tagged [] (bs "id:x") [bs "+b", bs "-b"]).db = [] ∧ (tagUndo one (tagged [] (bs "id:x") [bs "+b", bs "-b"])).1.db = [bs "b"]) ∧
    ((tagged [bs "inbox"] (bs "tag:inbox") [bs "-inbox"]).db = [] ∧ (tagUndo one (tagged [bs "inbox"] (bs "tag:inbox") [bs "-inbox"])).1.db = []) ∧
    ((tagUndo (fun _ _ s => (s, false)) (tagged [] (bs "id:x") [bs "+b"])).1.hist = [] ∧
      (tagUndo (fun _ _ s => (s, false)) (tagged [] (bs "id:x") [bs "+b"])).2 = .tagFailed) := by
  refine ⟨⟨?_, ?_⟩, ⟨?_, ?_⟩, ⟨?_, ?_⟩, ?_, ?_⟩ <;> decide +kernel

/-- A newline escapes the check of the changes: one line of the change is enough for it, and the others are sent all the same.  A newline in the query is a second
command, for other messages. -/
theorem C76_newline_counterexample :
    let log (ops : List TagOp) (q : Str) (s : List (List TagOp × Str)) : List (List TagOp × Str) × Bool := (s ++ [(ops, q)], true)
    validChange (bs "x y\n+z") = true ∧
    (notmuchTag log { db := [], hist := [] } (some (bs "id:x")) [bs "+a *\n+z"] false).1.db = [([⟨bs "z", false⟩], bs "id:x")] ∧
    (notmuchTag log { db := [], hist := [] } (some (bs "id:x")) [bs "+a *\n+z"] false).2 = .tagFailed ∧
    (notmuchTag log { db := [], hist := [] } (some (bs "id:x\n\n+deleted -- *")) [bs "+a"] false).1.db =
      [([⟨bs "a", false⟩], bs "id:x"), ([⟨bs "deleted", false⟩], bs "*")] := by
  refine ⟨?_, ?_, ?_, ?_⟩ <;> decide +kernel

/-- Emacs lets the addition of a tag that begins with `-` pass, and the removal of the tag `-`; notmuch does not. -/
theorem C76_dash_counterexample :
    validChange (bs "+-x") = true ∧ (notmuchTag one { db := [], hist := [] } (some (bs "id:x")) [bs "+-x"] false).2 = .tagFailed ∧
    validChange (bs "--") = true ∧ (notmuchTag one { db := [bs "-"], hist := [] } (some (bs "id:x")) [bs "--"] false).1.db = [bs "-"] ∧
    (notmuchTag one { db := [bs "-"], hist := [] } (some (bs "id:x")) [bs "--"] false).2 = .done := by
  refine ⟨?_, ?_, ?_, ?_, ?_⟩ <;> decide +kernel

/-- What is sent for two changes, one of them with a blank escaped, and what is shown. -/
theorem C76_example :
    batchText [bs "+to%do", bs "-inbox"] (idToQuery (bs "a\"b@c")) = bs "+to%25do -inbox -- id:\"a\"\"b@c\"" ∧
    (notmuchTag one { db := [bs "inbox", bs "new"], hist := [] } (some (idToQuery (bs "a\"b@c"))) [bs "+to%do", bs "-inbox"] false).1.db = [bs "new", bs "to%do"] ∧
    updateTags [bs "inbox", bs "new"] [bs "+to%do", bs "-inbox", bs "+b"] = some [bs "b", bs "new", bs "to%do"] ∧
    updateTags [] [bs "b"] = none ∧ updateTags [] [[]] = none := by
  refine ⟨?_, ?_, ?_, ?_, ?_⟩ <;> decide +kernel

/-- The hypotheses of the theorems are met, and two commands of which the second undoes part of the first can be undone. -/
theorem C76_example_undoable :
    let sel : Str → Option (Str → List Str → Bool) := fun q => some (fun a _ => q == bs "id:" ++ a)
    let ops : List TagOp := [⟨bs "a", false⟩, ⟨bs "inbox", true⟩]
    Undoable sel [(bs "x", [bs "inbox"]), (bs "y", [])] (bs "id:x") ops ∧
    (∀ o ∈ ops, Sendable o) ∧ ¬ Sendable ⟨bs "-x", false⟩ ∧ ¬ Sendable ⟨bs "a b", false⟩ ∧ Sendable ⟨bs "-x", true⟩ := by
  have hs : ∀ o ∈ ([⟨bs "a", false⟩, ⟨bs "inbox", true⟩] : List TagOp), Sendable o ∧ o.tag.head? ≠ some 45 := by
    intro o ho
    simp only [List.mem_cons, List.not_mem_nil, or_false] at ho
    rcases ho with rfl | rfl
    · exact ⟨⟨by decide, by unfold Space; decide, by decide, by decide, by decide⟩, by decide⟩
    · exact ⟨⟨by decide, by unfold Space; decide, by decide, by decide, by decide⟩, by decide⟩
  refine ⟨⟨⟨by decide, by decide, by decide, by decide⟩, by decide, hs, ?_, ⟨fun a => bs "id:x" == bs "id:" ++ a, rfl, ?_, ?_⟩⟩, fun o ho => (hs o ho).1, ?_, ?_, ?_⟩
  · unfold Plain; decide
  · intro h; exact absurd h (by decide)
  · unfold Effective; decide +kernel
  · intro h; exact h.add rfl (by decide)
  · intro h; exact h.noSpace 32 (by decide) (by simp [Space])
  · exact ⟨by decide, by unfold Space; decide, by decide, by decide, by decide⟩

end Notmuch.Props
