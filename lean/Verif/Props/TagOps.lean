import Verif.Proofs.TagOps

/-!
# C07, C10, C11, C12, C31: tag operations (tag-util.c, notmuch-tag.c)
-/

namespace Notmuch.Props
open Notmuch.TagUtil Notmuch.TagSpec

theorem legal_iff (o : TagOp) : LegalOp o ↔ illegalTag o.tag o.remove = false := by
  unfold LegalOp illegalTag
  cases o.remove <;> cases o.tag <;> simp

/-- **C07**: a batch line written from operations and a query is parsed back to exactly these.
`generous` is `TAG_FLAG_BE_GENEROUS` (restore); without it the tags must be legal.  The removal
of the tag `-` cannot be written (it reads as the end marker `--`). -/
theorem C07_batch_line_roundtrip (generous : Bool) (ops : List TagOp) (query : Str)
    (hne : query ≠ []) (hsp : query.head? ≠ some 32)
    (hops : ∀ o ∈ ops, 0 ∉ o.tag ∧ ¬ (o.remove = true ∧ o.tag = [45]))
    (hlegal : generous = false → ∀ o ∈ ops, LegalOp o) :
    parseTagLine generous (lineText Hex.encode ops query) = .ok ops query :=
  parseTagLine_line generous ops query hne hsp
    (fun o ho => ⟨(hops o ho).1, (hops o ho).2, fun hg => (legal_iff o).1 (hlegal hg o ho)⟩)

example : lineText Hex.encode [⟨bs "to do", false⟩, ⟨bs "new", true⟩] (bs "id:\"x y\"") =
      bs "+to%20do -new -- id:\"x y\"\n" ∧
    (∀ o ∈ [TagOp.mk (bs "to do") false, ⟨bs "new", true⟩],
      0 ∉ o.tag ∧ ¬ (o.remove = true ∧ o.tag = [45]) ∧ LegalOp o) := by
  unfold LegalOp
  decide +kernel

/-- Comments and blank lines are skipped, whatever else they contain. -/
theorem C07_skip (generous : Bool) (blank rest : Str) (hb : ∀ c ∈ blank, c = 32 ∨ c = 9)
    (hr : rest = [] ∨ rest = [10] ∨ ∃ r, rest = 35 :: r) :
    parseTagLine generous (blank ++ rest) = .skipped := by
  have hb' : ∀ c ∈ blank, (c == 32 || c == 9) = true := by
    intro c hc; rcases hb c hc with rfl | rfl <;> decide
  unfold parseTagLine
  rcases hr with rfl | rfl | ⟨r, rfl⟩
  · have hl : chomp (blank ++ []) = blank := by
      unfold chomp
      rw [if_neg]
      · simp
      · intro h
        have hm : (10 : UInt8) ∈ blank := by
          rw [List.append_nil] at h; exact List.mem_of_getLast? h
        rcases hb 10 hm with h | h <;> revert h <;> decide
    rw [hl, dropWhile_eq_nil_of _ _ hb']
  · rw [chomp_append, dropWhile_eq_nil_of _ _ hb']
  · have : ∃ r', chomp (blank ++ 35 :: r) = blank ++ 35 :: r' := by
      unfold chomp
      split
      · rename_i h
        cases hrl : r with
        | nil => rw [hrl] at h; simp at h
        | cons a l => exact ⟨(a :: l).dropLast, by simp [List.dropLast_append_of_ne_nil]⟩
      · exact ⟨r, rfl⟩
    obtain ⟨r', e⟩ := this
    rw [e, dropWhile_append_stop _ _ _ _ hb' (by decide)]
    simp

/-- The command line form: the same operations given as arguments, then `--` and the query
arguments, are parsed back exactly. -/
theorem C07_command_line_roundtrip (ops : List TagOp) (query : List Str)
    (h : ∀ o ∈ ops, LegalOp o ∧ ¬ (o.remove = true ∧ o.tag = [45])) :
    parseTagArgs (ops.map (fun o => (if o.remove then 45 else 43) :: o.tag) ++ [45, 45] :: query) [] =
      some (ops, query) := by
  suffices ∀ acc, parseTagArgs (ops.map (fun o => (if o.remove then 45 else 43) :: o.tag) ++
      [45, 45] :: query) acc = some (acc ++ ops, query) by simpa using this []
  induction ops with
  | nil => intro acc; simp [parseTagArgs]
  | cons o ops ih =>
    intro acc
    obtain ⟨h1, h2⟩ := h o (by simp)
    rw [legal_iff] at h1
    have ih := ih (fun o ho => h o (by simp [ho])) (acc ++ [o])
    rw [List.map_cons, List.cons_append, parseTagArgs]
    have hne : ((if o.remove = true then 45 else 43) :: o.tag : Str) ≠ [45, 45] := by
      intro e
      cases hr : o.remove
      · simp [hr] at e
      · simp [hr] at e; exact h2 ⟨hr, e⟩
    rw [if_neg hne, if_neg (by cases o.remove <;> simp)]
    have hrem : ((((if o.remove = true then 45 else 43) :: o.tag : Str).head?) == some 45) =
        o.remove := by cases o.remove <;> simp
    simp only [hrem, List.tail_cons, h1, Bool.false_eq_true, if_false]
    rw [ih]; simp

/-- The command line never yields an illegal addition: whatever arguments are accepted, no empty tag
and no tag starting with `-` is added, and the rest of the arguments is the query. -/
theorem C07_command_line_legal (args : List Str) (ops : List TagOp) (query : List Str)
    (h : parseTagArgs args [] = some (ops, query)) :
    (∀ o ∈ ops, LegalOp o) ∧ query <:+ args := by
  suffices H : ∀ args acc, (∀ o ∈ acc, LegalOp o) → parseTagArgs args acc = some (ops, query) →
      (∀ o ∈ ops, LegalOp o) ∧ query <:+ args from H args [] (by simp) h
  clear h args
  intro args
  induction args with
  | nil =>
    intro acc ha h
    simp only [parseTagArgs, Option.some.injEq, Prod.mk.injEq] at h
    obtain ⟨rfl, rfl⟩ := h
    exact ⟨ha, List.suffix_refl _⟩
  | cons a as ih =>
    intro acc ha h
    unfold parseTagArgs at h
    split at h
    · simp only [Option.some.injEq, Prod.mk.injEq] at h
      obtain ⟨rfl, rfl⟩ := h
      exact ⟨ha, List.suffix_cons _ _⟩
    · split at h
      · simp only [Option.some.injEq, Prod.mk.injEq] at h
        obtain ⟨rfl, rfl⟩ := h
        exact ⟨ha, List.suffix_refl _⟩
      · simp only at h
        split at h
        · cases h
        · rename_i hl
          obtain ⟨h1, h2⟩ := ih _ (by
            intro o ho
            rcases List.mem_append.1 ho with ho | ho
            · exact ha o ho
            · simp at ho; subst ho; rw [legal_iff]; simpa using hl) h
          exact ⟨h1, h2.trans (List.suffix_cons _ _)⟩

/-- A disagreement worth recording: the legality test of a batch line looks at the tag *before*
hex decoding, so a tag starting with `-` can be added by escaping the dash. -/
theorem C07_escaped_dash_accepted :
    parseTagLine false (bs "+%2dfoo -- *") = .ok [⟨bs "-foo", false⟩] (bs "*") ∧
    parseTagLine false (bs "+-foo -- *") = .invalid ∧
    illegalTag (bs "-foo") false = true := by
  decide +kernel

/-- Likewise an escaped NUL byte smuggles in the empty tag. -/
theorem C07_escaped_nul_accepted :
    parseTagLine false (bs "+%00 -- *") = .ok [⟨[], false⟩] (bs "*") ∧
    parseTagLine false (bs "+ -- *") = .invalid ∧ ¬ LegalOp ⟨[], false⟩ := by
  unfold LegalOp
  decide +kernel

/-- **C10**: after applying a list of operations, a tag is present iff the last operation naming
it is an addition or, when none names it, it was present and not all tags were removed. -/
theorem C10_apply_last_wins (tags : List Str) (ops : List TagOp) (removeAll pre : Bool)
    (r : List Str) (h : opListApply tags ops removeAll pre = some r) (t : Str) :
    t ∈ r ↔ LastIs ops t false ∨ (Unnamed ops t ∧ removeAll = false ∧ t ∈ tags) :=
  opListApply_spec tags ops removeAll pre r h t

/-- **C10** (totality): applying succeeds whenever all tags have an admissible length. -/
theorem C10_apply_succeeds (tags : List Str) (ops : List TagOp) (removeAll pre : Bool)
    (h : Lengths ops) : ∃ r, opListApply tags ops removeAll pre = some r := by
  unfold opListApply
  split
  · exact ⟨_, rfl⟩
  · exact applyLoop_isSome ops h _

/-- **C10** (idempotence): applying the same operations again changes nothing. -/
theorem C10_apply_idempotent (tags : List Str) (ops : List TagOp) (removeAll p1 p2 : Bool)
    (r r' : List Str) (h : opListApply tags ops removeAll p1 = some r)
    (h' : opListApply r ops removeAll p2 = some r') (t : Str) : t ∈ r' ↔ t ∈ r := by
  rw [C10_apply_last_wins r ops removeAll p2 r' h', C10_apply_last_wins tags ops removeAll p1 r h]
  constructor
  · rintro (h1 | ⟨_, _, h3⟩)
    · exact Or.inl h1
    · exact h3
  · rintro (h1 | h3)
    · exact Or.inl h1
    · exact Or.inr ⟨h3.1, h3.2.1, Or.inr h3⟩

example : opListApply [bs "inbox"] [⟨bs "a", false⟩, ⟨bs "inbox", true⟩, ⟨bs "a", true⟩,
    ⟨bs "a", false⟩] false false = some [bs "a"] := by decide +kernel

/-- **C11**: when `makes_changes` says no, the operations would not change the tag set: every
result of applying them has the same members (so the skip is sound, for either flag). -/
theorem C11_skip_sound (tags : List Str) (ops : List TagOp) (removeAll : Bool)
    (h : makesChanges tags ops removeAll = false) (r : List Str)
    (hr : opListApply tags ops removeAll true = some r) (t : Str) : t ∈ r ↔ t ∈ tags := by
  rw [C10_apply_last_wins tags ops removeAll true r hr]
  exact makesChanges_false tags ops removeAll h t

example : makesChanges [bs "a", bs "b"] [⟨bs "b", true⟩, ⟨bs "b", false⟩, ⟨bs "c", true⟩] false =
    false := by decide +kernel

/-- **C12** (no message lost): among messages matching the user's query, every message whose tags
the operations would change matches the rewritten query, if no tag begins or ends with a slash. -/
theorem C12_infix_complete (rx : Str → Option (Str → Bool)) (star : Bool) (ops : List TagOp) (tags : List Str) (t : Str)
    (hp : ∀ o ∈ ops, o.tag.head? ≠ some 47 ∧ o.tag.getLast? ≠ some 47)
    (hchg : ¬ (Final ops false tags t ↔ t ∈ tags)) :
    (optimizeInfix star ops).eval (infixLeaf rx) true tags = true := by
  rw [eval_infix star ops true tags (fun _ => rfl) (exact_infix hp)]
  cases hx : ops.any (fun o => if o.remove then tags.contains o.tag else !tags.contains o.tag)
  · exact absurd (unselected_unchanged ops tags hx t) hchg
  · simp

/-- **C12** (no message added): only messages matching the user's query match the rewriting. -/
theorem C12_infix_sound (rx : Str → Option (Str → Bool)) (star : Bool) (ops : List TagOp) (m : Bool) (tags : List Str)
    (hs : star = true → m = true) (h : (optimizeInfix star ops).eval (infixLeaf rx) m tags = true) : m = true := by
  unfold optimizeInfix at h
  split at h
  · exact h
  · split at h
    · rename_i h'; exact hs h'
    · simp [Q.eval, Q.evalAll] at h; exact h.1

theorem tagLoop_spec {α : Type} (sel : α → Bool) (tagsOf : α → List Str)
    (setTags : α → List Str → α) (ops : List TagOp) (ra pre : Bool) (hl : Lengths ops)
    (msgs : List α) :
    ∃ res, tagLoop sel tagsOf setTags ops ra pre msgs = (res, true) ∧
      res.length = msgs.length ∧
      ∀ (i : Nat) m, msgs[i]? = some m → ∃ m', res[i]? = some m' ∧
        (sel m = false → m' = m) ∧
        (sel m = true → ∃ r, opListApply (tagsOf m) ops ra pre = some r ∧ m' = setTags m r) := by
  induction msgs with
  | nil => exact ⟨[], rfl, rfl, by simp⟩
  | cons a msgs ih =>
    obtain ⟨res, e, hlen, hsp⟩ := ih
    unfold tagLoop
    cases hs : sel a
    · refine ⟨a :: res, by simp [e], by simp [hlen], ?_⟩
      intro i m hi
      cases i with
      | zero => simp at hi; subst hi; exact ⟨a, by simp, fun _ => rfl, fun h => by simp [hs] at h⟩
      | succ i => simpa using hsp i m (by simpa using hi)
    · obtain ⟨r, hr⟩ := C10_apply_succeeds (tagsOf a) ops ra pre hl
      refine ⟨setTags a r :: res, by simp [e, hr], by simp [hlen], ?_⟩
      intro i m hi
      cases i with
      | zero =>
        simp at hi; subst hi
        exact ⟨setTags a r, by simp, fun h => by simp [hs] at h, fun _ => ⟨r, hr, rfl⟩⟩
      | succ i => simpa using hsp i m (by simpa using hi)

/-- **C12** (effect): `notmuch tag`, with the infix syntax, gives every message matching the
user's query exactly the tags the operations say, and leaves every other message alone, in spite
of the rewriting and of the skipped messages, if no tag begins or ends with a slash (with
`--remove-all` the query is not rewritten).  A message is (matches the query, tags). -/
theorem C12_tag_query_effect (rx : Str → Option (Str → Bool)) (star removeAll : Bool) (ops : List TagOp)
    (msgs : List (Bool × List Str)) (hl : Lengths ops)
    (hp : removeAll = false → ∀ o ∈ ops, o.tag.head? ≠ some 47 ∧ o.tag.getLast? ≠ some 47)
    (hs : star = true → ∀ m ∈ msgs, m.1 = true) :
    ∃ res, tagQuery (infixLeaf rx) false star ops removeAll msgs = (res, true) ∧ res.length = msgs.length ∧
      ∀ (i : Nat) m, msgs[i]? = some m → ∃ m', res[i]? = some m' ∧
        ∀ t, t ∈ m'.2 ↔ if m.1 then Final ops removeAll m.2 t else t ∈ m.2 := by
  unfold tagQuery
  cases removeAll
  · have hx := exact_infix (rx := rx) (hp rfl)
    simp only [Bool.false_eq_true, if_false, exact_all hx, if_true]
    obtain ⟨res, e, hlen, hsp⟩ := tagLoop_spec
      (fun m : Bool × List Str => (optimizeInfix star ops).eval (infixLeaf rx) m.1 m.2) (·.2)
      (fun m t => (m.1, t)) ops false true hl msgs
    refine ⟨res, e, hlen, fun i m hi => ?_⟩
    obtain ⟨m', hm', h0, h1⟩ := hsp i m hi
    refine ⟨m', hm', fun t => ?_⟩
    have hstar : star = true → m.1 = true := fun h => hs h m (List.mem_of_getElem? hi)
    cases hsel : (optimizeInfix star ops).eval (infixLeaf rx) m.1 m.2
    · rw [h0 hsel]
      cases hm : m.1
      · simp
      · simp only [if_true]
        rw [eval_infix star ops m.1 m.2 hstar hx, hm] at hsel
        simp only [Bool.true_and, Bool.or_eq_false_iff] at hsel
        exact (unselected_unchanged ops m.2 hsel.2 t).symm
    · obtain ⟨r, hr, rfl⟩ := h1 hsel
      rw [C12_infix_sound rx star ops m.1 m.2 hstar hsel]
      simp only [if_true]
      exact opListApply_spec m.2 ops false true r hr t
  · simp only [if_true]
    obtain ⟨res, e, hlen, hsp⟩ := tagLoop_spec (fun m : Bool × List Str => m.1) (·.2)
      (fun m t => (m.1, t)) ops true false hl msgs
    refine ⟨res, e, hlen, fun i m hi => ?_⟩
    obtain ⟨m', hm', h0, h1⟩ := hsp i m hi
    refine ⟨m', hm', fun t => ?_⟩
    cases hm : m.1
    · rw [h0 hm]; simp
    · obtain ⟨r, hr, rfl⟩ := h1 hm
      simp only [if_true]
      exact opListApply_spec m.2 ops true false r hr t

example : Lengths [⟨bs "a", false⟩] ∧
    ¬ (Final [⟨bs "a", false⟩] false [] (bs "a") ↔ bs "a" ∈ ([] : List Str)) := by
  refine ⟨by unfold Lengths; decide +kernel, ?_⟩
  intro h
  have : bs "a" ∈ ([] : List Str) := h.1 (Or.inl ⟨[], _, [], rfl, rfl, rfl, by simp⟩)
  simp at this

/-- What is wrong with slashes: `notmuch tag +a/` does not give the tag `a/` to a message with the tag
`a`, and says nothing; `notmuch tag +/x/` neither gives `/x/` to one with a tag that matches `x`; and
`notmuch tag +/x` fails. -/
theorem C12_counterexample_slash (rx : Str → Option (Str → Bool)) (f : Str → Bool) (hr : rx (bs "x") = some f) (hf : f (bs "box") = true) :
    let add (t : Str) : List TagOp := [⟨t, false⟩]
    Final (add (bs "a/")) false [bs "a"] (bs "a/") ∧
    tagQuery (infixLeaf rx) false false (add (bs "a/")) false [(true, [bs "a"])] = ([(true, [bs "a"])], true) ∧
    tagQuery (infixLeaf rx) false false (add (bs "/x/")) false [(true, [bs "box"])] = ([(true, [bs "box"])], true) ∧
    tagQuery (infixLeaf rx) false false (add (bs "/x")) false [(true, [])] = ([(true, [])], false) := by
  have e2 : infixLeaf rx (bs "/x/") = some (fun tags => tags.any f) := by
    show (rx (bs "x")).map (fun f (tags : List Str) => tags.any f) = _
    rw [hr]
    rfl
  refine ⟨Or.inl ⟨[], _, [], rfl, rfl, rfl, by simp⟩, rfl, ?_, rfl⟩
  simp only [tagQuery, Bool.false_eq_true, if_false, List.all_cons, List.all_nil, e2, Option.isSome_some, Bool.and_self, if_true, tagLoop, optimizeInfix, List.isEmpty_cons, Q.eval, Q.evalAll, Q.evalAny,
    List.map_cons, List.map_nil, opCond, leafOf, Option.map_some, Option.getD_some, List.any_cons, List.any_nil, hf, Bool.or_false, Bool.not_true, Bool.and_false, Bool.and_true]

/-- **C31** (partial): with the s-expression syntax the rewriting is right for a single
operation, on a tag that sfsexp reads as it is (it has no `"` and no backslash).  Missing: two and
more operations, where the claim is false (next theorem), and other tags, where it is false too. -/
theorem C31_sexp_single_partial (rd : Str → Option Str) (o : TagOp) (tags : List Str) (t : Str) (hrd : rd o.tag = some o.tag)
    (hchg : ¬ (Final [o] false tags t ↔ t ∈ tags)) :
    (optimizeSexp [o]).eval (sexpLeaf rd) true tags = true := by
  cases hx : [o].any (fun o => if o.remove then tags.contains o.tag else !tags.contains o.tag)
  · exact absurd (unselected_unchanged [o] tags hx t) hchg
  · simp at hx
    unfold optimizeSexp
    have hl : leafOf (sexpLeaf rd) o.tag tags = tags.contains o.tag := by simp [leafOf, sexpLeaf, hrd]
    simp [Q.eval, Q.evalAll, opCond]
    cases hr : o.remove
    · simp [hr] at hx; simp [Q.eval, hl, hx]
    · simp [hr] at hx; simp [Q.eval, hl, hx]

/-- **C31** (refuted in general): with the s-expression syntax, a message tagged `a` that matches
the query of `notmuch tag +a +b` is skipped, so it does not get the tag `b`. -/
theorem C31_sexp_loses_messages :
    let ops : List TagOp := [⟨bs "a", false⟩, ⟨bs "b", false⟩]
    Final ops false [bs "a"] (bs "b") ∧ bs "b" ∉ [bs "a"] ∧
    (optimizeSexp ops).eval (sexpLeaf some) true [bs "a"] = false ∧
    tagQuery (sexpLeaf some) true false ops false [(true, [bs "a"])] = ([(true, [bs "a"])], true) ∧
    tagQuery (infixLeaf (fun _ => none)) false false ops false [(true, [bs "a"])] = ([(true, [bs "a", bs "b"])], true) := by
  refine ⟨Or.inl ⟨[_], _, [], rfl, rfl, rfl, by simp⟩, by decide +kernel, by decide +kernel,
    by decide +kernel, by decide +kernel⟩

/-- **C31** (refuted also for one operation): of `(tag "a"b")` sfsexp makes something else, if anything; whatever it reads instead, a message that has what is read is skipped. -/
theorem C31_sexp_quotes (rd : Str → Option Str) (t u : Str) (hr : rd t = some u) (hne : t ≠ u) :
    Final [⟨t, false⟩] false [u] t ∧ t ∉ [u] ∧ tagQuery (sexpLeaf rd) true false [⟨t, false⟩] false [(true, [u])] = ([(true, [u])], true) := by
  refine ⟨Or.inl ⟨[], _, [], rfl, rfl, rfl, by simp⟩, by simp [hne], ?_⟩
  have e : sexpLeaf rd t = some (fun tags => tags.contains u) := by simp [sexpLeaf, hr]
  simp only [tagQuery, Bool.false_eq_true, if_false, List.all_cons, List.all_nil, e, Option.isSome_some, Bool.and_self, if_true, tagLoop, optimizeSexp, List.isEmpty_cons, Q.eval, Q.evalAll,
    List.map_cons, List.map_nil, opCond, leafOf, Option.map_some, Option.getD_some, List.contains_cons, BEq.rfl, Bool.true_or, Bool.not_true, Bool.and_false, Bool.and_true]

end Notmuch.Props
