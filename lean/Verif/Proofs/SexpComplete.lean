import Verif.Proofs.SexpSound

namespace Notmuch.Sexp

open Notmuch.StringUtil (stripTrailing)

variable {c : Ctx}

section
variable {f g : Option Prefix → Env → Sexp → Option Res} (h : ∀ parent e x r, f parent e x = some r → g parent e x = some r)
include h

theorem prefix_mono (parent : Option Prefix) (e : Env) (n : Str) (args : List Sexp) (r : Res) (hr : evalPrefix c f parent e n args = some r) :
    evalPrefix c g parent e n args = some r := by
  by_cases hn : n ∈ fields
  · rw [ep_field _ _ _ _ _ hn] at hr ⊢
    split
    · rename_i hp; rw [if_pos hp] at hr; exact hr
    · rename_i hp; rw [if_neg hp] at hr; exact combine_mono (h _ _) _ _ _ _ hr
  by_cases ho : n ∈ others
  · simp only [others, List.mem_cons, List.not_mem_nil, or_false] at ho
    have hmat : n = bs "matching" ∨ n = bs "of" → evalPrefix c g parent e n args = some r := by
      intro hn
      rw [ep_matching _ _ _ _ _ hn] at hr ⊢
      cases parent with
      | none => exact hr
      | some pp =>
        simp only at hr ⊢
        split
        · rename_i hx
          rw [if_pos hx] at hr
          cases hc : combine (f none .nil) .and .all args with
          | none => rw [hc] at hr; cases hr
          | some s =>
            rw [hc] at hr
            rw [combine_mono (h _ _) _ _ _ _ hc]
            cases s <;> exact hr
        · rename_i hx
          rw [if_neg hx] at hr
          exact hr
    rcases ho with rfl | rfl | rfl | rfl | rfl | rfl | rfl | ho | ho | rfl | ho | ho
    · rw [ep_and] at hr ⊢; exact combine_mono (h _ _) _ _ _ _ hr
    · rw [ep_or] at hr ⊢; exact combine_mono (h _ _) _ _ _ _ hr
    · rw [ep_not] at hr ⊢; exact combine_mono (h _ _) _ _ _ _ hr
    · rw [ep_date] at hr ⊢; exact hr
    · rw [ep_lastmod] at hr ⊢; exact hr
    · rw [ep_infix] at hr ⊢; exact hr
    · rw [ep_query] at hr ⊢; exact hr
    · rw [ep_rx _ _ _ _ _ (Or.inl ho)] at hr ⊢; exact hr
    · rw [ep_rx _ _ _ _ _ (Or.inr ho)] at hr ⊢; exact hr
    · rw [ep_starts] at hr ⊢; exact hr
    · exact hmat (Or.inl ho)
    · exact hmat (Or.inr ho)
  · rw [ep_none _ _ _ _ _ hn ho] at hr ⊢
    exact hr

theorem head_mono (parent : Option Prefix) (e : Env) (n : Str) (args : List Sexp) (r : Res) (hr : evalHead c f parent e n args = some r) :
    evalHead c g parent e n args = some r := by
  unfold evalHead at hr ⊢
  split
  · rename_i hs; rw [hs] at hr; exact hr
  · rename_i s hs
    rw [hs] at hr
    simp only at hr
    unfold applySaved at hr ⊢
    split
    · exact hr
    · exact hr
    · rename_i hd rest
      simp only at hr
      split
      · rename_i hm
        rw [if_pos hm] at hr
        split
        · rename_i params body junk
          simp only at hr
          split
          · rename_i hb; rw [hb] at hr; exact hr
          · rename_i new hb
            rw [hb] at hr
            exact h _ _ _ _ hr
        · rename_i hno
          split at hr
          · rename_i p b j
            exact absurd rfl (hno p b j)
          · exact hr
      · rename_i hm
        rw [if_neg hm] at hr
        exact h _ _ _ _ hr
  · rename_i hs
    rw [hs] at hr
    simp only at hr
    split
    · rename_i hu
      rw [if_pos hu] at hr
      split
      · rename_i hp; rw [if_pos hp] at hr; exact hr
      · rename_i hp; rw [if_neg hp] at hr; exact combine_mono (h _ _) _ _ _ _ hr
    · rename_i hu
      rw [if_neg hu] at hr
      split
      · rename_i hm; rw [if_pos hm] at hr; exact hr
      · rename_i hm; rw [if_neg hm] at hr; exact prefix_mono h _ _ _ _ _ hr

end

theorem eval_succ : ∀ n parent e sx r, eval c n parent e sx = some r → eval c (n + 1) parent e sx = some r
  | 0, _, _, _, _, h => by cases h
  | n + 1, parent, e, sx, r, h => by
    match sx with
    | .atom b v =>
      unfold eval at h ⊢
      simp only at h ⊢
      split
      · rename_i name hp
        rw [hp] at h
        simp only at h
        split
        · rename_i hres; rw [hres] at h; exact h
        · rename_i sx' e' hres
          rw [hres] at h
          exact eval_succ n _ _ _ _ h
      · rename_i hp
        rw [hp] at h
        exact h
    | .list [] => exact h
    | .list (.list _ :: _) => exact h
    | .list (.atom b name :: args) =>
      unfold eval at h ⊢
      exact head_mono (fun parent e x r h => eval_succ n parent e x r h) _ _ _ _ _ h

theorem eval_mono {n m : Nat} (hnm : n ≤ m) {parent : Option Prefix} {e : Env} {sx : Sexp} {r : Res} (h : eval c n parent e sx = some r) : eval c m parent e sx = some r := by
  induction hnm with
  | refl => exact h
  | step _ ih => exact eval_succ _ _ _ _ _ ih

theorem args_complete {parent : Option Prefix} {e : Env} {F : Sexp → Doc → Prop} : ∀ args : List Sexp,
    (∀ x ∈ args, ∃ n q, eval c n parent e x = some (.ok q) ∧ ∀ d, q.holds c d = true ↔ F x d) →
    ∃ n, ∀ x ∈ args, eval c n parent e x = some (.ok (qOf (eval c n parent e) x)) ∧ ∀ d, (qOf (eval c n parent e) x).holds c d = true ↔ F x d
  | [], _ => ⟨0, by simp⟩
  | x :: l, h => by
    obtain ⟨n, q, h1, h2⟩ := h x List.mem_cons_self
    obtain ⟨m, hm⟩ := args_complete l (fun y hy => h y (List.mem_cons_of_mem _ hy))
    have lift : ∀ (k : Nat) (y : Sexp) (q : Query), k ≤ n + m → eval c k parent e y = some (.ok q) → (∀ d, q.holds c d = true ↔ F y d) →
        eval c (n + m) parent e y = some (.ok (qOf (eval c (n + m) parent e) y)) ∧ ∀ d, (qOf (eval c (n + m) parent e) y).holds c d = true ↔ F y d := by
      intro k y q hk hy hq
      have := eval_mono hk hy
      have hq' : qOf (eval c (n + m) parent e) y = q := by unfold qOf; rw [this]
      rw [hq', this]
      exact ⟨rfl, hq⟩
    refine ⟨n + m, fun y hy => ?_⟩
    rcases List.mem_cons.1 hy with rfl | hy
    · exact lift n _ q (by omega) h1 h2
    · exact lift m _ _ (by omega) (hm y hy).1 (hm y hy).2

theorem eval_head {n : Nat} {parent : Option Prefix} {e : Env} {b : Bool} {name : Str} {args : List Sexp} :
    eval c (n + 1) parent e (.list (.atom b name :: args)) = evalHead c (eval c n) parent e name args := rfl

theorem head_builtin {f : Option Prefix → Env → Sexp → Option Res} {parent : Option Prefix} {e : Env} {name : Str} {args : List Sexp} (hb : Builtin c name)
    (hm : name ≠ bs "macro") : evalHead c f parent e name args = evalPrefix c f parent e name args := by
  unfold evalHead
  rw [hb.1]
  simp only [hb.2, Bool.false_eq_true, if_false, hm]

theorem not_macro : ∀ n ∈ fields ++ others, n ≠ bs "macro" := by decide +kernel

theorem star_ne {q : Bool} {v : Str} (hs : q = true ∨ v ≠ bs "*") (h : q = false) : v ≠ bs "*" := by
  rcases hs with hs | hs
  · rw [h] at hs; cases hs
  · exact hs

/-- A query that means something is made, and finds that. -/
theorem eval_complete {π : Place} {e : Env} {sx : Sexp} {S : Doc → Prop} (h : Means c π e sx S) :
    ∀ parent, Rel parent π → ∃ n q, eval c n parent e sx = some (.ok q) ∧ ∀ d, q.holds c d = true ↔ S d := by
  have atomCase : ∀ {parent : Option Prefix} {π : Place} {e : Env} {q : Bool} {v : Str} {S : Doc → Prop}, Rel parent π → param (.atom q v) = none → (q = false ∧ v = bs "*" → π.wildcards) →
      (∀ qu, evalAtom c parent q v = .ok qu → ∀ d, qu.holds c d = true ↔ S d) → ∃ n q', eval c n parent e (.atom q v) = some (.ok q') ∧ ∀ d, q'.holds c d = true ↔ S d := by
    intro parent π e q v S hr hp hw hS
    obtain ⟨qu, hqu⟩ := atom_complete (c := c) hr hw
    refine ⟨1, qu, ?_, hS qu hqu⟩
    show (match param (.atom q v) with | some name => _ | none => some (evalAtom c parent q v)) = _
    rw [hp]
    show some (evalAtom c parent q v) = _
    rw [hqu]
  induction h with
  | everything => intro parent hr; exact ⟨1, .all, rfl, fun d => by simp [Query.holds]⟩
  | @param π e e' sx sx' n S hp hres _ ih =>
    intro parent hr
    obtain ⟨n, q, h1, h2⟩ := ih parent hr
    refine ⟨n + 1, q, ?_, h2⟩
    cases sx with
    | list l => cases hp
    | atom b v =>
      show (match param (.atom b v) with | some name => _ | none => _) = _
      rw [hp]
      show (match resolve e _ with | none => _ | some (sx', e') => eval c n parent e' sx') = _
      rw [hres]
      exact h1
  | star hw =>
    intro parent hr
    refine atomCase hr (by decide +kernel) (fun _ => hw) (fun qu hqu d => ?_)
    unfold evalAtom at hqu
    rw [if_pos (by simp)] at hqu
    exact ((wildcard_holds hr [] qu).1 hqu).2 d
  | @exact e n v q hp hs hn =>
    intro parent hr
    refine atomCase hr hp (fun hh => absurd hh.2 (star_ne hs hh.1)) (fun qu hqu d => ?_)
    unfold evalAtom at hqu
    rw [if_neg (by rcases hs with hs | hs <;> simp [hs])] at hqu
    cases hr with
    | field hf =>
      obtain ⟨_, _, _, hb, hpn⟩ := fieldP_flags n hf
      simp only [hb, hpn, hn, (fieldP_facts n hf).2.1, decide_true, if_true] at hqu
      cases hqu
      simp only [Query.holds, List.contains_iff_mem, decide_eq_true_eq]
  | @words e n v q hp hs hn =>
    intro parent hr
    refine atomCase hr hp (fun hh => absurd hh.2 (star_ne hs hh.1)) (fun qu hqu d => ?_)
    unfold evalAtom at hqu
    rw [if_neg (by rcases hs with hs | hs <;> simp [hs])] at hqu
    cases hr with
    | field hf =>
      obtain ⟨_, _, _, hb, hpn⟩ := fieldP_flags n hf
      obtain ⟨_, g1, g2⟩ := phrase_facts n hn
      simp only [hb, hpn, g1, g2, (fieldP_facts n hf).2.1, decide_false, if_false, Bool.false_eq_true] at hqu
      cases hqu
      exact oneTerm_holds _ _ _ _ _
  | @userWords e n v q hp hs =>
    intro parent hr
    refine atomCase hr hp (fun hh => absurd hh.2 (star_ne hs hh.1)) (fun qu hqu d => ?_)
    unfold evalAtom at hqu
    rw [if_neg (by rcases hs with hs | hs <;> simp [hs])] at hqu
    cases hr with
    | user =>
      have hqu : Res.ok (oneTerm c (c.termPrefix n) q v) = .ok qu := hqu
      cases hqu
      exact oneTerm_holds _ _ _ _ _
  | @anywhere e v q hp hs =>
    intro parent hr
    refine atomCase hr hp (fun hh => absurd hh.2 (star_ne hs hh.1)) (fun qu hqu d => ?_)
    unfold evalAtom at hqu
    rw [if_neg (by rcases hs with hs | hs <;> simp [hs])] at hqu
    cases hr with
    | top =>
      simp only at hqu
      cases hqu
      rw [holds_fold_fields]
      simp only [Query.holds, Bool.false_eq_true, false_or, oneTerm_holds]
      constructor
      · rintro ⟨p, hpm, ht⟩
        exact ⟨p.name, (fieldList_names _).2 ⟨p, hpm, rfl⟩, ht⟩
      · rintro ⟨n, hn, ht⟩
        obtain ⟨p, hpm, hpn⟩ := (fieldList_names n).1 hn
        exact ⟨p, hpm, by rw [hpn]; exact ht⟩
  | @and π e b args F hb _ ih =>
    intro parent hr
    obtain ⟨n, hn⟩ := args_complete args (fun x hx => ih x hx parent hr)
    refine ⟨n + 1, args.foldl (fun acc x => .comb .and acc (qOf (eval c n parent e) x)) .all, ?_, ?_⟩
    · rw [eval_head, head_builtin hb (by decide +kernel), ep_and, combine_iff]
      exact ⟨fun x hx => (hn x hx).1, rfl⟩
    · intro d
      rw [holds_fold_and]
      simp only [Query.holds, true_and]
      exact ⟨fun h x hx => ((hn x hx).2 d).1 (h x hx), fun h x hx => ((hn x hx).2 d).2 (h x hx)⟩
  | @or π e b args F hb _ ih =>
    intro parent hr
    obtain ⟨n, hn⟩ := args_complete args (fun x hx => ih x hx parent hr)
    refine ⟨n + 1, args.foldl (fun acc x => .comb .or acc (qOf (eval c n parent e) x)) .nothing, ?_, ?_⟩
    · rw [eval_head, head_builtin hb (by decide +kernel), ep_or, combine_iff]
      exact ⟨fun x hx => (hn x hx).1, rfl⟩
    · intro d
      rw [holds_fold_or]
      simp only [Query.holds, Bool.false_eq_true, false_or]
      exact ⟨fun ⟨x, hx, h⟩ => ⟨x, hx, ((hn x hx).2 d).1 h⟩, fun ⟨x, hx, h⟩ => ⟨x, hx, ((hn x hx).2 d).2 h⟩⟩
  | @not π e b args F hb _ ih =>
    intro parent hr
    obtain ⟨n, hn⟩ := args_complete args (fun x hx => ih x hx parent hr)
    refine ⟨n + 1, args.foldl (fun acc x => .comb .andNot acc (qOf (eval c n parent e) x)) .all, ?_, ?_⟩
    · rw [eval_head, head_builtin hb (by decide +kernel), ep_not, combine_iff]
      exact ⟨fun x hx => (hn x hx).1, rfl⟩
    · intro d
      rw [holds_fold_not]
      simp only [Query.holds, true_and]
      exact ⟨fun h x hx hF => h x hx (((hn x hx).2 d).2 hF), fun h x hx hF => h x hx (((hn x hx).2 d).1 hF)⟩
  | @andField e b n args F hb ho _ ih =>
    intro parent hr
    cases hr
    obtain ⟨hf, h3, h4⟩ := and_facts n ho
    obtain ⟨k, hn⟩ := args_complete args (fun x hx => ih x hx _ (.field hf))
    refine ⟨k + 1, args.foldl (fun acc x => .comb (fieldP n).op acc (qOf (eval c k (some (fieldP n)) e) x)) (initial (fieldP n)), ?_, ?_⟩
    · rw [eval_head, head_builtin hb (not_macro n (List.mem_append_left _ hf)), ep_field _ _ _ _ _ hf, if_neg (by simp), combine_iff]
      exact ⟨fun x hx => (hn x hx).1, rfl⟩
    · intro d
      rw [h3, initial, h4, holds_fold_and]
      simp only [if_true, Query.holds, true_and]
      exact ⟨fun h x hx => ((hn x hx).2 d).1 (h x hx), fun h x hx => ((hn x hx).2 d).2 (h x hx)⟩
  | @orField e b n args F hb ho _ ih =>
    intro parent hr
    cases hr
    obtain ⟨hf, h3, h4⟩ := or_facts n ho
    obtain ⟨k, hn⟩ := args_complete args (fun x hx => ih x hx _ (.field hf))
    refine ⟨k + 1, args.foldl (fun acc x => .comb (fieldP n).op acc (qOf (eval c k (some (fieldP n)) e) x)) (initial (fieldP n)), ?_, ?_⟩
    · rw [eval_head, head_builtin hb (not_macro n (List.mem_append_left _ hf)), ep_field _ _ _ _ _ hf, if_neg (by simp), combine_iff]
      exact ⟨fun x hx => (hn x hx).1, rfl⟩
    · intro d
      rw [h3, initial, h4, holds_fold_or]
      simp only [if_false, Query.holds, Bool.false_eq_true, false_or]
      exact ⟨fun ⟨x, hx, h⟩ => ⟨x, hx, ((hn x hx).2 d).1 h⟩, fun ⟨x, hx, h⟩ => ⟨x, hx, ((hn x hx).2 d).2 h⟩⟩
  | @userField e b n args F hs hu _ ih =>
    intro parent hr
    cases hr
    obtain ⟨k, hn⟩ := args_complete args (fun x hx => ih x hx _ .user)
    refine ⟨k + 1, args.foldl (fun acc x => .comb .and acc (qOf (eval c k (some (userPrefix n)) e) x)) .all, ?_, ?_⟩
    · rw [eval_head, evalHead, hs]
      simp only [hu, if_true, Option.isSome_none, Bool.false_eq_true, if_false]
      rw [combine_iff]
      exact ⟨fun x hx => (hn x hx).1, rfl⟩
    · intro d
      rw [holds_fold_and]
      simp only [Query.holds, true_and]
      exact ⟨fun h x hx => ((hn x hx).2 d).1 (h x hx), fun h x hx => ((hn x hx).2 d).2 (h x hx)⟩
  | @anyRange e b n hb hn =>
    intro parent hr
    cases hr
    refine ⟨1, .all, ?_, fun d => by simp [Query.holds]⟩
    rcases hn with rfl | rfl
    · rw [eval_head, head_builtin hb (by decide +kernel), ep_date]
      rfl
    · rw [eval_head, head_builtin hb (by decide +kernel), ep_lastmod]
      rfl
  | @date e b q1 q2 x y hb hu =>
    intro parent hr
    cases hr
    obtain ⟨g1, g2⟩ := date_range (c := c) x y
    obtain ⟨q, hq⟩ := g1.1 hu
    refine ⟨1, q, ?_, g2 q hq⟩
    rw [eval_head, head_builtin hb (by decide +kernel), ep_date, if_neg (by simp), parseRange, rangeQuery, if_pos rfl, hq]
  | @date1 e b q1 x hb hu =>
    intro parent hr
    cases hr
    obtain ⟨g1, g2⟩ := date_range (c := c) x x
    obtain ⟨q, hq⟩ := g1.1 hu
    refine ⟨1, q, ?_, g2 q hq⟩
    rw [eval_head, head_builtin hb (by decide +kernel), ep_date, if_neg (by simp), parseRange, rangeQuery, if_pos rfl, hq]
  | @lastmod e b q1 q2 x y hb hu =>
    intro parent hr
    cases hr
    obtain ⟨g1, g2⟩ := lastmod_range (c := c) x y
    obtain ⟨q, hq⟩ := g1.1 hu
    refine ⟨1, q, ?_, g2 q hq⟩
    rw [eval_head, head_builtin hb (by decide +kernel), ep_lastmod, if_neg (by simp), parseRange, rangeQuery, if_neg (by decide +kernel), if_pos rfl, hq]
  | @lastmod1 e b q1 x hb hu =>
    intro parent hr
    cases hr
    obtain ⟨g1, g2⟩ := lastmod_range (c := c) x x
    obtain ⟨q, hq⟩ := g1.1 hu
    refine ⟨1, q, ?_, g2 q hq⟩
    rw [eval_head, head_builtin hb (by decide +kernel), ep_lastmod, if_neg (by simp), parseRange, rangeQuery, if_neg (by decide +kernel), if_pos rfl, hq]
  | @infixed e b q1 x hb hx =>
    intro parent hr
    cases hr
    refine ⟨1, .infixQ x, ?_, fun d => by simp [Query.holds]⟩
    rw [eval_head, head_builtin hb (by decide +kernel), ep_infix, if_neg (by simp), if_pos (by simp [isAtom])]
    simp [text, infixRes, hx]
  | @infixFailed e b q1 x hb hx hrep =>
    intro parent hr
    cases hr
    refine ⟨1, .nothing, ?_, fun d => by simp [Query.holds]⟩
    rw [eval_head, head_builtin hb (by decide +kernel), ep_infix, if_neg (by simp), if_pos (by simp [isAtom])]
    simp [text, infixRes, hx, hrep]
  | @named e b q1 x hb hx =>
    intro parent hr
    cases hr
    refine ⟨1, .infixQ (c.named x), ?_, fun d => by simp [Query.holds]⟩
    rw [eval_head, head_builtin hb (by decide +kernel), ep_query, if_neg (by simp), if_pos (by simp [isAtom])]
    simp [text, namedRes, hx]
  | @startsWith π e b q1 x s hb hx hw =>
    intro parent hr
    obtain ⟨q, hq⟩ := (wildcard_holds (c := c) hr s .all).2 hw
    refine ⟨1, q, ?_, ((wildcard_holds hr s q).1 hq).2⟩
    rw [eval_head, head_builtin hb (by decide +kernel), ep_starts, if_pos (by simp [isAtom]), List.headD_cons, (expandTerm_text _ _ _).2 hx]
    exact congrArg some hq
  | @regexHeader e b q1 m n x s slot f hb hm hx hf hslot =>
    intro parent hr
    cases hr with
    | field hn =>
      refine ⟨1, .regexValue slot s, ?_, fun d => by simp [Query.holds, hf]⟩
      rw [eval_head, head_builtin hb (by rcases hm with rfl | rfl <;> decide +kernel), ep_rx _ _ _ _ _ hm, if_pos (by simp [isAtom]), List.headD_cons]
      have hrf : n ∈ regexFields := slot_fields _ hslot
      simp only [parseRegex, (fieldP_flags n hn).2.1, (fieldP_facts n hn).2.1, hrf, decide_true, if_true, (expandTerm_text _ _ _).2 hx, regexToQuery, hf,
        (findSlot_iff n slot).2 hslot]
  | @regexTerm e b q1 m n x s f hb hm hx hf hrf n1 n2 n3 =>
    intro parent hr
    cases hr with
    | field hn =>
      refine ⟨1, _, ?_, anyTerm_holds n f⟩
      rw [eval_head, head_builtin hb (by rcases hm with rfl | rfl <;> decide +kernel), ep_rx _ _ _ _ _ hm, if_pos (by simp [isAtom]), List.headD_cons]
      simp only [parseRegex, (fieldP_flags n hn).2.1, (fieldP_facts n hn).2.1, hrf, decide_true, if_true, (expandTerm_text _ _ _).2 hx, regexToQuery, hf,
        (findSlot_none n).2 ⟨n1, n2, n3⟩]
  | @matching e b m n args F hb hm hx _ ih =>
    intro parent hr
    cases hr with
    | field hf =>
      obtain ⟨k, hn⟩ := args_complete args (fun x hx => ih x hx _ .top)
      have hc : combine (eval c k none .nil) .and .all args = some (.ok (args.foldl (fun acc x => .comb .and acc (qOf (eval c k none .nil) x)) .all)) := by
        rw [combine_iff]
        exact ⟨fun x hx => (hn x hx).1, rfl⟩
      refine ⟨k + 1, queryExpand c n (args.foldl (fun acc x => .comb .and acc (qOf (eval c k none .nil) x)) .all), ?_, ?_⟩
      · rw [eval_head, head_builtin hb (by rcases hm with rfl | rfl <;> decide +kernel), ep_matching _ _ _ _ _ hm]
        simp only [(fieldP_flags n hf).2.2.1, (fieldP_facts n hf).2.1, hx, decide_true, if_true, hc]
      · intro d
        rw [expand_holds]
        simp only [holds_fold_and, Query.holds, true_and]
        constructor
        · rintro ⟨t, h1, d', h2, h3, h4⟩
          exact ⟨t, h1, d', h2, h3, fun x hx => ((hn x hx).2 d').1 (h4 x hx)⟩
        · rintro ⟨t, h1, d', h2, h3, h4⟩
          exact ⟨t, h1, d', h2, h3, fun x hx => ((hn x hx).2 d').2 (h4 x hx)⟩
  | @saved π e b n hd rest args S hs hm _ ih =>
    intro parent hr
    obtain ⟨k, q, h1, h2⟩ := ih parent hr
    refine ⟨k + 1, q, ?_, h2⟩
    rw [eval_head, evalHead, hs]
    simp only [applySaved]
    rw [if_neg ?_]
    · exact h1
    · intro hh
      simp only [Bool.and_eq_true, decide_eq_true_eq] at hh
      cases hd with
      | atom b' v => exact hm b' (by rw [show v = bs "macro" from hh.2])
      | list l => cases hh.1
  | @«macro» π e b b' n names body junk args S hs hl _ ih =>
    intro parent hr
    obtain ⟨k, q, h1, h2⟩ := ih parent hr
    refine ⟨k + 1, q, ?_, h2⟩
    rw [eval_head, evalHead, hs]
    simp only [applySaved, isAtom, text, Bool.true_and, decide_true, if_true]
    rw [(bindParams_iff e _ args .nil _).2 ⟨names, rfl, hl, rfl⟩]
    exact h1

end Notmuch.Sexp
