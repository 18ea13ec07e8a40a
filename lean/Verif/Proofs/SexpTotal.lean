import Verif.Proofs.SexpSubst

namespace Notmuch.Sexp

variable {c : Ctx}

/-! ## Evaluation ends -/

def Ends (c : Ctx) (e : Env) (sx : Sexp) : Prop := ∀ parent, ∃ n r, eval c n parent e sx = some r

def EndsEnv (c : Ctx) : Env → Prop
  | .nil => True
  | .bind _ sx ctx next => Ends c ctx sx ∧ EndsEnv c next

theorem endsEnv_resolve : ∀ {e : Env} {n : Str} {sx : Sexp} {e' : Env}, EndsEnv c e → resolve e n = some (sx, e') → Ends c e' sx
  | .nil, _, _, _, _, h => by cases h
  | .bind m sx' ctx next, n, sx, e', hp, h => by
    unfold resolve at h
    split at h
    · cases h; exact hp.1
    · exact endsEnv_resolve hp.2 h

theorem combine_ends {parent : Option Prefix} {e : Env} (op : Op) : ∀ (args : List Sexp) (left : Query), (∀ x ∈ args, Ends c e x) →
    ∃ n r, combine (eval c n parent e) op left args = some r
  | [], left, _ => ⟨0, _, rfl⟩
  | x :: l, left, h => by
    obtain ⟨n, r, hr⟩ := h x List.mem_cons_self parent
    cases r with
    | err s => exact ⟨n, .err s, by rw [combine, hr]⟩
    | crash => exact ⟨n, .crash, by rw [combine, hr]⟩
    | ok q =>
      obtain ⟨m, r, hm⟩ := combine_ends op l (.comb op left q) (fun y hy => h y (List.mem_cons_of_mem _ hy))
      refine ⟨n + m, r, ?_⟩
      rw [combine, eval_mono (Nat.le_add_right n m) hr]
      exact combine_mono (fun y s hy => eval_mono (Nat.le_add_left m n) hy) _ _ _ _ hm

theorem prefix_ends {parent : Option Prefix} {e : Env} {name : Str} {args : List Sexp} (h : ∀ x ∈ args, Ends c e x) (h0 : ∀ x ∈ args, Ends c .nil x) :
    ∃ n r, evalPrefix c (eval c n) parent e name args = some r := by
  by_cases hn : name ∈ fields
  · obtain ⟨n, r, hr⟩ := combine_ends (c := c) (parent := some (fieldP name)) (fieldP name).op args (initial (fieldP name)) h
    simp only [ep_field _ _ _ _ _ hn]
    split
    · exact ⟨0, _, rfl⟩
    · exact ⟨n, r, hr⟩
  by_cases ho : name ∈ others
  · simp only [others, List.mem_cons, List.not_mem_nil, or_false] at ho
    have hmat : name = bs "matching" ∨ name = bs "of" → ∃ n r, evalPrefix c (eval c n) parent e name args = some r := by
      intro hn
      obtain ⟨n, r, hr⟩ := combine_ends (c := c) (parent := none) .and args .all h0
      refine ⟨n, ?_⟩
      rw [ep_matching _ _ _ _ _ hn]
      cases parent with
      | none => exact ⟨_, rfl⟩
      | some pp =>
        simp only [hr]
        split
        · cases r <;> exact ⟨_, rfl⟩
        · exact ⟨_, rfl⟩
    rcases ho with rfl | rfl | rfl | rfl | rfl | rfl | rfl | ho | ho | rfl | ho | ho
    · simp only [ep_and]; exact combine_ends _ _ _ h
    · simp only [ep_or]; exact combine_ends _ _ _ h
    · simp only [ep_not]; exact combine_ends _ _ _ h
    · simp only [ep_date]; exact ⟨0, by split <;> exact ⟨_, rfl⟩⟩
    · simp only [ep_lastmod]; exact ⟨0, by split <;> exact ⟨_, rfl⟩⟩
    · simp only [ep_infix]; refine ⟨0, ?_⟩; split; exact ⟨_, rfl⟩; split <;> exact ⟨_, rfl⟩
    · simp only [ep_query]; refine ⟨0, ?_⟩; split; exact ⟨_, rfl⟩; split <;> exact ⟨_, rfl⟩
    · simp only [ep_rx _ _ _ _ _ (Or.inl ho)]; exact ⟨0, by split <;> exact ⟨_, rfl⟩⟩
    · simp only [ep_rx _ _ _ _ _ (Or.inr ho)]; exact ⟨0, by split <;> exact ⟨_, rfl⟩⟩
    · simp only [ep_starts]
      refine ⟨0, ?_⟩
      split
      · split <;> exact ⟨_, rfl⟩
      · exact ⟨_, rfl⟩
    · exact hmat (Or.inl ho)
    · exact hmat (Or.inr ho)
  · simp only [ep_none _ _ _ _ _ hn ho]
    exact ⟨0, _, rfl⟩

theorem bind_ends {e : Env} : ∀ (ps as : List Sexp) (new r : Env), bindParams e ps as new = some r → (∀ x ∈ as, Ends c e x) → EndsEnv c new → EndsEnv c r := by
  intro ps as new r h ha hn
  obtain ⟨names, _, _, rfl⟩ := (bindParams_iff _ _ _ _ _).1 h
  have : ∀ (l : List (Str × Sexp)) (new : Env), EndsEnv c new → (∀ p ∈ l, Ends c e p.2) → EndsEnv c (l.foldl (fun new na => .bind na.1 na.2 e new) new) := by
    intro l
    induction l with
    | nil => intro new h _; exact h
    | cons p l ih =>
      intro new h hl
      exact ih _ ⟨hl p List.mem_cons_self, h⟩ (fun q hq => hl q (List.mem_cons_of_mem _ hq))
  exact this _ _ hn (fun p hp => ha _ (List.of_mem_zip hp).2)

theorem ends_of_rank {rank : Str → Nat} (hrank : ∀ n s, c.squery n = some (some s) → ∀ m ∈ calls s, (c.squery m).isSome = true → rank m < rank n) :
    ∀ (k : Nat) (sx : Sexp), (∀ m ∈ heads sx, (c.squery m).isSome = true → rank m < k) → ∀ e, EndsEnv c e → Ends c e sx
  | 0 => go rank hrank 0 (fun n s hs h => by have := h (by rw [hs]; rfl); omega)
  | k + 1 => go rank hrank (k + 1) (fun n s hs h sx hm e he => ends_of_rank hrank k sx (fun m h1 h2 => by
      have := h (by rw [hs]; rfl)
      have := hm m h1 h2
      omega) e he)
where
  go (rank : Str → Nat) (hrank : ∀ n s, c.squery n = some (some s) → ∀ m ∈ calls s, (c.squery m).isSome = true → rank m < rank n) (k : Nat)
      (ih : ∀ n s, c.squery n = some (some s) → ((c.squery n).isSome = true → rank n < k) → ∀ sx, (∀ m ∈ heads sx, (c.squery m).isSome = true → rank m < rank n) → ∀ e, EndsEnv c e → Ends c e sx) :
      ∀ (sx : Sexp), (∀ m ∈ heads sx, (c.squery m).isSome = true → rank m < k) → ∀ e, EndsEnv c e → Ends c e sx := by
    apply sexp_ind
    · intro q v _ e he parent
      cases hp : param (.atom q v) with
      | none =>
        refine ⟨1, evalAtom c parent q v, ?_⟩
        show (match param (.atom q v) with | some name => _ | none => some (evalAtom c parent q v)) = _
        rw [hp]
      | some n =>
        cases hr : resolve e n with
        | none =>
          refine ⟨1, .err .badSyntax, ?_⟩
          show (match param (.atom q v) with | some name => _ | none => some (evalAtom c parent q v)) = _
          rw [hp]
          simp only [hr]
        | some p =>
          obtain ⟨m, r, h⟩ := endsEnv_resolve he hr parent
          refine ⟨m + 1, r, ?_⟩
          show (match param (.atom q v) with | some name => _ | none => some (evalAtom c parent q v)) = _
          rw [hp]
          simp only [hr]
          exact h
    · intro l ihl hk e he parent
      match l with
      | [] => exact ⟨1, _, rfl⟩
      | .list _ :: _ => exact ⟨1, _, rfl⟩
      | .atom b name :: args =>
        have hargs : ∀ e, EndsEnv c e → ∀ x ∈ args, Ends c e x := fun e he x hx => ihl x (List.mem_cons_of_mem _ hx) (fun m hm => hk m (by
          rw [heads]
          exact List.mem_cons_of_mem _ ((mem_headsAll args).2 ⟨x, hx, hm⟩))) e he
        suffices h : ∃ n r, evalHead c (eval c n) parent e name args = some r by
          obtain ⟨n, r, h⟩ := h
          exact ⟨n + 1, r, h⟩
        unfold evalHead
        cases hs : c.squery name with
        | some o =>
          cases o with
          | none => exact ⟨0, _, rfl⟩
          | some s =>
            have hlt := hk name (by rw [heads]; exact List.mem_cons_self)
            have ih := ih name s hs hlt
            simp only
            match s, hs, ih with
            | .atom _ _, _, _ => exact ⟨0, _, rfl⟩
            | .list [], _, _ => exact ⟨0, _, rfl⟩
            | .list (h :: rest), hs, ih =>
              simp only [applySaved]
              by_cases hm : (isAtom h && decide (text h = bs "macro")) = true
              · simp only [hm, if_true]
                match rest, hs with
                | .list params :: body :: junk, hs =>
                  simp only
                  cases hb : bindParams e params args .nil with
                  | none => exact ⟨0, _, rfl⟩
                  | some new =>
                    refine ih body (fun m h1 h2 => hrank name _ hs m ?_ h2) new (bind_ends _ _ _ _ hb (hargs e he) trivial) parent
                    simp only [Bool.and_eq_true, decide_eq_true_eq] at hm
                    cases h with
                    | list l => cases hm.1
                    | atom b' v =>
                      have hv : v = bs "macro" := hm.2
                      simp only [calls, hv, if_true]
                      exact h1
                | [], _ => exact ⟨0, _, rfl⟩
                | [.atom _ _], _ => exact ⟨0, _, rfl⟩
                | [.list _], _ => exact ⟨0, _, rfl⟩
                | .atom _ _ :: _ :: _, _ => exact ⟨0, _, rfl⟩
              · simp only [hm, if_false]
                refine ih (.list (h :: rest)) (fun m h1 h2 => hrank name _ hs m ?_ h2) e he parent
                cases h with
                | list l => exact h1
                | atom b' v =>
                  have hv : v ≠ bs "macro" := fun hv => hm (by rw [hv]; simp [isAtom, text])
                  have hcalls : calls (.list (.atom b' v :: rest)) = heads (.list (.atom b' v :: rest)) := if_neg hv
                  rw [hcalls]
                  exact h1
        | none =>
          simp only
          split
          · split
            · exact ⟨0, _, rfl⟩
            · exact combine_ends _ _ _ (hargs e he)
          · split
            · exact ⟨0, _, rfl⟩
            · exact prefix_ends (hargs e he) (hargs .nil trivial)

theorem bounded (rank : Str → Nat) : ∀ l : List Str, ∃ k, ∀ m ∈ l, rank m < k
  | [] => ⟨0, by simp⟩
  | x :: l => by
    obtain ⟨k, hk⟩ := bounded rank l
    refine ⟨k + rank x + 1, fun m hm => ?_⟩
    rcases List.mem_cons.1 hm with rfl | hm
    · omega
    · have := hk m hm; omega

theorem ends_of_acyclic (h : Acyclic c) (sx : Sexp) : Ends c .nil sx := by
  obtain ⟨rank, hr⟩ := h
  obtain ⟨k, hk⟩ := bounded rank (heads sx)
  exact ends_of_rank hr k sx (fun m hm _ => hk m hm) .nil trivial

/-! ## Nothing crashes -/

def SafeEnv (c : Ctx) : Env → Prop
  | .nil => True
  | .bind _ sx ctx next => safe c false sx = true ∧ SafeEnv c ctx ∧ SafeEnv c next

theorem safeEnv_resolve : ∀ {e : Env} {n : Str} {sx : Sexp} {e' : Env}, SafeEnv c e → resolve e n = some (sx, e') → safe c false sx = true ∧ SafeEnv c e'
  | .nil, _, _, _, _, h => by cases h
  | .bind m sx' ctx next, n, sx, e', hp, h => by
    unfold resolve at h
    split at h
    · cases h; exact ⟨hp.1, hp.2.1⟩
    · exact safeEnv_resolve hp.2.2 h

theorem safe_up : ∀ s, safe c false s = true → safe c true s = true := by
  apply sexp_ind
  · intro q v _; rfl
  · intro l ih h
    cases l with
    | nil => rfl
    | cons x l =>
      rw [safe] at h ⊢
      split
      · rename_i hh; rw [if_pos hh] at h; exact h
      · rename_i hh
        rw [if_neg hh] at h
        split
        · rename_i h2; rw [if_pos h2] at h; cases h
        · rename_i h2
          rw [if_neg h2] at h
          split
          · rename_i h3; rw [if_pos h3] at h; exact h
          · rename_i h3
            rw [if_neg h3, safeAll_iff] at h
            rw [safeAll_iff]
            exact fun y hy => ih y (List.mem_cons_of_mem _ hy) (h y hy)

theorem combine_crash {f : Sexp → Option Res} {op : Op} : ∀ {args : List Sexp} {left : Query}, (∀ x ∈ args, f x ≠ some .crash) → combine f op left args ≠ some .crash
  | [], left, _ => by simp [combine]
  | x :: l, left, h => by
    unfold combine
    split
    · exact combine_crash (fun y hy => h y (List.mem_cons_of_mem _ hy))
    · exact h x List.mem_cons_self

theorem bind_safe {e : Env} (he : SafeEnv c e) : ∀ (ps as : List Sexp) (new r : Env), bindParams e ps as new = some r → (∀ x ∈ as, safe c false x = true) → SafeEnv c new → SafeEnv c r := by
  intro ps as new r h ha hn
  obtain ⟨names, _, _, rfl⟩ := (bindParams_iff _ _ _ _ _).1 h
  have : ∀ (l : List (Str × Sexp)) (new : Env), SafeEnv c new → (∀ p ∈ l, safe c false p.2 = true) → SafeEnv c (l.foldl (fun new na => .bind na.1 na.2 e new) new) := by
    intro l
    induction l with
    | nil => intro new h _; exact h
    | cons p l ih =>
      intro new h hl
      exact ih _ ⟨hl p List.mem_cons_self, he, h⟩ (fun q hq => hl q (List.mem_cons_of_mem _ hq))
  exact this _ _ hn (fun p hp => ha _ (List.of_mem_zip hp).2)

theorem atom_no_crash (parent : Option Prefix) (q : Bool) (v : Str) : evalAtom c parent q v ≠ .crash := by
  unfold evalAtom
  split
  · unfold parseWildcard
    split
    · simp
    · split <;> simp
  · split
    · simp only; split <;> simp
    · simp

theorem range_no_crash (p : Prefix) (args : List Sexp) : parseRange c p args ≠ .crash := by
  have hr : ∀ lo hi, rangeQuery c p lo hi ≠ .crash := by
    intro lo hi
    unfold rangeQuery
    split
    · unfold dateRange; split <;> simp
    · split
      · unfold lastmodRange; split <;> simp
      · simp
  unfold parseRange
  split
  · simp
  · exact hr _ _
  · exact hr _ _
  · simp

theorem wildcard_no_crash (parent : Option Prefix) (s : Str) : parseWildcard c parent s ≠ .crash := by
  unfold parseWildcard
  split
  · simp
  · split <;> simp

theorem regex_no_crash (parent : Option Prefix) (e : Env) (sx : Sexp) : parseRegex c parent e sx ≠ .crash := by
  unfold parseRegex
  split
  · simp
  · split
    · split
      · simp
      · unfold regexToQuery
        split
        · simp
        · split <;> simp
    · simp

theorem infix_no_crash (s : Str) : infixRes c s ≠ .crash := by
  unfold infixRes
  split
  · simp
  · simp
  · split <;> simp

theorem safe_list (b q : Bool) (name : Str) (args : List Sexp) : safe c b (.list (.atom q name :: args)) =
    if (c.squery name).isSome then safeAll c false args
    else if name = bs "matching" ∨ name = bs "of" then b && safeAll c false args
    else if c.user name || (phraseFields ++ termFields).contains name then safeAll c true args
    else safeAll c b args := by
  rw [safe]
  rfl

theorem no_crash (hn : ∀ s, c.parseInfix (c.named s) = .ok) (hs : ∀ n s, c.squery n = some (some s) → SavedSafe c s) :
    ∀ (n : Nat) (parent : Option Prefix) (e : Env) (sx : Sexp), SafeEnv c e → safe c parent.isSome sx = true → eval c n parent e sx ≠ some .crash
  | 0, _, _, _, _, _ => by simp [eval]
  | n + 1, parent, e, sx, he, hsafe => by
    have lift : ∀ s, safe c false s = true → safe c parent.isSome s = true := by
      intro s h
      cases parent
      · exact h
      · exact safe_up s h
    match sx with
    | .atom q v =>
      show (match param (.atom q v) with | some name => _ | none => some (evalAtom c parent q v)) ≠ _
      cases hp : param (.atom q v) with
      | none => 
        intro h
        simp only [Option.some.injEq] at h
        exact atom_no_crash _ _ _ h
      | some m =>
        simp only
        split
        · simp
        · rename_i sx' e' hr
          obtain ⟨h1, h2⟩ := safeEnv_resolve he hr
          exact no_crash hn hs n parent e' sx' h2 (lift _ h1)
    | .list [] => simp [eval]
    | .list (.list _ :: _) => simp [eval]
    | .list (.atom b name :: args) =>
      show evalHead c (eval c n) parent e name args ≠ _
      rw [safe_list] at hsafe
      unfold evalHead
      cases hq : c.squery name with
      | some o =>
        cases o with
        | none => simp
        | some s =>
          simp only [hq, Option.isSome_some, if_true, safeAll_iff] at hsafe
          have hss := hs name s hq
          simp only
          match s, hss with
          | .list (h :: rest), hss =>
            simp only [applySaved]
            by_cases hm : (isAtom h && decide (text h = bs "macro")) = true
            · simp only [hm, if_true]
              split
              · rename_i params body junk
                split
                · simp
                · rename_i new hb
                  refine no_crash hn hs n parent new body (bind_safe he _ _ _ _ hb hsafe trivial) (lift _ ?_)
                  cases h with
                  | list l => cases hm
                  | atom b' v =>
                    have hv : v = bs "macro" := by
                      simp only [isAtom, text, Bool.true_and] at hm
                      exact of_decide_eq_true hm
                    rw [SavedSafe, if_pos hv] at hss
                    exact hss _ _ _ rfl
              · simp
            · simp only [hm, if_false]
              cases h with
              | list l =>
                cases n with
                | zero => simp [eval]
                | succ n => simp [eval]
              | atom b' v =>
                have hv : v ≠ bs "macro" := fun hv => hm (by rw [hv]; simp [isAtom, text])
                rw [SavedSafe, if_neg hv] at hss
                exact no_crash hn hs n parent e _ he (lift _ hss)
      | none =>
        simp only [hq, Option.isSome_none, Bool.false_eq_true, if_false] at hsafe
        simp only
        have hargs : ∀ b, safeAll c b args = true → ∀ (parent : Option Prefix), parent.isSome = b → ∀ e, SafeEnv c e → ∀ x ∈ args, eval c n parent e x ≠ some .crash := by
          intro b hb parent hpb e he x hx
          rw [safeAll_iff] at hb
          exact no_crash hn hs n parent e x he (by rw [hpb]; exact hb x hx)
        by_cases hm : name = bs "matching" ∨ name = bs "of"
        · rw [if_pos hm, Bool.and_eq_true] at hsafe
          split
          · cases parent with
            | none => cases hsafe.1
            | some p => simp
          · split
            · simp
            · rw [ep_matching _ _ _ _ _ hm]
              cases parent with
              | none => cases hsafe.1
              | some p =>
                simp only
                split
                · split
                  · simp
                  · rename_i hno
                    exact combine_crash (hargs false hsafe.2 none rfl .nil trivial)
                · simp
        · rw [if_neg hm] at hsafe
          by_cases hu : c.user name = true
          · rw [if_pos (by rw [hu]; rfl)] at hsafe
            rw [if_pos hu]
            split
            · simp
            · exact combine_crash (hargs true hsafe _ rfl e he)
          · rw [if_neg hu]
            split
            · simp
            · by_cases hf : name ∈ fields
              · rw [if_pos (by
                  have : (phraseFields ++ termFields).contains name = true := List.contains_iff_mem.2 hf
                  rw [this]; simp)] at hsafe
                rw [ep_field _ _ _ _ _ hf]
                split
                · simp
                · exact combine_crash (hargs true hsafe _ rfl e he)
              · rw [if_neg (by
                  have : (phraseFields ++ termFields).contains name = false := by
                    rw [Bool.eq_false_iff]; intro h; exact hf (List.contains_iff_mem.1 h)
                  rw [this]; simp [hu])] at hsafe
                by_cases ho : name ∈ others
                · simp only [others, List.mem_cons, List.not_mem_nil, or_false] at ho
                  rcases ho with rfl | rfl | rfl | rfl | rfl | rfl | rfl | ho | ho | rfl | ho | ho
                  · rw [ep_and]; exact combine_crash (hargs _ hsafe _ rfl e he)
                  · rw [ep_or]; exact combine_crash (hargs _ hsafe _ rfl e he)
                  · rw [ep_not]; exact combine_crash (hargs _ hsafe _ rfl e he)
                  · rw [ep_date]
                    split
                    · simp
                    · intro h; exact range_no_crash _ _ (Option.some.inj h)
                  · rw [ep_lastmod]
                    split
                    · simp
                    · intro h; exact range_no_crash _ _ (Option.some.inj h)
                  · rw [ep_infix]
                    split
                    · simp
                    · split
                      · intro h; exact infix_no_crash _ (Option.some.inj h)
                      · simp
                  · rw [ep_query]
                    split
                    · simp
                    · split
                      · simp [namedRes, hn]
                      · simp
                  · rw [ep_rx _ _ _ _ _ (Or.inl ho)]
                    split
                    · intro h; exact regex_no_crash _ _ _ (Option.some.inj h)
                    · simp
                  · rw [ep_rx _ _ _ _ _ (Or.inr ho)]
                    split
                    · intro h; exact regex_no_crash _ _ _ (Option.some.inj h)
                    · simp
                  · rw [ep_starts]
                    split
                    · split
                      · simp
                      · intro h; exact wildcard_no_crash _ _ (Option.some.inj h)
                    · simp
                  · exact absurd (Or.inl ho) hm
                  · exact absurd (Or.inr ho) hm
                · rw [ep_none _ _ _ _ _ hf ho]
                  simp

end Notmuch.Sexp
