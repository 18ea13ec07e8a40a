import Verif.Proofs.SexpComplete

namespace Notmuch.Sexp

variable {c : Ctx}

mutual
theorem sexp_ind {P : Sexp → Prop} (ha : ∀ q v, P (.atom q v)) (hl : ∀ l, (∀ x ∈ l, P x) → P (.list l)) : ∀ s, P s
  | .atom q v => ha q v
  | .list l => hl l (sexp_ind_list ha hl l)
theorem sexp_ind_list {P : Sexp → Prop} (ha : ∀ q v, P (.atom q v)) (hl : ∀ l, (∀ x ∈ l, P x) → P (.list l)) : ∀ l : List Sexp, ∀ x ∈ l, P x
  | [] => List.forall_mem_nil _
  | y :: l => List.forall_mem_cons.2 ⟨sexp_ind ha hl y, sexp_ind_list ha hl l⟩
end

/-! ## The functions on lists -/

theorem substAll_eq (g : Str → Option Sexp) : ∀ l, substAll g l = l.map (subst g)
  | [] => rfl
  | x :: l => by rw [substAll, substAll_eq g l]; rfl

theorem noParamsAll_iff : ∀ l, noParamsAll l = true ↔ ∀ x ∈ l, noParams x = true
  | [] => by simp [noParamsAll]
  | x :: l => by simp [noParamsAll, noParamsAll_iff l]

theorem plainAll_iff : ∀ l, plainAll l = true ↔ ∀ x ∈ l, plain x = true
  | [] => by simp [plainAll]
  | x :: l => by simp [plainAll, plainAll_iff l]

theorem mem_headsAll {m : Str} : ∀ l, m ∈ headsAll l ↔ ∃ x ∈ l, m ∈ heads x
  | [] => by simp [headsAll]
  | x :: l => by simp [headsAll, mem_headsAll l]

theorem safeAll_iff {b : Bool} : ∀ l, safeAll c b l = true ↔ ∀ x ∈ l, safe c b x = true
  | [] => by simp [safeAll]
  | x :: l => by simp [safeAll, safeAll_iff l]

theorem subst_noParams (g : Str → Option Sexp) : ∀ s, noParams s = true → subst g s = s := by
  apply sexp_ind
  · intro q v h
    simp only [noParams, Option.isNone_iff_eq_none] at h
    simp [subst, h]
  · intro l ih h
    cases l with
    | nil => rfl
    | cons x l =>
      rw [noParams, noParamsAll_iff] at h
      rw [subst, substAll_eq]
      congr 2
      conv => rhs; rw [← List.map_id l]
      exact List.map_congr_left (fun y hy => ih y (List.mem_cons_of_mem _ hy) (h y hy))

theorem noParams_plain : ∀ s, noParams s = true → plain s = true := by
  apply sexp_ind
  · intro q v _; rfl
  · intro l ih h
    cases l with
    | nil => rfl
    | cons x l =>
      rw [noParams] at h
      rw [plain]
      split
      · exact h
      · rw [noParamsAll_iff] at h
        rw [plainAll_iff]
        exact fun y hy => ih y (List.mem_cons_of_mem _ hy) (h y hy)

/-! ## Closed queries -/

/-- What a parameter stands for, with everything in place. -/
def closeParam : Env → Str → Option Sexp
  | .nil, _ => none
  | .bind n sx ctx next, name => if name = n then some (subst (closeParam ctx) sx) else closeParam next name

/-- A query with everything in place. -/
def close (e : Env) (sx : Sexp) : Sexp := subst (closeParam e) sx

theorem closeParam_eq : ∀ (e : Env) (n : Str), closeParam e n = (resolve e n).map (fun r => close r.2 r.1)
  | .nil, _ => rfl
  | .bind m sx ctx next, n => by
    unfold closeParam resolve
    split
    · rfl
    · exact closeParam_eq next n

theorem close_atom (e : Env) (q : Bool) (v : Str) (h : param (.atom q v) = none) : close e (.atom q v) = .atom q v := by
  simp [close, subst, h]

theorem close_param (e e' : Env) {sx sx' : Sexp} {n : Str} (h : param sx = some n) (hr : resolve e n = some (sx', e')) : close e sx = close e' sx' := by
  cases sx with
  | list l => cases h
  | atom q v =>
    rw [close, subst, h]
    simp [closeParam_eq, hr]

theorem close_unbound (e : Env) {sx : Sexp} {n : Str} (h : param sx = some n) (hr : resolve e n = none) : close e sx = sx := by
  cases sx with
  | list l => cases h
  | atom q v =>
    rw [close, subst, h]
    simp [closeParam_eq, hr]

theorem close_list (e : Env) (h : Sexp) (args : List Sexp) : close e (.list (h :: args)) = .list (h :: args.map (close e)) := by
  rw [close, subst, substAll_eq]
  rfl

theorem close_nil_list (e : Env) : close e (.list []) = .list [] := rfl

theorem close_nil : ∀ s, close .nil s = s := by
  apply sexp_ind
  · intro q v
    simp only [close, subst]
    cases param (.atom q v) <;> rfl
  · intro l ih
    cases l with
    | nil => rfl
    | cons x l =>
      rw [close_list]
      congr 2
      conv => rhs; rw [← List.map_id l]
      exact List.map_congr_left (fun y hy => ih y (List.mem_cons_of_mem _ hy))

/-- The environment has plain queries only. -/
def PlainEnv : Env → Prop
  | .nil => True
  | .bind _ sx ctx next => plain sx = true ∧ PlainEnv ctx ∧ PlainEnv next

theorem plainEnv_resolve : ∀ {e : Env} {n : Str} {sx : Sexp} {e' : Env}, PlainEnv e → resolve e n = some (sx, e') → plain sx = true ∧ PlainEnv e'
  | .nil, _, _, _, _, h => by cases h
  | .bind m sx' ctx next, n, sx, e', hp, h => by
    unfold resolve at h
    split at h
    · cases h; exact ⟨hp.1, hp.2.1⟩
    · exact plainEnv_resolve hp.2.2 h

/-- Following parameters: to something that is none, or a parameter without value. -/
theorem follow (e : Env) (sx : Sexp) (hp : PlainEnv e) (hs : plain sx = true) : ∃ e' sx', PlainEnv e' ∧ plain sx' = true ∧ close e sx = close e' sx' ∧
    (∀ s, Text e' sx' s → Text e sx s) ∧ (∀ π S, Means c π e' sx' S → Means c π e sx S) ∧ (param sx' = none ∨ ∃ n, param sx' = some n ∧ resolve e' n = none) := by
  have key : ∀ (e : Env) (n : Str), PlainEnv e → resolve e n = none ∨ ∃ sx e', resolve e n = some (sx, e') ∧ ∃ e'' sx'', PlainEnv e'' ∧ plain sx'' = true ∧ close e' sx = close e'' sx'' ∧
      (∀ s, Text e'' sx'' s → Text e' sx s) ∧ (∀ π S, Means c π e'' sx'' S → Means c π e' sx S) ∧ (param sx'' = none ∨ ∃ n, param sx'' = some n ∧ resolve e'' n = none) := by
    intro e
    induction e with
    | nil => intro n _; exact Or.inl rfl
    | bind m sx ctx next ih1 ih2 =>
      intro n hp
      rw [show resolve (.bind m sx ctx next) n = if n = m then some (sx, ctx) else resolve next n from rfl]
      split
      · right
        refine ⟨sx, ctx, rfl, ?_⟩
        cases hk : param sx with
        | none => exact ⟨ctx, sx, hp.2.1, hp.1, rfl, fun s h => h, fun π S h => h, Or.inl hk⟩
        | some k =>
          rcases ih1 k hp.2.1 with h | ⟨sx2, e2, h2, e3, sx3, g1, g2, g3, g4, g5, g6⟩
          · exact ⟨ctx, sx, hp.2.1, hp.1, rfl, fun s h => h, fun π S h => h, Or.inr ⟨k, hk, h⟩⟩
          · exact ⟨e3, sx3, g1, g2, by rw [close_param _ _ hk h2, g3], fun s h => .param hk h2 (g4 s h), fun π S h => .param hk h2 (g5 π S h), g6⟩
      · exact ih2 n hp.2.2
  cases hk : param sx with
  | none => exact ⟨e, sx, hp, hs, rfl, fun s h => h, fun π S h => h, Or.inl hk⟩
  | some k =>
    rcases key e k hp with h | ⟨sx2, e2, h2, e3, sx3, g1, g2, g3, g4, g5, g6⟩
    · exact ⟨e, sx, hp, hs, rfl, fun s h => h, fun π S h => h, Or.inr ⟨k, hk, h⟩⟩
    · exact ⟨e3, sx3, g1, g2, by rw [close_param _ _ hk h2, g3], fun s h => .param hk h2 (g4 s h), fun π S h => .param hk h2 (g5 π S h), g6⟩

/-- Meanings are unique. -/
theorem means_unique {π : Place} {e : Env} {sx : Sexp} {S S' : Doc → Prop} {parent : Option Prefix} (hr : Rel parent π) (h : Means c π e sx S) (h' : Means c π e sx S') (d : Doc) :
    S d ↔ S' d := by
  obtain ⟨n, q, h1, h2⟩ := eval_complete h parent hr
  obtain ⟨m, q', h1', h2'⟩ := eval_complete h' parent hr
  have g1 := eval_mono (Nat.le_add_right n m) h1
  have g2 := eval_mono (Nat.le_add_left m n) h1'
  rw [g1] at g2
  cases g2
  rw [← h2, ← h2']

/-- The environments have the same values. -/
theorem close_env {e1 e2 : Env} (h : ∀ n, closeParam e1 n = closeParam e2 n) (sx : Sexp) : close e1 sx = close e2 sx := by
  rw [close, close, show closeParam e1 = closeParam e2 from funext h]

theorem bindAll_gen (e : Env) : ∀ (l : List (Str × Sexp)) (new : Env) (n : Str),
    closeParam (l.foldl (fun new na => .bind na.1 na.2 e new) new) n = (((l.filter (fun p => p.1 = n)).getLast?).map (fun p => close e p.2)).or (closeParam new n)
  | [], new, n => by simp
  | p :: l, new, n => by
    rw [List.foldl_cons, bindAll_gen e l]
    simp only [closeParam]
    by_cases h : p.1 = n
    · rw [List.filter_cons_of_pos (by simpa using h), List.getLast?_cons, if_pos h.symm]
      cases hl : (l.filter (fun p => p.1 = n)).getLast? with
      | none => simp [hl, close]
      | some q => simp [hl]
    · rw [List.filter_cons_of_neg (by simpa using h), if_neg (fun hh => h hh.symm)]

theorem bindAll_close (e : Env) (names : List Str) (args : List Sexp) (n : Str) : closeParam (bindAll e names args) n = (argOf names args n).map (close e) := by
  rw [bindAll, bindAll_gen, argOf]
  cases ((names.zip args).filter (fun p => p.1 = n)).getLast? <;> simp [closeParam]

theorem argOf_map (f : Sexp → Sexp) (n : Str) : ∀ (names : List Str) (args : List Sexp), argOf names (args.map f) n = (argOf names args n).map f := by
  intro names args
  have : ∀ (names : List Str) (args : List Sexp), names.zip (args.map f) = (names.zip args).map (fun p => (p.1, f p.2)) := by
    intro names
    induction names with
    | nil => simp
    | cons a l ih =>
      intro args
      cases args with
      | nil => rfl
      | cons b m => simp [ih]
  unfold argOf
  rw [this, List.filter_map, List.getLast?_map]
  rw [Option.map_map, Option.map_map]
  rfl

theorem bindAll_plain (e : Env) (he : PlainEnv e) (names : List Str) (args : List Sexp) (ha : ∀ x ∈ args, plain x = true) : PlainEnv (bindAll e names args) := by
  have : ∀ (l : List (Str × Sexp)) (new : Env), PlainEnv new → (∀ p ∈ l, plain p.2 = true) → PlainEnv (l.foldl (fun new na => .bind na.1 na.2 e new) new) := by
    intro l
    induction l with
    | nil => intro new h _; exact h
    | cons p l ih =>
      intro new h hl
      exact ih _ ⟨hl p List.mem_cons_self, he, h⟩ (fun q hq => hl q (List.mem_cons_of_mem _ hq))
  exact this _ _ trivial (fun p hp => ha _ (List.of_mem_zip hp).2)

theorem plain_args {h : Sexp} {args : List Sexp} (hp : plain (.list (h :: args)) = true) : ∀ x ∈ args, plain x = true := by
  rw [plain] at hp
  split at hp
  · rw [noParamsAll_iff] at hp
    exact fun x hx => noParams_plain x (hp x hx)
  · exact (plainAll_iff _).1 hp

theorem literal_args {q : Bool} {n : Str} {args : List Sexp} (hn : n ∈ literalHeads) (hp : plain (.list (.atom q n :: args)) = true) (e : Env) : args.map (close e) = args := by
  rw [plain, if_pos (show headName (.atom q n) ∈ literalHeads from hn), noParamsAll_iff] at hp
  conv => rhs; rw [← List.map_id args]
  exact List.map_congr_left (fun y hy => subst_noParams _ y (hp y hy))

/-- Something whose closed form is a list. -/
theorem list_case {e : Env} {sx h : Sexp} {l : List Sexp} (he : PlainEnv e) (hs : plain sx = true) (hc : .list (h :: l) = close e sx) :
    ∃ e' args, PlainEnv e' ∧ plain (.list (h :: args)) = true ∧ l = args.map (close e') ∧ ∀ π S, Means c π e' (.list (h :: args)) S → Means c π e sx S := by
  obtain ⟨e', sx', g1, g2, g3, _, g5, g6⟩ := follow (c := c) e sx he hs
  rw [g3] at hc
  cases sx' with
  | atom q v =>
    rcases g6 with g6 | ⟨n, g6, g7⟩
    · rw [close_atom _ _ _ g6] at hc; cases hc
    · rw [close_unbound _ g6 g7] at hc; cases hc
  | list l' =>
    cases l' with
    | nil => rw [close_nil_list] at hc; cases hc
    | cons h' args =>
      rw [close_list] at hc
      simp only [Sexp.list.injEq, List.cons.injEq] at hc
      obtain ⟨rfl, hc⟩ := hc
      exact ⟨e', args, g1, g2, hc, g5⟩

theorem atom_case {e : Env} {sx : Sexp} {q : Bool} {v : Str} (he : PlainEnv e) (hs : plain sx = true) (hc : .atom q v = close e sx) (hp : param (.atom q v) = none) :
    ∃ e', (∀ π S, Means c π e' (.atom q v) S → Means c π e sx S) ∧ ∀ s, Text e' (.atom q v) s → Text e sx s := by
  obtain ⟨e', sx', g1, g2, g3, g4, g5, g6⟩ := follow (c := c) e sx he hs
  rw [g3] at hc
  cases sx' with
  | list l' =>
    cases l' with
    | nil => rw [close_nil_list] at hc; cases hc
    | cons h' args => rw [close_list] at hc; cases hc
  | atom q' v' =>
    rcases g6 with g6 | ⟨n, g6, g7⟩
    · rw [close_atom _ _ _ g6] at hc
      cases hc
      exact ⟨e', g5, g4⟩
    · rw [close_unbound _ g6 g7] at hc
      cases hc
      rw [hp] at g6; cases g6

theorem nil_case {e : Env} {sx : Sexp} (he : PlainEnv e) (hs : plain sx = true) (hc : .list [] = close e sx) :
    ∃ e', (∀ π S, Means c π e' (.list []) S → Means c π e sx S) := by
  obtain ⟨e', sx', g1, g2, g3, g4, g5, g6⟩ := follow (c := c) e sx he hs
  rw [g3] at hc
  cases sx' with
  | list l' =>
    cases l' with
    | nil => exact ⟨e', g5⟩
    | cons h' args => rw [close_list] at hc; cases hc
  | atom q' v' =>
    rcases g6 with g6 | ⟨n, g6, g7⟩
    · rw [close_atom _ _ _ g6] at hc
      cases hc
    · rw [close_unbound _ g6 g7] at hc
      cases hc

theorem text_close {e : Env} {sx : Sexp} {s : Str} (h : Text e sx s) : ∃ q, close e sx = .atom q s ∧ param (.atom q s) = none := by
  induction h with
  | @atom e q v hp => exact ⟨q, close_atom _ _ _ hp, hp⟩
  | @param e e' sx sx' n s hp hr _ ih =>
    rw [close_param _ _ hp hr]
    exact ih

theorem args_transfer {π : Place} {parent : Option Prefix} (hr : Rel parent π) {f g : Sexp → Sexp} {e2 : Env} {args1 args2 : List Sexp} {F : Sexp → Doc → Prop}
    (hm : args1.map f = args2.map g) (ih : ∀ x ∈ args1, ∀ y ∈ args2, f x = g y → Means c π e2 y (F x)) :
    ∃ G : Sexp → Doc → Prop, (∀ y ∈ args2, Means c π e2 y (G y)) ∧ (∀ d, (∀ y ∈ args2, G y d) ↔ ∀ x ∈ args1, F x d) ∧ (∀ d, (∃ y ∈ args2, G y d) ↔ ∃ x ∈ args1, F x d) ∧
      ∀ d, (∀ y ∈ args2, ¬ G y d) ↔ ∀ x ∈ args1, ¬ F x d := by
  have h21 : ∀ y ∈ args2, ∃ x ∈ args1, f x = g y := by
    intro y hy
    have : g y ∈ args1.map f := by rw [hm]; exact List.mem_map_of_mem hy
    exact List.mem_map.1 this
  have h12 : ∀ x ∈ args1, ∃ y ∈ args2, f x = g y := by
    intro x hx
    have : f x ∈ args2.map g := by rw [← hm]; exact List.mem_map_of_mem hx
    obtain ⟨y, hy, h⟩ := List.mem_map.1 this
    exact ⟨y, hy, h.symm⟩
  have hG : ∀ x ∈ args1, ∀ y ∈ args2, f x = g y → ∀ d, (∃ S, Means c π e2 y S ∧ S d) ↔ F x d := by
    intro x hx y hy hxy d
    constructor
    · rintro ⟨S, h1, h2⟩
      exact (means_unique hr h1 (ih x hx y hy hxy) d).1 h2
    · intro h
      exact ⟨_, ih x hx y hy hxy, h⟩
  refine ⟨fun y d => ∃ S, Means c π e2 y S ∧ S d, ?_, ?_, ?_, ?_⟩
  · intro y hy
    obtain ⟨x, hx, hxy⟩ := h21 y hy
    exact means_congr (ih x hx y hy hxy) (fun d => (hG x hx y hy hxy d).symm)
  · intro d
    constructor
    · intro h x hx
      obtain ⟨y, hy, hxy⟩ := h12 x hx
      exact (hG x hx y hy hxy d).1 (h y hy)
    · intro h y hy
      obtain ⟨x, hx, hxy⟩ := h21 y hy
      exact (hG x hx y hy hxy d).2 (h x hx)
  · intro d
    constructor
    · rintro ⟨y, hy, h⟩
      obtain ⟨x, hx, hxy⟩ := h21 y hy
      exact ⟨x, hx, (hG x hx y hy hxy d).1 h⟩
    · rintro ⟨x, hx, h⟩
      obtain ⟨y, hy, hxy⟩ := h12 x hx
      exact ⟨y, hy, (hG x hx y hy hxy d).2 h⟩
  · intro d
    constructor
    · intro h x hx hF
      obtain ⟨y, hy, hxy⟩ := h12 x hx
      exact h y hy ((hG x hx y hy hxy d).2 hF)
    · intro h y hy hF
      obtain ⟨x, hx, hxy⟩ := h21 y hy
      exact h x hx ((hG x hx y hy hxy d).1 hF)

theorem saved_noParams {h : Sexp} {rest : List Sexp} (hp : SavedPlain (.list (h :: rest))) (hm : ∀ b, h ≠ .atom b (bs "macro")) : noParams (.list (h :: rest)) = true := by
  cases h with
  | list l => exact hp
  | atom b v =>
    simp only [SavedPlain] at hp
    rw [if_neg (fun hh => hm b (by rw [hh]))] at hp
    exact hp

/-- What a query means depends on its closed form only. -/
theorem means_close (hc : ∀ n s, c.squery n = some (some s) → SavedPlain s) {π : Place} {e1 : Env} {sx1 : Sexp} {S : Doc → Prop} (h : Means c π e1 sx1 S) :
    PlainEnv e1 → plain sx1 = true → (∃ parent, Rel parent π) → ∀ e2 sx2, PlainEnv e2 → plain sx2 = true → close e1 sx1 = close e2 sx2 → Means c π e2 sx2 S := by
  induction h with
  | everything =>
    intro _ _ _ e2 sx2 h3 h4 h5
    obtain ⟨e', g⟩ := nil_case (c := c) h3 h4 h5
    exact g _ _ .everything
  | param hp hr _ ih =>
    intro h1 h2 hR e2 sx2 h3 h4 h5
    obtain ⟨g1, g2⟩ := plainEnv_resolve h1 hr
    exact ih g2 g1 hR e2 sx2 h3 h4 (by rw [← h5, close_param _ _ hp hr])
  | star hw =>
    intro _ _ _ e2 sx2 h3 h4 h5
    have hp : param (.atom false (bs "*")) = none := by decide +kernel
    rw [close_atom _ _ _ hp] at h5
    obtain ⟨e', g, _⟩ := atom_case (c := c) h3 h4 h5 hp
    exact g _ _ (.star hw)
  | «exact» hp hs hn =>
    intro _ _ _ e2 sx2 h3 h4 h5
    rw [close_atom _ _ _ hp] at h5
    obtain ⟨e', g, _⟩ := atom_case (c := c) h3 h4 h5 hp
    exact g _ _ (.exact hp hs hn)
  | words hp hs hn =>
    intro _ _ _ e2 sx2 h3 h4 h5
    rw [close_atom _ _ _ hp] at h5
    obtain ⟨e', g, _⟩ := atom_case (c := c) h3 h4 h5 hp
    exact g _ _ (.words hp hs hn)
  | userWords hp hs =>
    intro _ _ _ e2 sx2 h3 h4 h5
    rw [close_atom _ _ _ hp] at h5
    obtain ⟨e', g, _⟩ := atom_case (c := c) h3 h4 h5 hp
    exact g _ _ (.userWords hp hs)
  | anywhere hp hs =>
    intro _ _ _ e2 sx2 h3 h4 h5
    rw [close_atom _ _ _ hp] at h5
    obtain ⟨e', g, _⟩ := atom_case (c := c) h3 h4 h5 hp
    exact g _ _ (.anywhere hp hs)
  | and hb _ ih =>
    intro h1 h2 hR e2 sx2 h3 h4 h5
    rw [close_list] at h5
    obtain ⟨e', args2, g1, g2, g3, g4⟩ := list_case (c := c) h3 h4 h5
    obtain ⟨parent, hr⟩ := hR
    obtain ⟨G, k1, k2, _, _⟩ := args_transfer hr g3 (fun x hx y hy hxy => ih x hx h1 (plain_args h2 x hx) ⟨_, hr⟩ e' y g1 (plain_args g2 y hy) hxy)
    exact g4 _ _ (means_congr (.and hb k1) k2)
  | or hb _ ih =>
    intro h1 h2 hR e2 sx2 h3 h4 h5
    rw [close_list] at h5
    obtain ⟨e', args2, g1, g2, g3, g4⟩ := list_case (c := c) h3 h4 h5
    obtain ⟨parent, hr⟩ := hR
    obtain ⟨G, k1, _, k2, _⟩ := args_transfer hr g3 (fun x hx y hy hxy => ih x hx h1 (plain_args h2 x hx) ⟨_, hr⟩ e' y g1 (plain_args g2 y hy) hxy)
    exact g4 _ _ (means_congr (.or hb k1) k2)
  | not hb _ ih =>
    intro h1 h2 hR e2 sx2 h3 h4 h5
    rw [close_list] at h5
    obtain ⟨e', args2, g1, g2, g3, g4⟩ := list_case (c := c) h3 h4 h5
    obtain ⟨parent, hr⟩ := hR
    obtain ⟨G, k1, _, _, k2⟩ := args_transfer hr g3 (fun x hx y hy hxy => ih x hx h1 (plain_args h2 x hx) ⟨_, hr⟩ e' y g1 (plain_args g2 y hy) hxy)
    exact g4 _ _ (means_congr (.not hb k1) k2)
  | andField hb hn _ ih =>
    intro h1 h2 _ e2 sx2 h3 h4 h5
    rw [close_list] at h5
    obtain ⟨e', args2, g1, g2, g3, g4⟩ := list_case (c := c) h3 h4 h5
    have hr := Rel.field (and_facts _ hn).1
    obtain ⟨G, k1, k2, _, _⟩ := args_transfer hr g3 (fun x hx y hy hxy => ih x hx h1 (plain_args h2 x hx) ⟨_, hr⟩ e' y g1 (plain_args g2 y hy) hxy)
    exact g4 _ _ (means_congr (.andField hb hn k1) k2)
  | orField hb hn _ ih =>
    intro h1 h2 _ e2 sx2 h3 h4 h5
    rw [close_list] at h5
    obtain ⟨e', args2, g1, g2, g3, g4⟩ := list_case (c := c) h3 h4 h5
    have hr := Rel.field (or_facts _ hn).1
    obtain ⟨G, k1, _, k2, _⟩ := args_transfer hr g3 (fun x hx y hy hxy => ih x hx h1 (plain_args h2 x hx) ⟨_, hr⟩ e' y g1 (plain_args g2 y hy) hxy)
    exact g4 _ _ (means_congr (.orField hb hn k1) k2)
  | userField hs hu _ ih =>
    intro h1 h2 _ e2 sx2 h3 h4 h5
    rw [close_list] at h5
    obtain ⟨e', args2, g1, g2, g3, g4⟩ := list_case (c := c) h3 h4 h5
    obtain ⟨G, k1, k2, _, _⟩ := args_transfer .user g3 (fun x hx y hy hxy => ih x hx h1 (plain_args h2 x hx) ⟨_, .user⟩ e' y g1 (plain_args g2 y hy) hxy)
    exact g4 _ _ (means_congr (.userField hs hu k1) k2)
  | anyRange hb hn =>
    intro h1 h2 _ e2 sx2 h3 h4 h5
    rw [close_list] at h5
    obtain ⟨e', args2, g1, g2, g3, g4⟩ := list_case (c := c) h3 h4 h5
    rw [List.map_nil, eq_comm, List.map_eq_nil_iff] at g3
    subst g3
    exact g4 _ _ (.anyRange hb hn)
  | date hb hu =>
    intro h1 h2 _ e2 sx2 h3 h4 h5
    have hl : bs "date" ∈ literalHeads := by decide +kernel
    rw [close_list, literal_args hl h2] at h5
    obtain ⟨e', args2, g1, g2, g3, g4⟩ := list_case (c := c) h3 h4 h5
    rw [literal_args hl g2] at g3
    subst g3
    exact g4 _ _ (.date hb hu)
  | date1 hb hu =>
    intro h1 h2 _ e2 sx2 h3 h4 h5
    have hl : bs "date" ∈ literalHeads := by decide +kernel
    rw [close_list, literal_args hl h2] at h5
    obtain ⟨e', args2, g1, g2, g3, g4⟩ := list_case (c := c) h3 h4 h5
    rw [literal_args hl g2] at g3
    subst g3
    exact g4 _ _ (.date1 hb hu)
  | lastmod hb hu =>
    intro h1 h2 _ e2 sx2 h3 h4 h5
    have hl : bs "lastmod" ∈ literalHeads := by decide +kernel
    rw [close_list, literal_args hl h2] at h5
    obtain ⟨e', args2, g1, g2, g3, g4⟩ := list_case (c := c) h3 h4 h5
    rw [literal_args hl g2] at g3
    subst g3
    exact g4 _ _ (.lastmod hb hu)
  | lastmod1 hb hu =>
    intro h1 h2 _ e2 sx2 h3 h4 h5
    have hl : bs "lastmod" ∈ literalHeads := by decide +kernel
    rw [close_list, literal_args hl h2] at h5
    obtain ⟨e', args2, g1, g2, g3, g4⟩ := list_case (c := c) h3 h4 h5
    rw [literal_args hl g2] at g3
    subst g3
    exact g4 _ _ (.lastmod1 hb hu)
  | infixed hb hu =>
    intro h1 h2 _ e2 sx2 h3 h4 h5
    have hl : bs "infix" ∈ literalHeads := by decide +kernel
    rw [close_list, literal_args hl h2] at h5
    obtain ⟨e', args2, g1, g2, g3, g4⟩ := list_case (c := c) h3 h4 h5
    rw [literal_args hl g2] at g3
    subst g3
    exact g4 _ _ (.infixed hb hu)
  | infixFailed hb hu hrep =>
    intro h1 h2 _ e2 sx2 h3 h4 h5
    have hl : bs "infix" ∈ literalHeads := by decide +kernel
    rw [close_list, literal_args hl h2] at h5
    obtain ⟨e', args2, g1, g2, g3, g4⟩ := list_case (c := c) h3 h4 h5
    rw [literal_args hl g2] at g3
    subst g3
    exact g4 _ _ (.infixFailed hb hu hrep)
  | named hb hu =>
    intro h1 h2 _ e2 sx2 h3 h4 h5
    have hl : bs "query" ∈ literalHeads := by decide +kernel
    rw [close_list, literal_args hl h2] at h5
    obtain ⟨e', args2, g1, g2, g3, g4⟩ := list_case (c := c) h3 h4 h5
    rw [literal_args hl g2] at g3
    subst g3
    exact g4 _ _ (.named hb hu)
  | startsWith hb ht hw =>
    intro h1 h2 _ e2 sx2 h3 h4 h5
    rw [close_list] at h5
    obtain ⟨e', args2, g1, g2, g3, g4⟩ := list_case (c := c) h3 h4 h5
    obtain ⟨q2, a2, rfl, ht2⟩ := one_text ht g1 g2 g3
    exact g4 _ _ (.startsWith hb ht2 hw)
  | regexHeader hb hm ht hf hs =>
    intro h1 h2 _ e2 sx2 h3 h4 h5
    rw [close_list] at h5
    obtain ⟨e', args2, g1, g2, g3, g4⟩ := list_case (c := c) h3 h4 h5
    obtain ⟨q2, a2, rfl, ht2⟩ := one_text ht g1 g2 g3
    exact g4 _ _ (.regexHeader hb hm ht2 hf hs)
  | regexTerm hb hm ht hf hs n1 n2 n3 =>
    intro h1 h2 _ e2 sx2 h3 h4 h5
    rw [close_list] at h5
    obtain ⟨e', args2, g1, g2, g3, g4⟩ := list_case (c := c) h3 h4 h5
    obtain ⟨q2, a2, rfl, ht2⟩ := one_text ht g1 g2 g3
    exact g4 _ _ (.regexTerm hb hm ht2 hf hs n1 n2 n3)
  | @matching e q m n args F hb hm hn ha _ =>
    intro h1 h2 _ e2 sx2 h3 h4 h5
    have hl : m ∈ literalHeads := by rcases hm with hm | hm <;> (rw [hm]; decide +kernel)
    rw [close_list, literal_args hl h2] at h5
    obtain ⟨e', args2, g1, g2, g3, g4⟩ := list_case (c := c) h3 h4 h5
    rw [literal_args hl g2] at g3
    subst g3
    exact g4 _ _ (.matching hb hm hn ha)
  | saved hs hm _ ih =>
    intro h1 h2 hR e2 sx2 h3 h4 h5
    rw [close_list] at h5
    obtain ⟨e', args2, g1, g2, g3, g4⟩ := list_case (c := c) h3 h4 h5
    have hn := saved_noParams (hc _ _ hs) hm
    have hpl := noParams_plain _ hn
    refine g4 _ _ (.saved hs hm (ih h1 hpl hR e' _ g1 hpl ?_))
    rw [close, close, subst_noParams _ _ hn, subst_noParams _ _ hn]
  | @«macro» π e b b' n names body junk args S hs hl _ ih =>
    intro h1 h2 hR e2 sx2 h3 h4 h5
    rw [close_list] at h5
    obtain ⟨e', args2, g1, g2, g3, g4⟩ := list_case (c := c) h3 h4 h5
    have hpl : plain body = true := by
      have := hc _ _ hs
      simp only [SavedPlain] at this
      rw [if_pos True.intro] at this
      exact this _ _ _ rfl
    have hlen : names.length = args2.length := by
      have := congrArg List.length g3
      simp only [List.length_map] at this
      omega
    refine g4 _ _ (.macro hs hlen (ih (bindAll_plain _ h1 _ _ (plain_args h2)) hpl hR _ _ (bindAll_plain _ g1 _ _ (plain_args g2)) hpl ?_))
    apply close_env
    intro m
    rw [bindAll_close, bindAll_close, ← argOf_map, ← argOf_map, g3]
where
  one_text {e e' : Env} {h : Sexp} {q1 : Bool} {a s : Str} {args2 : List Sexp} (ht : Text e (.atom q1 a) s) (g1 : PlainEnv e') (g2 : plain (.list (h :: args2)) = true)
      (g3 : [Sexp.atom q1 a].map (close e) = args2.map (close e')) : ∃ q2 a2, args2 = [.atom q2 a2] ∧ Text e' (.atom q2 a2) s := by
    obtain ⟨q, k1, k2⟩ := text_close ht
    cases args2 with
    | nil => cases g3
    | cons y l =>
      cases l with
      | cons z l => simp at g3
      | nil =>
        simp only [List.map_cons, List.map_nil, List.cons.injEq, and_true, k1] at g3
        obtain ⟨_, _, k3⟩ := atom_case (c := c) g1 (plain_args g2 y List.mem_cons_self) g3 k2
        cases y with
        | atom q2 a2 => exact ⟨q2, a2, rfl, k3 _ (.atom k2)⟩
        | list l =>
          cases l with
          | nil => rw [close_nil_list] at g3; cases g3
          | cons x l => rw [close_list] at g3; cases g3

theorem plain_subst (g : Str → Option Sexp) (hg : ∀ n x, g n = some x → plain x = true) : ∀ s, plain s = true → plain (subst g s) = true := by
  apply sexp_ind
  · intro q v h
    rw [subst]
    cases hk : (param (.atom q v)).bind g with
    | none => rfl
    | some x =>
      obtain ⟨n, _, hn⟩ := Option.bind_eq_some_iff.1 hk
      exact hg n x hn
  · intro l ih h
    cases l with
    | nil => rfl
    | cons x l =>
      rw [plain] at h
      rw [subst, plain, substAll_eq]
      split
      · rename_i hh
        rw [if_pos hh, noParamsAll_iff] at h
        rw [noParamsAll_iff]
        intro y hy
        obtain ⟨z, hz, rfl⟩ := List.mem_map.1 hy
        rw [subst_noParams g z (h z hz)]
        exact h z hz
      · rename_i hh
        rw [if_neg hh, plainAll_iff] at h
        rw [plainAll_iff]
        intro y hy
        obtain ⟨z, hz, rfl⟩ := List.mem_map.1 hy
        exact ih z (List.mem_cons_of_mem _ hz) (h z hz)

/-- A macro call means what its body means, with the arguments in place of the parameters. -/
theorem macro_subst (hc : ∀ n s, c.squery n = some (some s) → SavedPlain s) {π : Place} (hR : ∃ parent, Rel parent π) {q b : Bool} {n : Str} {names : List Str} {body : Sexp}
    {junk args : List Sexp} (hs : c.squery n = some (some (.list (.atom b (bs "macro") :: .list (names.map (.atom false)) :: body :: junk)))) (hl : names.length = args.length)
    (hp : ∀ x ∈ args, plain x = true) (S : Doc → Prop) :
    Means c π .nil (.list (.atom q n :: args)) S ↔ Means c π .nil (subst (argOf names args) body) S := by
  have hpl : plain body = true := by
    have := hc _ _ hs
    simp only [SavedPlain] at this
    rw [if_pos True.intro] at this
    exact this _ _ _ rfl
  have hsub : plain (subst (argOf names args) body) = true := by
    refine plain_subst _ (fun m x hx => hp x ?_) body hpl
    unfold argOf at hx
    cases hg : ((names.zip args).filter (fun p => p.1 = m)).getLast? with
    | none => rw [hg] at hx; cases hx
    | some y =>
      rw [hg] at hx
      cases hx
      exact (List.of_mem_zip (List.mem_filter.1 (List.mem_of_getLast? hg)).1).2
  have hbp := bindAll_plain .nil trivial names args hp
  have hcl : close (bindAll .nil names args) body = close .nil (subst (argOf names args) body) := by
    rw [close_nil, close]
    congr 1
    funext m
    rw [bindAll_close]
    cases argOf names args m with
    | none => rfl
    | some x => simp [close_nil]
  constructor
  · intro h
    have h' : Means c π (bindAll .nil names args) body S := by
      cases h with
      | param hp => cases hp
      | and hb => exact absurd hb.1 (by rw [hs]; simp)
      | or hb => exact absurd hb.1 (by rw [hs]; simp)
      | not hb => exact absurd hb.1 (by rw [hs]; simp)
      | andField hb => exact absurd hb.1 (by rw [hs]; simp)
      | orField hb => exact absurd hb.1 (by rw [hs]; simp)
      | userField hb => exact absurd hb (by rw [hs]; simp)
      | anyRange hb => exact absurd hb.1 (by rw [hs]; simp)
      | date hb => exact absurd hb.1 (by rw [hs]; simp)
      | date1 hb => exact absurd hb.1 (by rw [hs]; simp)
      | lastmod hb => exact absurd hb.1 (by rw [hs]; simp)
      | lastmod1 hb => exact absurd hb.1 (by rw [hs]; simp)
      | infixed hb => exact absurd hb.1 (by rw [hs]; simp)
      | infixFailed hb => exact absurd hb.1 (by rw [hs]; simp)
      | named hb => exact absurd hb.1 (by rw [hs]; simp)
      | startsWith hb => exact absurd hb.1 (by rw [hs]; simp)
      | regexHeader hb => exact absurd hb.1 (by rw [hs]; simp)
      | regexTerm hb => exact absurd hb.1 (by rw [hs]; simp)
      | matching hb => exact absurd hb.1 (by rw [hs]; simp)
      | saved hs' hm =>
        rw [hs] at hs'
        cases hs'
        exact absurd rfl (hm b)
      | «macro» hs' hl' hb =>
        rw [hs] at hs'
        simp only [Option.some.injEq, Sexp.list.injEq, List.cons.injEq] at hs'
        obtain ⟨_, h1, h2, _⟩ := hs'
        have hinj : Function.Injective (Sexp.atom false) := fun x y h => by cases h; rfl
        rw [(List.map_inj_right (fun x y h => hinj h)).1 h1, h2]
        exact hb
    exact means_close hc h' hbp hpl hR _ _ trivial hsub hcl
  · intro h
    exact .macro hs hl (means_close hc h trivial hsub hR _ _ hbp hpl hcl.symm)

end Notmuch.Sexp
