import Verif.Proofs.Mua3

namespace Notmuch.Mua

theorem toks_head (x : Sexp) : ∃ t ts, x.toks = t :: ts ∧ t ≠ .rpar := by
  cases x with
  | sym s => exact ⟨_, _, by rw [Sexp.toks], by simp⟩
  | str s => exact ⟨_, _, by rw [Sexp.toks], by simp⟩
  | quote x => exact ⟨_, _, by rw [Sexp.toks], by simp⟩
  | function x => exact ⟨_, _, by rw [Sexp.toks], by simp⟩
  | list l => exact ⟨.lpar, toksL l ++ [.rpar], by rw [toks_list]; rfl, by simp⟩

mutual
theorem toks_inj : ∀ (x y : Sexp) (r s : List Tok), x.toks ++ r = y.toks ++ s → x = y ∧ r = s
  | .sym a, y, r, s, h => by
    rw [Sexp.toks] at h
    cases y <;> simp only [Sexp.toks, List.cons_append, List.nil_append, List.cons.injEq, reduceCtorEq, false_and] at h
    exact ⟨by rw [Tok.sym.inj h.1], h.2⟩
  | .str a, y, r, s, h => by
    rw [Sexp.toks] at h
    cases y <;> simp only [Sexp.toks, List.cons_append, List.nil_append, List.cons.injEq, reduceCtorEq, false_and] at h
    exact ⟨by rw [Tok.str.inj h.1], h.2⟩
  | .quote x, y, r, s, h => by
    rw [Sexp.toks] at h
    cases y <;> simp only [Sexp.toks, List.cons_append, List.nil_append, List.cons.injEq, reduceCtorEq, false_and] at h
    have := toks_inj x _ r s h.2
    exact ⟨by rw [this.1], this.2⟩
  | .function x, y, r, s, h => by
    rw [Sexp.toks] at h
    cases y <;> simp only [Sexp.toks, List.cons_append, List.nil_append, List.cons.injEq, reduceCtorEq, false_and] at h
    have := toks_inj x _ r s h.2
    exact ⟨by rw [this.1], this.2⟩
  | .list l, y, r, s, h => by
    rw [toks_list] at h
    cases y <;> simp only [toks_list, Sexp.toks, List.cons_append, List.nil_append, List.cons.injEq, reduceCtorEq, false_and] at h
    have := toksL_inj l _ r s (by simpa using h.2)
    exact ⟨by rw [this.1], this.2⟩
theorem toksL_inj : ∀ (l m : List Sexp) (r s : List Tok), toksL l ++ .rpar :: r = toksL m ++ .rpar :: s → l = m ∧ r = s
  | [], [], r, s, h => by
    rw [toksL_nil] at h
    injection h with _ h
    exact ⟨rfl, h⟩
  | [], y :: m, r, s, h => by
    obtain ⟨t, ts, h1, h2⟩ := toks_head y
    rw [toksL_nil, toksL_cons, h1] at h
    injection h with h _
    exact absurd h.symm h2
  | x :: l, [], r, s, h => by
    obtain ⟨t, ts, h1, h2⟩ := toks_head x
    rw [toksL_nil, toksL_cons, h1] at h
    injection h with h _
    exact absurd h h2
  | x :: l, y :: m, r, s, h => by
    rw [toksL_cons, toksL_cons, List.append_assoc, List.append_assoc] at h
    have h1 := toks_inj x y _ _ h
    have h2 := toksL_inj l m r s h1.2
    exact ⟨by rw [h1.1, h2.1], h2.2⟩
end

theorem reads_unique {t : Str} {x y : Sexp} (hx : ReadsAs t x) (hy : ReadsAs t y) : x = y := by
  unfold ReadsAs at hx hy
  rw [hx] at hy
  have := Option.some.inj hy
  exact (toks_inj x y [] [] (by rw [this])).1

theorem typed_forms (k : Header) (o : Opt) (b : List Opt) (cur : Option Str) (xs : List Sexp) : ∃ cur', typed k.form cur (o.forms b ++ xs) =
    (match k.value o with | some s => (if b.any (fun o => (k.value o).isSome) then bs ", " else []) ++ s | none => []) ++ typed k.form cur' xs := by
  have hk : b.any (fun o => (Header.value .to o).isSome) = b.any isTo ∧ b.any (fun o => (Header.value .cc o).isSome) = b.any isCc ∧ b.any (fun o => (Header.value .bcc o).isSome) = b.any isBcc := by
    refine ⟨?_, ?_, ?_⟩ <;> congr 1 <;> funext o <;> cases o <;> rfl
  have go : ∀ (f g : String) (s : Str), typed k.form cur ([call0 f, call1 g s] ++ xs) =
      (if bs g = bs "insert" ∧ some (bs f) = some k.form then s else []) ++ typed k.form (some (bs f)) xs := by intro f g s; rfl
  cases o with
  | subject s =>
    refine ⟨some (bs "message-goto-subject"), (go "message-goto-subject" "insert" s).trans ?_⟩
    rw [if_neg (by cases k <;> decide)]
    cases k <;> rfl
  | body s =>
    refine ⟨some (bs "message-goto-body"), (go "message-goto-body" "insert-file" s).trans ?_⟩
    rw [if_neg (by cases k <;> decide)]
    cases k <;> rfl
  | to s =>
    rw [forms_to]
    refine ⟨some (bs "message-goto-to"), (go "message-goto-to" "insert" _).trans ?_⟩
    cases k
    · rw [if_pos (by decide), hk.1]; rfl
    · rw [if_neg (by decide)]; rfl
    · rw [if_neg (by decide)]; rfl
  | cc s =>
    rw [forms_cc]
    refine ⟨some (bs "message-goto-cc"), (go "message-goto-cc" "insert" _).trans ?_⟩
    cases k
    · rw [if_neg (by decide)]; rfl
    · rw [if_pos (by decide), hk.2.1]; rfl
    · rw [if_neg (by decide)]; rfl
  | bcc s =>
    rw [forms_bcc]
    refine ⟨some (bs "message-goto-bcc"), (go "message-goto-bcc" "insert" _).trans ?_⟩
    cases k
    · rw [if_neg (by decide)]; rfl
    · rw [if_neg (by decide)]; rfl
    · rw [if_pos (by decide), hk.2.2]; rfl
  | print => exact ⟨cur, by cases k <;> rfl⟩
  | noWindow => exact ⟨cur, by cases k <;> rfl⟩
  | client => exact ⟨cur, by cases k <;> rfl⟩
  | autoDaemon => exact ⟨cur, by cases k <;> rfl⟩
  | createFrame => exact ⟨cur, by cases k <;> rfl⟩
  | hello => exact ⟨cur, by cases k <;> rfl⟩

theorem typed_options (k : Header) : ∀ (os b : List Opt) (cur : Option Str), typed k.form cur (formsFrom b os) =
    if b.any (fun o => (k.value o).isSome) then (os.filterMap k.value).flatMap (fun s => bs ", " ++ s) else ((os.filterMap k.value).intersperse (bs ", ")).flatten := by
  have inter : ∀ (s : Str) (l : List Str), ((s :: l).intersperse (bs ", ")).flatten = s ++ l.flatMap (fun s => bs ", " ++ s) := by
    intro s l
    induction l generalizing s with
    | nil => simp
    | cons a l ih =>
      rw [List.intersperse_cons_cons, List.flatten_cons, List.flatten_cons, ih, List.flatMap_cons]
      simp
  intro os
  induction os with
  | nil => intro b cur; cases b.any (fun o => (k.value o).isSome) <;> rfl
  | cons o os ih =>
    intro b cur
    obtain ⟨cur', h⟩ := typed_forms k o b cur (formsFrom (b ++ [o]) os)
    show typed k.form cur (o.forms b ++ formsFrom (b ++ [o]) os) = _
    rw [h, ih, List.any_append]
    cases hv : k.value o with
    | none =>
      rw [List.filterMap_cons_none hv]
      simp [hv]
    | some s =>
      rw [List.filterMap_cons_some hv]
      have : ([o].any fun o => (k.value o).isSome) = true := by simp [hv]
      rw [this, Bool.or_true, if_pos rfl]
      cases b.any (fun o => (k.value o).isSome) with
      | true => simp
      | false => rw [if_neg (by simp), if_neg (by simp), inter]; simp

theorem typed_addresses : ∀ (as : List Str) (cur : Option Str), typed (bs "message-goto-to") cur (addressForms as) = as.flatMap (fun a => a ++ bs ", ") := by
  intro as
  induction as with
  | nil => intro cur; rfl
  | cons a as ih =>
    intro cur
    show (if bs "insert" = bs "insert" ∧ some (bs "message-goto-to") = some (bs "message-goto-to") then a ++ bs ", " else []) ++ typed (bs "message-goto-to") (some (bs "message-goto-to")) (addressForms as) = _
    rw [if_pos ⟨rfl, rfl⟩, ih, List.flatMap_cons]

end Notmuch.Mua
