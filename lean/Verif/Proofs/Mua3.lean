import Verif.Proofs.Mua2

namespace Notmuch.Mua

theorem starts_cons (x c : UInt8) (p s : Str) : starts (x :: p) (c :: s) = (c == x && starts p s) := by
  unfold starts
  rw [List.length_cons, List.take_succ_cons]
  rfl

theorem starts_escape : ∀ (p s : Str), 34 ∉ p → 92 ∉ p → starts p (escape s) = starts p s := by
  intro p
  induction p with
  | nil => intro s _ _; unfold starts; rfl
  | cons x p ih =>
    intro s h1 h2
    cases s with
    | nil => rfl
    | cons c s =>
      have hx1 : x ≠ 34 := fun h => h1 (h ▸ List.mem_cons_self)
      have hx2 : x ≠ 92 := fun h => h2 (h ▸ List.mem_cons_self)
      rw [escape_cons]
      by_cases hc : c = 92
      · subst hc
        rw [if_pos rfl]
        show starts (x :: p) (92 :: ([92] ++ escape s)) = _
        rw [starts_cons, starts_cons]
        have : ((92 : UInt8) == x) = false := by simpa using hx2.symm
        rw [this]; rfl
      · rw [if_neg hc]
        by_cases hc2 : c = 34
        · subst hc2
          rw [if_pos rfl]
          show starts (x :: p) (92 :: ([34] ++ escape s)) = _
          rw [starts_cons, starts_cons]
          have h3 : ((92 : UInt8) == x) = false := by simpa using hx2.symm
          have h4 : ((34 : UInt8) == x) = false := by simpa using hx1.symm
          rw [h3, h4]; rfl
        · rw [if_neg hc2]
          show starts (x :: p) (c :: escape s) = _
          rw [starts_cons, starts_cons, ih s (fun h => h1 (List.mem_cons_of_mem _ h)) (fun h => h2 (List.mem_cons_of_mem _ h))]

theorem starts_mailto (s : Str) : starts (bs "mailto:") (escape s) = starts (bs "mailto:") s := starts_escape _ _ (by decide) (by decide)

theorem mailto_ne {s : Str} (h : starts (bs "mailto:") s = true) : (escape s).isEmpty = false := by
  cases s with
  | nil => exact absurd h (by decide)
  | cons c s =>
    rw [escape_cons]
    by_cases h1 : c = 92
    · rw [if_pos h1]; rfl
    · rw [if_neg h1]
      by_cases h2 : c = 34
      · rw [if_pos h2]; rfl
      · rw [if_neg h2]; rfl

/-- The code for addresses. -/
def addressText (as : List Str) : Str := as.flatMap (fun a => bs " (message-goto-to) (insert \"" ++ escape a ++ bs ", \")")

theorem others_eq : ∀ (ps : List Str) (st : St), others st ps =
    (match urls ps with
    | [] => .ok { st with elisp := st.elisp ++ addressText (addresses ps) }
    | [u] => if st.mailto.isEmpty then .ok { st with elisp := st.elisp ++ addressText (addresses ps), mailto := escape u } else .fail
    | _ => .fail) := by
  intro ps
  induction ps with
  | nil => intro st; show Res.ok st = .ok { st with elisp := st.elisp ++ [] }; rw [List.append_nil]
  | cons p ps ih =>
    intro st
    unfold others
    dsimp only
    rw [starts_mailto]
    by_cases h : starts (bs "mailto:") p = true
    · have hu : urls (p :: ps) = p :: urls ps := by unfold urls; rw [List.filter_cons_of_pos h]
      have ha : addresses (p :: ps) = addresses ps := by unfold addresses; rw [List.filter_cons_of_neg (by rw [h]; simp)]
      rw [if_pos h, hu, ha]
      cases hm : st.mailto.isEmpty with
      | false =>
        rw [if_pos (by rfl)]
        cases urls ps with
        | nil => rfl
        | cons u us => rfl
      | true =>
        rw [if_neg (by simp), ih]
        cases hus : urls ps with
        | nil => rfl
        | cons u us =>
          cases us with
          | nil =>
            dsimp only
            rw [mailto_ne h]
            rfl
          | cons u2 us => rfl
    · have hu : urls (p :: ps) = urls ps := by unfold urls; rw [List.filter_cons_of_neg h]
      have ha : addresses (p :: ps) = p :: addresses ps := by unfold addresses; rw [List.filter_cons_of_pos (by simpa using h)]
      rw [if_neg h, hu, ha, ih]
      have ht : addressText (p :: addresses ps) = bs " (message-goto-to) (insert \"" ++ escape p ++ bs ", \")" ++ addressText (addresses ps) := by
        unfold addressText; rw [List.flatMap_cons]
      rw [ht]
      dsimp only
      simp only [List.append_assoc]

theorem lex_addresses : ∀ as : List Str, lexFrom .normal (addressText as) = some (toksL (addressForms as), .normal) := by
  intro as
  induction as with
  | nil => rfl
  | cons a as ih =>
    have h1 : lexFrom .normal (bs " (message-goto-to) (insert \"" ++ ([] ++ escape a) ++ bs ", \")") = _ :=
      lex_call (pre := bs " (message-goto-to) (insert \"") (ts := [.lpar, .sym (bs "message-goto-to"), .rpar, .lpar, .sym (bs "insert")]) (by decide +kernel) [] a (bs ", ") rfl [.rpar] (bs ", \")") (by
        intro acc
        show lexFrom (.str acc) (44 :: 32 :: [34, 41]) = some (.str (acc ++ [44, 32]) :: [.rpar], .normal)
        simp [lexFrom, lexStep, lexNormal])
    have h2 := lex_then h1 ih
    have ht : addressText (a :: as) = bs " (message-goto-to) (insert \"" ++ ([] ++ escape a) ++ bs ", \")" ++ addressText as := by
      unfold addressText; rw [List.flatMap_cons]; rfl
    have hf : addressForms (a :: as) = [call0 "message-goto-to", call1 "insert" (a ++ bs ", ")] ++ addressForms as := by
      unfold addressForms; rw [List.flatMap_cons]
    rw [ht, h2, hf, toksL_append, toksL_two, toks_call0, toks_call1]
    rfl

theorem addressText_empty (as : List Str) : (addressText as).isEmpty = (addressForms as).isEmpty := by
  cases as with
  | nil => rfl
  | cons a as =>
    show ((bs " (message-goto-to) (insert \"" ++ escape a ++ bs ", \")") ++ addressText as).isEmpty = false
    rw [List.append_assoc, List.append_assoc]
    rfl

theorem toks_list (l : List Sexp) : (Sexp.list l).toks = .lpar :: toksL l ++ [.rpar] := by
  rw [Sexp.toks]; rfl

theorem toksL_cons (x : Sexp) (l : List Sexp) : toksL (x :: l) = x.toks ++ toksL l := by
  unfold toksL; rw [List.map_cons, List.flatten_cons]

theorem toksL_nil : toksL [] = [] := rfl

/-- The text of the program is read as the program. -/
theorem program_reads (st : St) (os : List Opt) (pwd : Str) (b : Str) (bf : List Sexp) (hb : lexFrom .normal b = some (toksL bf, .normal))
    (hk : (!st.client || st.createFrame || st.noWindow) = ownFrame os) :
    ReadsAs (bs "(prog1 'done (require 'notmuch) (cd \"" ++ escape pwd ++ bs "\") " ++
        (if !st.client || st.createFrame || st.noWindow then b ++ bs " (message-add-action #'save-buffers-kill-terminal 'exit)" else b) ++ bs ")")
      (.list ([.sym (bs "prog1"), .quote (.sym (bs "done")), .list [.sym (bs "require"), .quote (.sym (bs "notmuch"))], call1 "cd" pwd] ++ bf ++
        (if ownFrame os then [.list [.sym (bs "message-add-action"), .function (.sym (bs "save-buffers-kill-terminal")), .quote (.sym (bs "exit"))]] else []))) := by
  rw [hk]
  let K : List Sexp := if ownFrame os then [.list [.sym (bs "message-add-action"), .function (.sym (bs "save-buffers-kill-terminal")), .quote (.sym (bs "exit"))]] else []
  have h1 : lexFrom .normal (bs "(prog1 'done (require 'notmuch) (cd \"") =
      some ([.lpar, .sym (bs "prog1"), .quote, .sym (bs "done"), .lpar, .sym (bs "require"), .quote, .sym (bs "notmuch"), .rpar, .lpar, .sym (bs "cd")], .str []) := by decide +kernel
  have h2 := lex_then h1 (lex_escape pwd [])
  have h3 := lex_then h2 (show lexFrom (.str ([] ++ pwd)) (bs "\") ") = some ([.str ([] ++ pwd), .rpar], .normal) from rfl)
  have h4 : lexFrom .normal (if ownFrame os then b ++ bs " (message-add-action #'save-buffers-kill-terminal 'exit)" else b) = some (toksL (bf ++ K), .normal) := by
    cases ho : ownFrame os with
    | false => simp only [K, ho, Bool.false_eq_true, if_false, List.append_nil]; exact hb
    | true =>
      have hx : lexFrom .normal (bs " (message-add-action #'save-buffers-kill-terminal 'exit)") =
          some ([.lpar, .sym (bs "message-add-action"), .function, .sym (bs "save-buffers-kill-terminal"), .quote, .sym (bs "exit"), .rpar], .normal) := by decide +kernel
      rw [if_pos rfl, lex_then hb hx, toksL_append]
      simp only [K, ho, if_true]
      rw [toksL_cons, toksL_nil, toks_list]
      simp only [toksL_cons, toksL_nil, Sexp.toks]
      rfl
  have h5 := lex_then h3 h4
  have h6 := lex_then h5 (show lexFrom .normal (bs ")") = some ([.rpar], .normal) from rfl)
  unfold ReadsAs lex
  rw [h6]
  dsimp only
  congr 1
  show _ = Sexp.toks (.list ([.sym (bs "prog1"), .quote (.sym (bs "done")), .list [.sym (bs "require"), .quote (.sym (bs "notmuch"))], call1 "cd" pwd] ++ bf ++ K))
  rw [toks_list]
  clear_value K
  simp [toksL_cons, toksL_append, toksL_nil, toks_call1, toks_list, Sexp.toks]

/-- The state after the loop, and what it makes of the words. -/
theorem program_of {st : St} {os : List Opt} (I : Inv st os) (ps : List Str) (pwd : Str) :
    (meant os ps pwd = none → (∃ st', others st ps = .ok st' ∧ program st' pwd = none) ∨ others st ps = .fail) ∧
    ∀ x, meant os ps pwd = some x → ∃ st' text, others st ps = .ok st' ∧ program st' pwd = some text ∧ ReadsAs text x ∧
      st'.printOnly = st.printOnly ∧ st'.noWindow = st.noWindow ∧ st'.client = st.client ∧ st'.createFrame = st.createFrame ∧ st'.autoDaemon = st.autoDaemon := by
  have hemp : (st.elisp ++ addressText (addresses ps)).isEmpty = (formsFrom [] os ++ addressForms (addresses ps)).isEmpty := by
    have h1 := I.empty
    have h2 := addressText_empty (addresses ps)
    revert h1 h2
    cases st.elisp <;> cases formsFrom [] os <;> cases addressText (addresses ps) <;> cases addressForms (addresses ps) <;> simp
  have hlex : lexFrom .normal (st.elisp ++ addressText (addresses ps)) = some (toksL (formsFrom [] os ++ addressForms (addresses ps)), .normal) := by
    rw [toksL_append]; exact lex_then I.elisp (lex_addresses _)
  have hk : (!st.client || st.createFrame || st.noWindow) = ownFrame os := by
    rw [I.client, I.createFrame, I.noWindow]
    unfold ownFrame
    cases os.contains .client <;> cases os.contains .createFrame <;> cases os.contains .autoDaemon <;> cases os.contains .noWindow <;> rfl
  rw [others_eq]
  unfold meant body
  dsimp only
  cases hu : urls ps with
  | nil =>
    refine ⟨(by intro h; cases h), ?_⟩
    intro x hx
    cases hx
    have hm : st.mailto.isEmpty = true := by rw [I.mailto]; rfl
    dsimp only
    refine ⟨_, (bs "(prog1 'done (require 'notmuch) (cd \"" ++ escape pwd ++ bs "\") " ++
        (if !st.client || st.createFrame || st.noWindow then
          (if (st.elisp ++ addressText (addresses ps)).isEmpty && st.hello then bs "(notmuch)" else bs "(notmuch-mua-new-mail) " ++ (st.elisp ++ addressText (addresses ps))) ++
            bs " (message-add-action #'save-buffers-kill-terminal 'exit)"
        else (if (st.elisp ++ addressText (addresses ps)).isEmpty && st.hello then bs "(notmuch)" else bs "(notmuch-mua-new-mail) " ++ (st.elisp ++ addressText (addresses ps)))) ++ bs ")"), rfl, ?_, ?_, rfl, rfl, rfl, rfl, rfl⟩
    · unfold program
      dsimp only
      rw [hm]
      cases (st.elisp ++ addressText (addresses ps)).isEmpty && st.hello <;> rfl
    · apply program_reads st os pwd _ _ _ hk
      rw [hemp, I.hello]
      cases (formsFrom [] os ++ addressForms (addresses ps)).isEmpty && os.contains .hello with
      | true =>
        rw [if_pos rfl, if_pos rfl, toksL_cons, toks_call0]
        decide +kernel
      | false =>
        rw [if_neg (by simp), if_neg (by simp), toksL_cons, toks_call0]
        exact lex_then (show lexFrom .normal (bs "(notmuch-mua-new-mail) ") = some ([.lpar, .sym (bs "notmuch-mua-new-mail"), .rpar], .normal) by decide +kernel) hlex
  | cons u us =>
    cases us with
    | cons u2 us => exact ⟨fun _ => .inr rfl, by intro x h; cases h⟩
    | nil =>
      have hm : st.mailto.isEmpty = true := by rw [I.mailto]; rfl
      have hmu : (escape u).isEmpty = false := by
        apply mailto_ne
        have : u ∈ urls ps := by rw [hu]; simp
        exact (List.mem_filter.1 this).2
      dsimp only
      rw [if_pos hm, ← hemp]
      cases he : (st.elisp ++ addressText (addresses ps)).isEmpty with
      | false =>
        refine ⟨fun _ => .inl ⟨_, rfl, ?_⟩, by intro x h; cases h⟩
        unfold program
        dsimp only
        rw [hmu, he]
        rfl
      | true =>
        refine ⟨(by intro h; cases h), ?_⟩
        intro x hx
        cases hx
        refine ⟨_, bs "(prog1 'done (require 'notmuch) (cd \"" ++ escape pwd ++ bs "\") " ++
          (if !st.client || st.createFrame || st.noWindow then (bs "(browse-url-mail \"" ++ escape u ++ bs "\")") ++ bs " (message-add-action #'save-buffers-kill-terminal 'exit)"
          else (bs "(browse-url-mail \"" ++ escape u ++ bs "\")")) ++ bs ")", rfl, ?_, ?_, rfl, rfl, rfl, rfl, rfl⟩
        · unfold program
          dsimp only
          rw [hmu, he]
          rfl
        · apply program_reads st os pwd _ _ _ hk
          have := lex_piece (pre := "(browse-url-mail \"") (ts := [.lpar, .sym (bs "browse-url-mail")]) (by decide +kernel) u
          rw [this, toksL_cons, toks_call1]
          rfl

end Notmuch.Mua
