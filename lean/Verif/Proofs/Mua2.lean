import Verif.Proofs.Mua

namespace Notmuch.Mua

theorem getopt_short (p : String × (Str → Opt)) (hp : p ∈ [("-s", Opt.subject), ("-c", .cc), ("-b", .bcc), ("-i", .body)]) (v : Str) (hv : v ≠ []) (ws : List Str) :
    ∃ name, getopt ((bs p.1 ++ v) :: ws) = .opt name v ws ∧ Names name v (p.2 v) := by
  have hne : v.isEmpty = false := by cases v with | nil => exact absurd rfl hv | cons _ _ => rfl
  simp only [List.mem_cons, List.not_mem_nil, or_false] at hp
  rcases hp with rfl | rfl | rfl | rfl
  · refine ⟨bs "s", ?_, .inr rfl, rfl⟩
    show getopt ((45 :: 115 :: v) :: ws) = _
    simp [getopt, hne]; decide
  · refine ⟨bs "c", ?_, .inr rfl, rfl⟩
    show getopt ((45 :: 99 :: v) :: ws) = _
    simp [getopt, hne]; decide
  · refine ⟨bs "b", ?_, .inr rfl, rfl⟩
    show getopt ((45 :: 98 :: v) :: ws) = _
    simp [getopt, hne]; decide
  · refine ⟨bs "i", ?_, .inr rfl, rfl⟩
    show getopt ((45 :: 105 :: v) :: ws) = _
    simp [getopt, hne]; decide

theorem getopt_next (p : String × (Str → Opt)) (hp : p ∈ [("-s", Opt.subject), ("-c", .cc), ("-b", .bcc), ("-i", .body)]) (v : Str) (ws : List Str) :
    ∃ name, getopt (bs p.1 :: v :: ws) = .opt name v ws ∧ Names name v (p.2 v) := by
  simp only [List.mem_cons, List.not_mem_nil, or_false] at hp
  rcases hp with rfl | rfl | rfl | rfl
  · exact ⟨bs "s", rfl, .inr rfl, rfl⟩
  · exact ⟨bs "c", rfl, .inr rfl, rfl⟩
  · exact ⟨bs "b", rfl, .inr rfl, rfl⟩
  · exact ⟨bs "i", rfl, .inr rfl, rfl⟩

theorem getopt_long (p : String × (Str → Opt)) (hp : p ∈ [("--subject=", Opt.subject), ("--to=", .to), ("--cc=", .cc), ("--bcc=", .bcc), ("--body=", .body)]) (v : Str) (ws : List Str) :
    ∃ name, getopt ((bs p.1 ++ v) :: ws) = .opt name v ws ∧ Names name v (p.2 v) := by
  simp only [List.mem_cons, List.not_mem_nil, or_false] at hp
  rcases hp with rfl | rfl | rfl | rfl | rfl
  · exact ⟨bs "--subject", rfl, .inl rfl, rfl⟩
  · exact ⟨bs "--to", rfl, rfl, rfl⟩
  · exact ⟨bs "--cc", rfl, .inl rfl, rfl⟩
  · exact ⟨bs "--bcc", rfl, .inl rfl, rfl⟩
  · exact ⟨bs "--body", rfl, .inl rfl, rfl⟩

theorem getopt_flag (p : String × Opt) (hp : p ∈ [("--print", Opt.print), ("--no-window-system", .noWindow), ("--client", .client), ("--auto-daemon", .autoDaemon), ("--create-frame", .createFrame),
      ("--hello", .hello)]) (ws : List Str) : ∃ name arg, getopt (bs p.1 :: ws) = .opt name arg ws ∧ Names name arg p.2 := by
  simp only [List.mem_cons, List.not_mem_nil, or_false] at hp
  rcases hp with rfl | rfl | rfl | rfl | rfl | rfl <;> exact ⟨_, _, rfl, rfl⟩

theorem getopt_done (ws : List Str) (h : ws = [] ∨ ∃ w rest, ws = w :: rest ∧ (w = bs "--" ∨ w = bs "-" ∨ w.head? ≠ some 45)) : getopt ws = .stop := by
  rcases h with rfl | ⟨w, rest, rfl, h⟩
  · rfl
  · rcases h with rfl | rfl | h
    · rfl
    · rfl
    · cases w with
      | nil => rfl
      | cons c w =>
        have hc : c ≠ 45 := fun h' => h (by rw [h']; rfl)
        unfold getopt
        dsimp only
        split
        · rename_i h'; injection h' with h' _; exact absurd h' hc
        · rfl

/-- The options are read as they are meant. -/
theorem options_of {ws : List Str} {os : List Opt} {ps : List Str} (h : Args ws os ps) : ∀ (n : Nat) (st : St) (os0 : List Opt), ws.length ≤ n → Inv st os0 →
    ∃ st', options n st ws = .ok (st', ps) ∧ Inv st' (os0 ++ os) := by
  have one : ∀ (ws ws' : List Str) (o : Opt) (os : List Opt) (ps : List Str) (name arg : Str), getopt ws = .opt name arg ws' → Names name arg o → ws'.length < ws.length →
      (∀ (n : Nat) (st : St) (os0 : List Opt), ws'.length ≤ n → Inv st os0 → ∃ st', options n st ws' = .ok (st', ps) ∧ Inv st' (os0 ++ os)) →
      ∀ (n : Nat) (st : St) (os0 : List Opt), ws.length ≤ n → Inv st os0 → ∃ st', options n st ws = .ok (st', ps) ∧ Inv st' (os0 ++ o :: os) := by
    intro ws ws' o os ps name arg hg hN hl ih n st os0 hn I
    cases n with
    | zero => omega
    | succ n =>
      obtain ⟨st1, h1, I1⟩ := handle_inv I hN
      obtain ⟨st2, h2, I2⟩ := ih n st1 (os0 ++ [o]) (by omega) I1
      refine ⟨st2, ?_, by rw [List.append_assoc] at I2; exact I2⟩
      unfold options
      rw [hg]
      dsimp only
      rw [h1]
      exact h2
  induction h with
  | done ws h =>
    intro n st os0 hn I
    refine ⟨st, ?_, by rw [List.append_nil]; exact I⟩
    cases n with
    | zero => rfl
    | succ n => unfold options; rw [getopt_done ws h]
  | @short p v ws os ps hp hv _ ih =>
    obtain ⟨name, h1, h2⟩ := getopt_short p hp v hv ws
    exact one _ _ _ _ _ _ _ h1 h2 (by simp) ih
  | @next p v ws os ps hp _ ih =>
    obtain ⟨name, h1, h2⟩ := getopt_next p hp v ws
    exact one _ _ _ _ _ _ _ h1 h2 (by simp; omega) ih
  | @long p v ws os ps hp _ ih =>
    obtain ⟨name, h1, h2⟩ := getopt_long p hp v ws
    exact one _ _ _ _ _ _ _ h1 h2 (by simp) ih
  | @flag p ws os ps hp _ ih =>
    obtain ⟨name, arg, h1, h2⟩ := getopt_flag p hp ws
    exact one _ _ _ _ _ _ _ h1 h2 (by simp) ih

theorem splitEq_eq : ∀ (w n v : Str), splitEq w = some (n, v) → w = n ++ 61 :: v
  | [], _, _, h => by cases h
  | c :: w, n, v, h => by
    unfold splitEq at h
    split at h
    · rename_i hc; cases h; rw [hc]; rfl
    · cases hw : splitEq w with
      | none => rw [hw] at h; cases h
      | some p =>
        rw [hw] at h
        cases h
        have := splitEq_eq w p.1 p.2 hw
        rw [List.cons_append, ← this]

/-- Every option that is taken is one that is meant. -/
theorem args_of_getopt {ws rest : List Str} {name arg : Str} {st st' : St} (h : getopt ws = .opt name arg rest) (hh : handle st name (escape arg) = some st') :
    rest.length < ws.length ∧ ∃ o, ∀ os ps, Args rest os ps → Args ws (o :: os) ps := by
  cases ws with
  | nil => cases h
  | cons w ws =>
    unfold getopt at h
    dsimp only at h
    split at h
    · rename_i w' c v
      split at h
      · rename_i hc
        subst hc
        split at h
        · cases h
        · split at h
          · rename_i n a hs
            split at h
            · rename_i hm
              cases h
              refine ⟨by simp, ?_⟩
              have hw := splitEq_eq _ _ _ hs
              have hm := List.contains_iff_mem.1 hm
              simp only [withArg, List.mem_cons, List.not_mem_nil, or_false] at hm
              rw [hw]
              rcases hm with rfl | rfl | rfl | rfl | rfl
              · exact ⟨.subject arg, fun os ps hA => Args.long ("--subject=", Opt.subject) arg (by simp) hA⟩
              · exact ⟨.to arg, fun os ps hA => Args.long ("--to=", Opt.to) arg (by simp) hA⟩
              · exact ⟨.cc arg, fun os ps hA => Args.long ("--cc=", Opt.cc) arg (by simp) hA⟩
              · exact ⟨.bcc arg, fun os ps hA => Args.long ("--bcc=", Opt.bcc) arg (by simp) hA⟩
              · exact ⟨.body arg, fun os ps hA => Args.long ("--body=", Opt.body) arg (by simp) hA⟩
            · cases h
          · split at h
            · rename_i hm
              cases h
              refine ⟨by simp, ?_⟩
              have hm := List.contains_iff_mem.1 hm
              simp only [withoutArg, List.mem_cons, List.not_mem_nil, or_false] at hm
              rcases hm with hm | hm | hm | hm | hm | hm | hm <;> rw [hm] at hh ⊢
              · cases hh
              · exact ⟨.print, fun os ps hA => Args.flag ("--print", .print) (by simp) hA⟩
              · exact ⟨.noWindow, fun os ps hA => Args.flag ("--no-window-system", .noWindow) (by simp) hA⟩
              · exact ⟨.client, fun os ps hA => Args.flag ("--client", .client) (by simp) hA⟩
              · exact ⟨.autoDaemon, fun os ps hA => Args.flag ("--auto-daemon", .autoDaemon) (by simp) hA⟩
              · exact ⟨.createFrame, fun os ps hA => Args.flag ("--create-frame", .createFrame) (by simp) hA⟩
              · exact ⟨.hello, fun os ps hA => Args.flag ("--hello", .hello) (by simp) hA⟩
            · cases h
      · split at h
        · cases h; cases hh
        · split at h
          · rename_i hc
            split at h
            · rename_i hv
              have hv : v = [] := by cases v with | nil => rfl | cons _ _ => cases hv
              subst hv
              split at h
              · cases h
              · cases h
                refine ⟨by simp; omega, ?_⟩
                rcases hc with rfl | rfl | rfl | rfl
                · exact ⟨.subject arg, fun os ps hA => Args.next ("-s", Opt.subject) arg (by simp) hA⟩
                · exact ⟨.cc arg, fun os ps hA => Args.next ("-c", Opt.cc) arg (by simp) hA⟩
                · exact ⟨.bcc arg, fun os ps hA => Args.next ("-b", Opt.bcc) arg (by simp) hA⟩
                · exact ⟨.body arg, fun os ps hA => Args.next ("-i", Opt.body) arg (by simp) hA⟩
            · rename_i hv
              cases h
              have hv : arg ≠ [] := fun h => hv (by rw [h]; rfl)
              refine ⟨by simp, ?_⟩
              rcases hc with rfl | rfl | rfl | rfl
              · exact ⟨.subject arg, fun os ps hA => Args.short ("-s", Opt.subject) arg (by simp) hv hA⟩
              · exact ⟨.cc arg, fun os ps hA => Args.short ("-c", Opt.cc) arg (by simp) hv hA⟩
              · exact ⟨.bcc arg, fun os ps hA => Args.short ("-b", Opt.bcc) arg (by simp) hv hA⟩
              · exact ⟨.body arg, fun os ps hA => Args.short ("-i", Opt.body) arg (by simp) hv hA⟩
          · cases h
    · cases h

theorem stop_done {ws : List Str} (h : getopt ws = .stop) : ws = [] ∨ ∃ w rest, ws = w :: rest ∧ (w = bs "--" ∨ w = bs "-" ∨ w.head? ≠ some 45) := by
  cases ws with
  | nil => exact .inl rfl
  | cons w ws =>
    refine .inr ⟨w, ws, rfl, ?_⟩
    match w, h with
    | [], _ => exact .inr (.inr (by simp))
    | [c], _ =>
      by_cases hc : c = 45
      · subst hc; exact .inr (.inl rfl)
      · exact .inr (.inr (by simpa using hc))
    | c :: d :: v, h =>
      by_cases hc : c = 45
      · subst hc
        unfold getopt at h
        dsimp only at h
        split at h
        case h_2 hno => exact absurd rfl (hno d v)
        rename_i hwd
        cases hwd
        split at h
        · rename_i hd
          subst hd
          split at h
          · rename_i hv
            cases v with
            | nil => exact .inl rfl
            | cons _ _ => cases hv
          · split at h <;> split at h <;> cases h
        · split at h
          · cases h
          · split at h
            · split at h
              · split at h <;> cases h
              · cases h
            · cases h
      · exact .inr (.inr (by simpa using hc))

theorem args_of_options : ∀ (n : Nat) (ws ps : List Str) (st st' : St), ws.length ≤ n → options n st ws = .ok (st', ps) → ∃ os, Args ws os ps := by
  intro n
  induction n with
  | zero =>
    intro ws ps st st' hn h
    have : ws = [] := List.eq_nil_of_length_eq_zero (by omega)
    subst this
    cases h
    exact ⟨[], .done [] (.inl rfl)⟩
  | succ n ih =>
    intro ws ps st st' hn h
    unfold options at h
    cases hg : getopt ws with
    | stop =>
      rw [hg] at h
      cases h
      exact ⟨[], .done _ (stop_done hg)⟩
    | err => rw [hg] at h; cases h
    | opt name arg rest =>
      rw [hg] at h
      dsimp only at h
      cases hh : handle st name (escape arg) with
      | none => rw [hh] at h; cases h
      | some st1 =>
        rw [hh] at h
        obtain ⟨hl, o, ho⟩ := args_of_getopt hg hh
        obtain ⟨os, hA⟩ := ih rest ps st1 st' (by omega) h
        exact ⟨o :: os, ho os ps hA⟩

end Notmuch.Mua
