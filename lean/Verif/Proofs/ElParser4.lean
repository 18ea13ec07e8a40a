import Verif.Proofs.ElParser3

/-! # Proofs for C75: results are handed over as soon as they are complete, and what notmuch prints -/

namespace Notmuch.ElParser
open Notmuch.Sprinter (Lisp Val Call norm isWs skipWs isAtomChar isOctal atomOf readLispString readLisp readLispElems IsLisp)

/-! ## The end of the text -/

/-- A character that ends a symbol or number. -/
def delim (c : UInt8) : Bool := isWs c || c = 40 || c = 41 || c = 34

theorem delim_not_atom : ∀ c : UInt8, delim c = true → isAtomChar c = false := by
  apply forall_byte; decide +kernel

theorem openStep_cases (stack : List (List Lisp)) (c : UInt8) : ∀ v, openStep stack c ≠ .before v := by
  intro v h
  unfold openStep at h
  repeat' split at h
  all_goals first | cases h | (unfold emit at h; split at h <;> cases h)

theorem last_delim : ∀ (s : Str) (r : Reader) (v : Lisp) (c : UInt8) (x : Str), delim c = true → readFrom r s = .last v → readFrom r (s ++ c :: x) = .value v (c :: x)
  | [], r, v, c, x, hc, h => by
    unfold readFrom at h
    split at h
    · rename_i a h1 h2
      injection h with h
      subst h
      obtain ⟨stack, tok⟩ := r
      dsimp only at h1 h2
      subst h1 h2
      rw [List.nil_append, readFrom_cons]
      have e : readStep ⟨[], .atom a⟩ c = if isAtomChar c then .more ⟨[], .atom (c :: a)⟩
        else if delim c then .before (atomOf a.reverse) else .bad := rfl
      rw [e, delim_not_atom c hc, if_neg (by decide), if_pos hc]
      rfl
    · cases h
  | y :: s, r, v, c, x, hc, h => by
    rw [List.cons_append, readFrom_cons]
    rw [readFrom_cons] at h
    cases hs : readStep r y with
    | more r' => rw [hs] at h; exact last_delim s r' v c x hc h
    | done w => rw [hs] at h; cases h
    | before w => rw [hs] at h; cases h
    | bad => rw [hs] at h; cases h

theorem before_top {r : Reader} {c : UInt8} {v : Lisp} (h : readStep r c = .before v) : ∃ a, r.stack = [] ∧ r.tok = .atom a := by
  obtain ⟨stack, tok⟩ := r
  cases tok with
  | none => exact absurd h (openStep_cases stack c v)
  | atom a =>
    refine ⟨a, ?_, rfl⟩
    cases stack with
    | nil => rfl
    | cons l st =>
      have e : readStep ⟨l :: st, .atom a⟩ c = if isAtomChar c then .more ⟨l :: st, .atom (c :: a)⟩
        else if delim c then openStep ((atomOf a.reverse :: l) :: st) c else .bad := rfl
      rw [e] at h
      split at h
      · cases h
      · split at h
        · exact absurd h (openStep_cases _ c v)
        · cases h
  | str acc =>
    exfalso
    have h' : strStep stack acc c = .before v := h
    unfold strStep at h'
    repeat' split at h'
    all_goals first | cases h' | (unfold emit at h'; split at h' <;> cases h')
  | esc acc =>
    exfalso
    unfold readStep at h
    dsimp only at h
    split at h <;> cases h
  | oct acc k n =>
    exfalso
    unfold readStep at h
    dsimp only at h
    unfold strStep at h
    repeat' split at h
    all_goals first | cases h | (unfold emit at h; split at h <;> cases h)

theorem eof_one : ∀ (s : Str) (r : Reader) (v : Lisp) (c : UInt8) (x : Str), readFrom r s = .eof → readFrom r (s ++ [c]) = .value v x → x = []
  | [], r, v, c, x, h, h' => by
    rw [List.nil_append, readFrom_cons] at h'
    cases hs : readStep r c with
    | more r' =>
      rw [hs] at h'
      have h'' : readFrom r' [] = .value v x := h'
      unfold readFrom at h''
      split at h'' <;> cases h''
    | done w => rw [hs] at h'; injection h' with _ h'; exact h'.symm
    | before w =>
      obtain ⟨a, e1, e2⟩ := before_top hs
      obtain ⟨stack, tok⟩ := r
      dsimp only at e1 e2
      subst e1 e2
      cases h
    | bad => rw [hs] at h'; cases h'
  | y :: s, r, v, c, x, h, h' => by
    rw [List.cons_append, readFrom_cons] at h'
    rw [readFrom_cons] at h
    cases hs : readStep r y with
    | more r' => rw [hs] at h h'; exact eof_one s r' v c x h h'
    | done w => rw [hs] at h; cases h
    | before w => rw [hs] at h; cases h
    | bad => rw [hs] at h; cases h

theorem last_char : ∀ (s : Str) (r : Reader) (v : Lisp), s ≠ [] → readFrom r s = .last v → ∃ c, s.getLast? = some c ∧ isAtomChar c = true
  | [], r, v, hne, _ => absurd rfl hne
  | [y], r, v, _, h => by
    rw [readFrom_cons] at h
    refine ⟨y, rfl, ?_⟩
    cases hs : readStep r y with
    | more r' =>
      rw [hs] at h
      have h' : readFrom r' [] = .last v := h
      unfold readFrom at h'
      split at h'
      · rename_i a e1 e2
        -- the reader is in a symbol now
        obtain ⟨stack, tok⟩ := r
        have key : ∀ st, openStep st y = .more r' → isAtomChar y = true := by
          intro st ho
          unfold openStep at ho
          split at ho
          · injection ho with ho; subst ho; cases e2
          · split at ho
            · injection ho with ho; subst ho; cases e2
            · split at ho
              · split at ho
                · cases ho
                · unfold emit at ho
                  split at ho
                  · cases ho
                  · injection ho with ho; subst ho; cases e2
              · split at ho
                · injection ho with ho; subst ho; cases e2
                · split at ho
                  · assumption
                  · cases ho
        have keys : ∀ acc, strStep stack acc y ≠ .more r' := by
          intro acc ho
          unfold strStep at ho
          split at ho
          · unfold emit at ho
            split at ho
            · cases ho
            · injection ho with ho; subst ho; cases e2
          · split at ho
            · injection ho with ho; subst ho; cases e2
            · injection ho with ho; subst ho; cases e2
        cases tok with
        | none => exact key stack hs
        | atom b =>
          unfold readStep at hs
          dsimp only at hs
          split at hs
          · assumption
          · split at hs
            · split at hs
              · cases hs
              · exact key _ hs
            · cases hs
        | str acc => exact absurd hs (keys acc)
        | esc acc =>
          unfold readStep at hs
          dsimp only at hs
          split at hs <;> (injection hs with hs; subst hs; cases e2)
        | oct acc k n =>
          unfold readStep at hs
          dsimp only at hs
          split at hs
          · injection hs with hs; subst hs; cases e2
          · exact absurd hs (keys _)
      · cases h'
    | done w => rw [hs] at h; cases h
    | before w => rw [hs] at h; cases h
    | bad => rw [hs] at h; cases h
  | y :: z :: s, r, v, _, h => by
    rw [readFrom_cons] at h
    rw [List.getLast?_cons_cons]
    cases hs : readStep r y with
    | more r' => rw [hs] at h; exact last_char (z :: s) r' v (by simp) h
    | done w => rw [hs] at h; cases h
    | before w => rw [hs] at h; cases h
    | bad => rw [hs] at h; cases h

/-! ## What is left -/

theorem readFrom_suffix : ∀ (s : Str) (r : Reader) (v : Lisp) (rest : Str), readFrom r s = .value v rest → rest <:+ s
  | [], r, v, rest, h => by
    unfold readFrom at h
    split at h <;> cases h
  | x :: s, r, v, rest, h => by
    rw [readFrom_cons] at h
    cases hs : readStep r x with
    | more r' => rw [hs] at h; exact (readFrom_suffix s r' v rest h).trans (List.suffix_cons x s)
    | done w => rw [hs] at h; injection h with _ h; subst h; exact List.suffix_cons x s
    | before w => rw [hs] at h; injection h with _ h; subst h; exact List.suffix_refl _
    | bad => rw [hs] at h; cases h

theorem skipWs_suffix (s : Str) : skipWs s <:+ s := List.dropWhile_suffix _

theorem Drain.suffix {s : Str} {vs : List Lisp} {r : Str} {b : Bool} (d : Drain s vs r b) : r <:+ s := by
  induction d with
  | empty _ => exact List.nil_suffix
  | @wait s r c h1 h2 h3 => rw [← h1]; exact skipWs_suffix s
  | close _ _ => exact List.nil_suffix
  | @elem s r r1 rest c v vs b h1 h2 h3 h4 h5 h6 ih =>
    refine ih.trans ((readFrom_suffix _ _ v r1 h3).trans ?_)
    rw [← h1]
    exact skipWs_suffix s

theorem Drain.left' {s : Str} {vs : List Lisp} {r : Str} {b : Bool} (d : Drain s vs r b) : r = [] ∨ ∃ c x, r = c :: x ∧ isWs c = false ∧ c ≠ 41 := by
  induction d with
  | empty _ => exact .inl rfl
  | wait h1 h2 h3 => exact .inr ⟨_, _, rfl, skipWs_head h1, h2⟩
  | close _ _ => exact .inl rfl
  | elem h1 h2 h3 h4 h5 h6 ih => exact ih

theorem drain_paren {V : List Lisp} {R : Str} (h : Drain [41] V R true) : V = [] := by
  cases h with
  | close h1 h2 => rfl
  | elem h1 h2 h3 =>
    have : skipWs [41] = 41 :: [] := rfl
    rw [this] at h1
    injection h1 with h1 _
    exact absurd h1.symm h2

theorem drain_nil {V : List Lisp} {R : Str} : ¬ Drain [] V R true := by
  intro h
  cases h with
  | close h1 h2 => cases h1
  | elem h1 h2 h3 => cases h1

/-- If closing the list makes it complete, all elements were handed over, or all but a symbol or number at the end of the text. -/
theorem drain_open {t : Str} {l : List Lisp} (h : Drain (t ++ [41]) l [] true) : ∃ vs r, Drain t vs r false ∧ (l = vs ∨ ∃ v, l = vs ++ [v] ∧ r ≠ [] ∧ read r = .last v) := by
  obtain ⟨vs, r, b, d⟩ := h.beginning t [41] rfl
  obtain ⟨k1, k2⟩ := d.split h
  cases b with
  | true => exact absurd (k2 rfl).2.2.2 (by decide)
  | false =>
    refine ⟨vs, r, d, ?_⟩
    obtain ⟨V, rfl, D⟩ := k1 rfl
    rcases d.left' with rfl | ⟨c, x, rfl, hc, h41⟩
    · rw [drain_paren D]
      exact .inl (List.append_nil _)
    · have hsk : skipWs (c :: x ++ [41]) = c :: (x ++ [41]) := Sprinter.skipWs_cons hc _
      cases D with
      | close h1 h2 => rw [hsk] at h1; injection h1 with h1 _; exact absurd h1 h41
      | @elem _ _ r1 _ _ v vs' _ h1 h2 h3 h4 h5 h6 =>
        rw [hsk] at h1
        injection h1 with i1 i2
        subst i1 i2
        rcases d.left with h | h | ⟨w, h⟩
        · cases h
        · have : r1 = [] := eof_one _ _ v 41 r1 h h3
          subst this
          exact absurd h6 drain_nil
        · have e := last_delim _ _ w 41 [] (by decide) h
          have e' := h3.symm.trans e
          injection e' with e1 e2
          subst e1 e2
          rw [drain_paren h6]
          exact .inr ⟨v, rfl, by simp, h⟩

/-- With a character that ends a symbol behind it, all were. -/
theorem drain_prompt {t : Str} {l : List Lisp} (h : Drain (t ++ [41]) l [] true) {c : UInt8} (hc : delim c = true) {x : Str} {V : List Lisp} {R : Str} {B : Bool}
    (D : Drain (t ++ c :: x) V R B) : l <+: V := by
  obtain ⟨vs, r, d, hl⟩ := drain_open h
  obtain ⟨V', rfl, D'⟩ := (d.split D).1 rfl
  rcases hl with rfl | ⟨v, rfl, hne, hr⟩
  · exact List.prefix_append _ _
  · rcases d.left' with rfl | ⟨y, q, rfl, hw, h41⟩
    · exact absurd rfl hne
    · have hsk : skipWs (y :: q ++ c :: x) = y :: (q ++ c :: x) := Sprinter.skipWs_cons hw _
      have e : read (y :: (q ++ c :: x)) = .value v (c :: x) := last_delim _ _ v c x hc hr
      cases D' with
      | empty h1 => rw [hsk] at h1; cases h1
      | wait h1 h2 h3 =>
        rw [hsk] at h1; injection h1 with i1 i2; subst i1 i2
        rcases h3 with h3 | ⟨w, h3⟩ <;> rw [e] at h3 <;> cases h3
      | close h1 h2 => rw [hsk] at h1; injection h1 with h1 _; exact absurd h1 h41
      | elem h1 h2 h3 h4 h5 h6 =>
        rw [hsk] at h1; injection h1 with i1 i2; subst i1 i2
        rw [e] at h3
        injection h3 with j1 j2
        subst j1
        exact ⟨_, List.append_assoc _ _ _⟩

/-- Behind something else than a symbol or number, too. -/
theorem drain_now {t : Str} {l : List Lisp} (h : Drain (t ++ [41]) l [] true) (ht : ∀ c, t.getLast? = some c → isAtomChar c = false) : ∃ r, Drain t l r false := by
  obtain ⟨vs, r, d, hl⟩ := drain_open h
  rcases hl with rfl | ⟨v, rfl, hne, hr⟩
  · exact ⟨r, d⟩
  · obtain ⟨c, e1, e2⟩ := last_char r _ v hne hr
    obtain ⟨p, hp⟩ := d.suffix
    have : t.getLast? = some c := by rw [← hp, List.getLast?_append, e1]; rfl
    rw [ht c this] at e2
    cases e2

/-! ## What notmuch prints -/

open Notmuch.Sprinter in
/-- The text of an open list. -/
theorem printed_open (l : List Val) (hk : Val.KeysOkList l) (cs : List Call) (h : norm cs = .beginList :: Val.callsList l) :
    ∃ b first T, Sexp.run start cs = some ⟨[⟨first, 41⟩], b, 40 :: T⟩ ∧ Sexp.Elems T (Val.lispList l) := by
  obtain ⟨c1, c2, rfl, h1, h2⟩ := norm_append_inv cs [.beginList] _ h
  obtain ⟨b1, r1⟩ := Sexp.run_one c1 .beginList start h1
  obtain ⟨b3, r1⟩ := r1 _ rfl
  obtain ⟨b4, first, body, r2, hr, _⟩ := Sexp.list_ok l hk c2 { Sexp.beginAggregate { start with sep := b1 } with sep := b3 } ⟨true, 41⟩ [] h2 rfl
  refine ⟨b4, first, body, ?_, hr⟩
  rw [Sexp.run_append, r1]
  exact r2

open Notmuch.Sprinter in
theorem printed_full (l : List Val) (hk : Val.KeysOkList l) (cs : List Call) (h : norm cs = (Val.list l).calls) :
    ∃ b T, Sexp.run start cs = some ⟨[], b, 40 :: (T ++ [41, 10])⟩ ∧ Sexp.Elems T (Val.lispList l) := by
  have h' : norm cs = (.beginList :: Val.callsList l) ++ [.endAgg] := h
  obtain ⟨c1, c2, rfl, h1, h2⟩ := norm_append_inv cs _ _ h'
  obtain ⟨b, first, T, e, hT⟩ := printed_open l hk c1 h1
  obtain ⟨b1, r1⟩ := Sexp.run_one c2 .endAgg ⟨[⟨first, 41⟩], b, 40 :: T⟩ h2
  obtain ⟨b3, r1⟩ := r1 _ rfl
  refine ⟨b3, T, ?_, hT⟩
  rw [Sexp.run_append, e, Option.bind_some, r1]
  rfl

open Notmuch.Sprinter in
theorem callsList_append (l m : List Val) : Val.callsList (l ++ m) = Val.callsList l ++ Val.callsList m := by
  induction l with
  | nil => rfl
  | cons v l ih => rw [List.cons_append, Val.callsList, Val.callsList, ih, List.append_assoc]

open Notmuch.Sprinter in
theorem keysOk_append {l m : List Val} (h : Val.KeysOkList (l ++ m)) : Val.KeysOkList l ∧ Val.KeysOkList m := by
  induction l with
  | nil => exact ⟨trivial, h⟩
  | cons v l ih => exact ⟨⟨h.1, (ih h.2).1⟩, (ih h.2).2⟩

open Notmuch.Sprinter in
/-- Behind a list or map there is a closing parenthesis. -/
theorem printed_agg (l : List Val) (hk : Val.KeysOkList l) {open_ : Call} (ho : ∀ st, Sexp.step st open_ = some (Sexp.beginAggregate st)) {calls : List Call} {m : List Lisp}
    (hm : Sexp.ElemsOk calls m) (cs : List Call) (h : norm cs = (.beginList :: Val.callsList l) ++ (open_ :: (calls ++ [.endAgg]))) :
    ∃ st, Sexp.run start cs = some st ∧ st.out.getLast? = some 41 := by
  obtain ⟨c1, c2, rfl, h1, h2⟩ := norm_append_inv cs _ _ h
  obtain ⟨b, first, T, e, _⟩ := printed_open l hk c1 h1
  obtain ⟨c3, c4, rfl, h3, h4⟩ := norm_append_inv c2 [open_] _ h2
  obtain ⟨c5, c6, rfl, h5, h6⟩ := norm_append_inv c4 _ _ h4
  obtain ⟨b1, r1⟩ := Sexp.run_one c3 open_ ⟨[⟨first, 41⟩], b, 40 :: T⟩ h3
  obtain ⟨b2, r1⟩ := r1 _ (ho _)
  obtain ⟨pre, b7, e7, _⟩ := Sexp.beginValue_ok (st := ⟨[⟨first, 41⟩], b1, 40 :: T⟩) (f := ⟨first, 41⟩) (fs := []) rfl
  have hst : (Sexp.beginAggregate ⟨[⟨first, 41⟩], b1, 40 :: T⟩).stack = ⟨true, 41⟩ :: [⟨false, 41⟩] := by unfold Sexp.beginAggregate; rw [e7]
  obtain ⟨b3, first', T', r2, _, _⟩ := hm c5 { Sexp.beginAggregate ⟨[⟨first, 41⟩], b1, 40 :: T⟩ with sep := b2 } _ _ h5 hst
  obtain ⟨b4, r3⟩ := Sexp.run_one c6 .endAgg ⟨⟨first', 41⟩ :: [⟨false, 41⟩], b3, { Sexp.beginAggregate ⟨[⟨first, 41⟩], b1, 40 :: T⟩ with sep := b2 }.out ++ T'⟩ h6
  obtain ⟨b5, r3⟩ := r3 _ rfl
  have hrun : ∀ x, Sexp.run ⟨⟨first', 41⟩ :: [⟨false, 41⟩], b3, { Sexp.beginAggregate ⟨[⟨first, 41⟩], b1, 40 :: T⟩ with sep := b2 }.out ++ T'⟩ c6 = x →
      Sexp.run start (c1 ++ (c3 ++ (c5 ++ c6))) = x := by
    intro x hx
    rw [Sexp.run_append, e, Option.bind_some, Sexp.run_append, r1, Option.bind_some, Sexp.run_append, r2, Option.bind_some, hx]
  exact ⟨_, hrun _ r3, List.getLast?_concat⟩

open Notmuch.Sprinter in
theorem elems_lisp {T w : Str} {l : List Lisp} (h : Sexp.Elems T l) (hw : skipWs w = []) : IsLisp (40 :: (T ++ 41 :: w)) (.list l) := by
  obtain ⟨N, hN⟩ := h w
  refine ⟨N + 1, fun k hk => ⟨w, ?_, hw⟩⟩
  obtain ⟨k, rfl⟩ : ∃ j, k = j + 1 := ⟨k - 1, by omega⟩
  unfold readLisp
  rw [skipWs_cons (by decide)]
  show (readLispElems (readLisp k) k (T ++ 41 :: w)).map _ = _
  rw [hN k k (by omega) (by omega)]
  rfl

open Notmuch.Sprinter in
theorem plain_printed : ∀ (l : List Val), Plain (Val.lispList l)
  | [] => by intro v hv; cases hv
  | v :: l => by
    intro w hw
    rw [Val.lispList, List.mem_cons] at hw
    rcases hw with rfl | hw
    · cases v with
      | bool b =>
        cases b
        · exact ⟨(fun h => by cases h), (fun h => by cases h)⟩
        · refine ⟨fun h => ?_, fun h => ?_⟩
          · have : bs "t" = bs "retry" := by injection h
            exact absurd this (by decide)
          · have : bs "t" = bs "end" := by injection h
            exact absurd this (by decide)
      | _ => exact ⟨(fun h => by rw [Val.lisp] at h; cases h), (fun h => by rw [Val.lisp] at h; cases h)⟩
    · exact plain_printed l w hw

end Notmuch.ElParser
