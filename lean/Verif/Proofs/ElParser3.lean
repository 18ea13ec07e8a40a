import Verif.Proofs.ElParser2

/-! # Proofs for C75: `read` reads what the reader of C40 reads -/

namespace Notmuch.ElParser
open Notmuch.Sprinter (Lisp isWs skipWs isAtomChar isOctal atomOf readLispString readLisp readLispElems IsLisp)

/-- Going on after a round at the character `c`. -/
def cont (c : UInt8) (s : Str) : Step → ReadRes
  | .more r => readFrom r s
  | .done v => .value v s
  | .before v => .value v (c :: s)
  | .bad => .invalid s

theorem readFrom_cons (r : Reader) (c : UInt8) (s : Str) : readFrom r (c :: s) = cont c s (readStep r c) := by
  rw [readFrom]
  unfold cont
  split <;> (rename_i h; rw [h])

/-- Going on after a value. -/
def after (stack : List (List Lisp)) (v : Lisp) (s : Str) : ReadRes :=
  match stack with
  | [] => .value v s
  | l :: st => readFrom ⟨(v :: l) :: st, .none⟩ s

theorem cont_emit (c : UInt8) (s : Str) (stack : List (List Lisp)) (v : Lisp) : cont c s (emit stack v) = after stack v s := by
  cases stack <;> rfl

/-! ## Strings -/

theorem oct_ends (stack : List (List Lisp)) (acc : Str) (k n : Nat) (s : Str) (h : ¬ (k < 3 ∧ ∃ c r, s = c :: r ∧ isOctal c = true)) :
    readFrom ⟨stack, .oct acc k n⟩ s = readFrom ⟨stack, .str (UInt8.ofNat n :: acc)⟩ s := by
  cases s with
  | nil => cases stack <;> rfl
  | cons c r =>
    rw [readFrom_cons, readFrom_cons]
    have : ¬ (k < 3 ∧ isOctal c = true) := fun x => h ⟨x.1, c, r, rfl, x.2⟩
    unfold readStep
    dsimp only
    rw [if_neg this]

theorem str_esc (stack : List (List Lisp)) (acc : Str) (s : Str) : readFrom ⟨stack, .str acc⟩ (92 :: s) = readFrom ⟨stack, .esc acc⟩ s := rfl

theorem esc_oct (stack : List (List Lisp)) (acc : Str) (a : UInt8) (h : isOctal a = true) (s : Str) :
    readFrom ⟨stack, .esc acc⟩ (a :: s) = readFrom ⟨stack, .oct acc 1 (a.toNat - 48)⟩ s := by
  rw [readFrom_cons]; unfold readStep; dsimp only; rw [if_pos h]; rfl

theorem esc_plain (stack : List (List Lisp)) (acc : Str) (a : UInt8) (h : isOctal a = false) (s : Str) :
    readFrom ⟨stack, .esc acc⟩ (a :: s) = readFrom ⟨stack, .str ((if a = 110 then 10 else a) :: acc)⟩ s := by
  rw [readFrom_cons]; unfold readStep; dsimp only; rw [h, if_neg (by decide)]; rfl

theorem oct_oct (stack : List (List Lisp)) (acc : Str) (k n : Nat) (hk : k < 3) (a : UInt8) (h : isOctal a = true) (s : Str) :
    readFrom ⟨stack, .oct acc k n⟩ (a :: s) = readFrom ⟨stack, .oct acc (k + 1) (n * 8 + (a.toNat - 48))⟩ s := by
  rw [readFrom_cons]; unfold readStep; dsimp only; rw [if_pos ⟨hk, h⟩]; rfl

theorem link_string (s : Str) : ∀ (t r : Str), readLispString s = some (t, r) → ∀ (stack : List (List Lisp)) (acc : Str),
    readFrom ⟨stack, .str acc⟩ s = after stack (.str (acc.reverse ++ t)) r := by
  induction h : s.length using Nat.strongRecOn generalizing s with
  | _ n ih =>
  intro t r hr stack acc
  have push : ∀ (x : UInt8) (s' : Str), s'.length < n → (readLispString s').map (fun y => (x :: y.1, y.2)) = some (t, r) →
      readFrom ⟨stack, .str (x :: acc)⟩ s' = after stack (.str (acc.reverse ++ t)) r := by
    intro x s' hl hm
    rw [Option.map_eq_some_iff] at hm
    obtain ⟨⟨t', r'⟩, hm, he⟩ := hm
    injection he with e1 e2
    subst e1 e2
    rw [ih _ hl s' rfl t' r' hm stack (x :: acc)]
    simp
  match s, hr, h with
  | [], hr, _ => rw [readLispString] at hr; cases hr
  | c :: s, hr, h =>
    rw [List.length_cons] at h
    by_cases h1 : c = 34
    · subst h1
      rw [readLispString] at hr
      injection hr with hr
      injection hr with e1 e2
      subst e1 e2
      rw [readFrom_cons, List.append_nil]
      show cont _ _ (emit stack _) = _
      rw [cont_emit]
    by_cases h2 : c = 92
    · subst h2
      rw [str_esc]
      match s, hr, h with
      | [], hr, _ => rw [readLispString.eq_def] at hr; simp [readLispString] at hr
      | a :: s, hr, h =>
        rw [List.length_cons] at h
        cases ha : isOctal a with
        | false =>
          rw [Sprinter.Sexp.readLispString_esc ha] at hr
          rw [esc_plain _ _ _ ha]
          exact push _ s (by omega) hr
        | true =>
          rw [esc_oct _ _ _ ha]
          match s, hr, h with
          | [], hr, _ => rw [readLispString.eq_def] at hr; simp [readLispString] at hr
          | [b], hr, h =>
            simp only [List.length_cons, List.length_nil] at h
            rw [readLispString.eq_def] at hr
            have hr' : (readLispString [b]).map (fun x => ((if isOctal a = true then UInt8.ofNat (a.toNat - 48) else if a = 110 then 10 else a) :: x.1, x.2)) = some (t, r) := hr
            rw [ha, if_pos rfl] at hr'
            cases hb : isOctal b with
            | false =>
              rw [oct_ends _ _ _ _ _ (by rintro ⟨_, c, x, e, h⟩; cases e; rw [hb] at h; cases h)]
              exact push _ [b] (by simp only [List.length_cons, List.length_nil]; omega) hr'
            | true =>
              have : readLispString [b] = none := by
                have f := oct_facts b hb
                rw [Sprinter.Sexp.readLispString_plain f.2 f.1]
                rfl
              rw [this] at hr'
              cases hr'
          | b :: d :: s, hr, h =>
            simp only [List.length_cons] at h
            rw [readLispString.eq_def] at hr
            have hr' : (if isOctal a && isOctal b && isOctal d then (readLispString s).map (fun x => (UInt8.ofNat ((a.toNat - 48) * 64 + (b.toNat - 48) * 8 + (d.toNat - 48)) :: x.1, x.2))
              else if isOctal a && isOctal b then (readLispString (d :: s)).map (fun x => (UInt8.ofNat ((a.toNat - 48) * 8 + (b.toNat - 48)) :: x.1, x.2))
              else if isOctal a then (readLispString (b :: d :: s)).map (fun x => (UInt8.ofNat (a.toNat - 48) :: x.1, x.2))
              else (readLispString (b :: d :: s)).map (fun x => ((if a = 110 then 10 else a) :: x.1, x.2))) = some (t, r) := hr
            rw [ha] at hr'
            cases hb : isOctal b with
            | false =>
              rw [hb] at hr'
              rw [oct_ends _ _ _ _ _ (by rintro ⟨_, c, x, e, h⟩; cases e; rw [hb] at h; cases h)]
              exact push _ (b :: d :: s) (by simp only [List.length_cons]; omega) (by simpa using hr')
            | true =>
              rw [hb] at hr'
              rw [oct_oct _ _ _ _ (by omega) _ hb]
              cases hd : isOctal d with
              | false =>
                rw [hd] at hr'
                rw [oct_ends _ _ _ _ _ (by rintro ⟨_, c, x, e, h⟩; cases e; rw [hd] at h; cases h)]
                exact push _ (d :: s) (by simp only [List.length_cons]; omega) (by simpa using hr')
              | true =>
                rw [hd] at hr'
                rw [oct_oct _ _ _ _ (by omega) _ hd, oct_ends _ _ _ _ _ (by rintro ⟨h, _⟩; omega)]
                refine push _ s (by omega) ?_
                have e : ((a.toNat - 48) * 8 + (b.toNat - 48)) * 8 + (d.toNat - 48) = (a.toNat - 48) * 64 + (b.toNat - 48) * 8 + (d.toNat - 48) := by omega
                rw [e]
                simpa using hr'
    · rw [Sprinter.Sexp.readLispString_plain h1 h2] at hr
      have : readFrom ⟨stack, .str acc⟩ (c :: s) = readFrom ⟨stack, .str (c :: acc)⟩ s := by
        rw [readFrom_cons]
        show cont c s (strStep stack acc c) = _
        unfold strStep
        rw [if_neg h1, if_neg h2]
        rfl
      rw [this]
      exact push c s (by omega) hr

/-! ## Symbols and numbers -/

/-- What may be behind a value. -/
def Next (r : Str) : Prop := ∃ c x, r = c :: x ∧ (isWs c || c = 40 || c = 41 || c = 34 || isAtomChar c) = true

theorem link_atom (stack : List (List Lisp)) : ∀ (s acc : Str), Next (s.dropWhile isAtomChar) →
    readFrom ⟨stack, .atom acc⟩ s = after stack (atomOf (acc.reverse ++ s.takeWhile isAtomChar)) (s.dropWhile isAtomChar)
  | [], acc, h => by obtain ⟨c, x, e, _⟩ := h; cases e
  | c :: s, acc, h => by
    by_cases hc : isAtomChar c = true
    · rw [List.dropWhile_cons_of_pos hc] at h ⊢
      rw [List.takeWhile_cons_of_pos hc]
      have e : readFrom ⟨stack, .atom acc⟩ (c :: s) = readFrom ⟨stack, .atom (c :: acc)⟩ s := by
        rw [readFrom_cons]; unfold readStep; dsimp only; rw [if_pos hc]; rfl
      rw [e, link_atom stack s (c :: acc) h]
      simp
    · rw [List.dropWhile_cons_of_neg hc] at h ⊢
      rw [List.takeWhile_cons_of_neg hc, List.append_nil, readFrom_cons]
      obtain ⟨c', x, e, hn⟩ := h
      injection e with e1 e2
      subst e1 e2
      have hc' : isAtomChar c = false := by simpa using hc
      rw [hc', Bool.or_false] at hn
      unfold readStep
      dsimp only
      rw [if_neg hc, if_pos hn]
      cases stack with
      | nil => rfl
      | cons l st =>
        dsimp only [after]
        rw [readFrom_cons]
        rfl

/-! ## Values -/

theorem readFrom_ws (stack : List (List Lisp)) (s : Str) : readFrom ⟨stack, .none⟩ s = readFrom ⟨stack, .none⟩ (skipWs s) := by
  induction s with
  | nil => rfl
  | cons x s ih =>
    by_cases hx : isWs x = true
    · rw [Sprinter.skipWs_ws hx, ← ih, readFrom_cons]
      show cont x s (openStep stack x) = _
      unfold openStep
      rw [if_pos hx]
      rfl
    · rw [Sprinter.skipWs_cons (by simpa using hx)]

/-- A value that is no symbol or number may be followed by anything. -/
def Linked (k : Nat) : Prop := ∀ (s : Str) (v : Lisp) (r : Str), readLisp k s = some (v, r) → Next r → ∀ stack, readFrom ⟨stack, .none⟩ s = after stack v r

theorem readLisp_next {k : Nat} {s : Str} {x : Lisp × Str} {c : UInt8} {r : Str} (h : readLisp k s = some x) (hs : skipWs s = c :: r) :
    (c = 40 ∨ c = 34 ∨ isAtomChar c = true) := by
  cases k with
  | zero => cases h
  | succ k =>
    unfold readLisp at h
    rw [hs] at h
    by_cases h1 : c = 40
    · exact .inl h1
    by_cases h2 : c = 34
    · exact .inr (.inl h2)
    refine .inr (.inr ?_)
    split at h
    · rename_i e; cases e
    · rename_i e; injection e with e _; exact absurd e h1
    · rename_i e; injection e with e _; exact absurd e h2
    · rename_i e
      injection e with e _
      subst e
      split at h
      · assumption
      · cases h

theorem elems_next {k g : Nat} {s : Str} {x : List Lisp × Str} (h : readLispElems (readLisp k) g s = some x) : Next s := by
  cases g with
  | zero => cases h
  | succ g =>
    unfold readLispElems at h
    cases s with
    | nil => cases h
    | cons c s =>
      refine ⟨c, s, rfl, ?_⟩
      by_cases hw : isWs c = true
      · simp [hw]
      · have hw' : isWs c = false := by simpa using hw
        rw [Sprinter.skipWs_cons hw'] at h
        split at h
        · rename_i e; cases e
        · rename_i e; injection e with e _; subst e; rfl
        · rename_i e
          injection e with e1 e2
          subst e1 e2
          split at h
          · cases h
          · rename_i e
            rcases readLisp_next e (Sprinter.skipWs_cons hw' s) with h' | h' | h' <;> simp [h']

theorem link_elems {k : Nat} (hk : Linked k) : ∀ (g : Nat) (s : Str) (l : List Lisp) (r : Str), readLispElems (readLisp k) g s = some (l, r) →
    ∀ stack acc, readFrom ⟨acc :: stack, .none⟩ s = after stack (.list (acc.reverse ++ l)) r
  | 0, s, l, r, h => by cases h
  | g + 1, s, l, r, h => by
    intro stack acc
    unfold readLispElems at h
    rw [readFrom_ws]
    split at h
    · cases h
    · rename_i q e
      injection h with h
      injection h with e1 e2
      subst e1 e2
      rw [e, readFrom_cons, List.append_nil]
      exact cont_emit 41 q stack _
    · rename_i c q _ e
      split at h
      · cases h
      · rename_i v r1 hv
        rw [Option.map_eq_some_iff] at h
        obtain ⟨⟨l', r'⟩, h1, h2⟩ := h
        injection h2 with e1 e2
        subst e1 e2
        rw [e, hk _ _ _ hv (elems_next h1) (acc :: stack)]
        show readFrom ⟨(v :: acc) :: stack, .none⟩ r1 = _
        rw [link_elems hk g r1 l' r' h1 stack (v :: acc)]
        simp

theorem linked : ∀ k, Linked k
  | 0 => by intro s v r h; cases h
  | k + 1 => by
    intro s v r h hn stack
    unfold readLisp at h
    rw [readFrom_ws]
    split at h
    · cases h
    · rename_i q e
      rw [Option.map_eq_some_iff] at h
      obtain ⟨⟨l', r'⟩, h1, h2⟩ := h
      injection h2 with e1 e2
      subst e1 e2
      rw [e, readFrom_cons]
      show readFrom ⟨[] :: stack, .none⟩ q = _
      rw [link_elems (linked k) _ q l' r' h1 stack []]
      rfl
    · rename_i q e
      rw [Option.map_eq_some_iff] at h
      obtain ⟨⟨l', r'⟩, h1, h2⟩ := h
      injection h2 with e1 e2
      subst e1 e2
      rw [e, readFrom_cons]
      show readFrom ⟨stack, .str []⟩ q = _
      rw [link_string q l' r' h1 stack []]
      rfl
    · rename_i c q n1 n2 e
      split at h
      · rename_i hc
        injection h with h
        injection h with e1 e2
        subst e1 e2
        have f := atom_facts c hc
        rw [List.dropWhile_cons_of_pos hc] at hn ⊢
        rw [List.takeWhile_cons_of_pos hc, e, readFrom_cons]
        have e3 : readStep ⟨stack, .none⟩ c = .more ⟨stack, .atom [c]⟩ := by
          show openStep stack c = _
          unfold openStep
          rw [skipWs_head e, if_neg (by decide), if_neg f.2.2.1, if_neg f.2.2.2.1, if_neg f.2.1, if_pos hc]
        rw [e3]
        show readFrom ⟨stack, .atom [c]⟩ q = _
        rw [link_atom stack q [c] hn]
        rfl
      · cases h

/-- No result is one of the two symbols. -/
def Plain (l : List Lisp) : Prop := ∀ v ∈ l, v ≠ .sym (bs "retry") ∧ v ≠ .sym (bs "end")

theorem isSym_iff (n : Str) (v : Lisp) : isSym n v = false ↔ v ≠ .sym n := by
  cases v <;> simp [isSym]

theorem drain_elems {k : Nat} : ∀ (g : Nat) (s : Str) (l : List Lisp) (r : Str), readLispElems (readLisp k) g s = some (l, r) → skipWs r = [] → Plain l → Drain s l [] true
  | 0, s, l, r, h => by cases h
  | g + 1, s, l, r, h => by
    intro hr hp
    unfold readLispElems at h
    split at h
    · cases h
    · rename_i q e
      injection h with h
      injection h with e1 e2
      subst e1 e2
      exact .close e hr
    · rename_i c q hne e
      split at h
      · cases h
      · rename_i v r1 hv
        rw [Option.map_eq_some_iff] at h
        obtain ⟨⟨l', r'⟩, h1, h2⟩ := h
        injection h2 with e1 e2
        subst e1 e2
        have hrd : read (c :: q) = .value v r1 := linked k _ _ _ hv (elems_next h1) []
        have hv' := hp v (by simp)
        have h41 : c ≠ 41 := by intro h; exact hne h
        exact .elem e h41 hrd ((isSym_iff _ v).2 hv'.1) ((isSym_iff _ v).2 hv'.2) (drain_elems g r1 l' r' h1 hr (fun w hw => hp w (List.mem_cons_of_mem _ hw)))

theorem top_lisp {text : Str} {l : List Lisp} (h : IsLisp text (.list l)) (hs : (skipWs text).head? = some 40) (hp : Plain l) :
    ∃ body, skipWs text = 40 :: body ∧ Drain body l [] true := by
  obtain ⟨N, h⟩ := h
  obtain ⟨rest, h1, h2⟩ := h (N + 1) (by omega)
  cases e : skipWs text with
  | nil => rw [e] at hs; cases hs
  | cons c body =>
    rw [e] at hs
    injection hs with hs
    subst hs
    refine ⟨body, rfl, ?_⟩
    unfold readLisp at h1
    rw [e] at h1
    have h1' : (readLispElems (readLisp N) N body).map (fun x => (Lisp.list x.1, x.2)) = some (.list l, rest) := h1
    rw [Option.map_eq_some_iff] at h1'
    obtain ⟨⟨l', r'⟩, h3, h4⟩ := h1'
    injection h4 with e1 e2
    injection e1 with e1
    subst e1 e2
    exact drain_elems N body l' r' h3 h2 hp

end Notmuch.ElParser
