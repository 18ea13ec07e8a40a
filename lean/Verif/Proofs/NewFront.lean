import Verif.Spec.NewFront

namespace Notmuch.NewFront
open Notmuch.New (Path Kind Env Db Op)

/-! ## `new.ignore` -/

theorem between {s : Str} (h3 : 3 ≤ s.length) (h1 : s.head? = some 47) (h2 : s.getLast? = some 47) :
    s = bs "/" ++ (s.drop 1).take (s.length - 2) ++ bs "/" ∧ (s.drop 1).take (s.length - 2) ≠ [] := by
  cases s with
  | nil => simp at h1
  | cons a s =>
    simp at h1
    subst h1
    have hne : s ≠ [] := by rintro rfl; simp at h3
    have hl : s.getLast hne = 47 := by
      rw [List.getLast?_cons_of_ne_nil hne, List.getLast?_eq_getLast hne] at h2
      simpa using h2
    have e : (List.drop 1 (47 :: s)).take ((47 :: s).length - 2) = s.dropLast := by
      simp [List.dropLast_eq_take]
    rw [e]
    refine ⟨?_, ?_⟩
    · have := List.dropLast_concat_getLast hne
      rw [hl] at this
      simp [bs]
      exact this.symm
    · intro h
      have : s.dropLast.length = 0 := by rw [h]; rfl
      rw [List.length_dropLast] at this
      simp at h3
      omega

theorem between_drop {r : Str} : ((bs "/" ++ r ++ bs "/").drop 1).take ((bs "/" ++ r ++ bs "/").length - 2) = r := by
  simp [bs]

theorem between_inj {r t : Str} (h : bs "/" ++ r ++ bs "/" = bs "/" ++ t ++ bs "/") : r = t := by
  simpa [bs] using h

theorem setup_spec (comp : Str → Option (Str → Bool)) : ∀ (vs : List Str) (ig : Ignore),
    match setupIgnore comp vs ig with
    | none => ∃ v ∈ vs, ¬ Allowed comp v
    | some ig' => (∀ v ∈ vs, Allowed comp v) ∧ (∀ v, v ∈ ig'.verbatim ↔ v ∈ ig.verbatim ∨ (v ∈ vs ∧ v.head? ≠ some 47)) ∧
        (∀ m, m ∈ ig'.regex ↔ m ∈ ig.regex ∨ ∃ r, bs "/" ++ r ++ bs "/" ∈ vs ∧ comp r = some m)
  | [], ig => by simp [setupIgnore]
  | s :: ss, ig => by
    rw [setupIgnore]
    by_cases h0 : s.length = 0
    · rw [if_pos h0]
      refine ⟨s, by simp, ?_⟩
      have : s = [] := List.length_eq_zero_iff.1 h0
      subst this
      rintro (⟨h, _⟩ | ⟨r, _, h, _⟩)
      · exact h rfl
      · simp [bs] at h
    · rw [if_neg h0]
      have hne : s ≠ [] := fun h => h0 (by rw [h]; rfl)
      by_cases h1 : s.head? = some 47
      · rw [if_pos h1]
        by_cases h2 : s.length < 3 ∨ s.getLast? ≠ some 47
        · rw [if_pos h2]
          refine ⟨s, by simp, ?_⟩
          rintro (⟨_, h⟩ | ⟨r, hr, h, _⟩)
          · exact h h1
          · subst h
            rcases h2 with h2 | h2
            · have : r.length ≠ 0 := fun h => hr (List.length_eq_zero_iff.1 h)
              simp [bs] at h2
              omega
            · refine h2 ?_
              show List.getLast? (_ ++ [47]) = _
              exact List.getLast?_concat
        · rw [if_neg h2]
          have h3 : 3 ≤ s.length := by omega
          have h4 : s.getLast? = some 47 := by
            by_cases h : s.getLast? = some 47
            · exact h
            · exact absurd (.inr h) h2
          obtain ⟨e, hr⟩ := between h3 h1 h4
          cases hc : comp ((s.drop 1).take (s.length - 2)) with
          | none =>
            refine ⟨s, by simp, ?_⟩
            rintro (⟨_, h⟩ | ⟨r, _, h, hs⟩)
            · exact h h1
            · rw [h, between_drop] at hc
              rw [hc] at hs
              simp at hs
          | some m =>
            have ih := setup_spec comp ss { ig with regex := ig.regex ++ [m] }
            simp only
            split at ih <;> rename_i hh
            · obtain ⟨v, hv, hn⟩ := ih
              exact ⟨v, by simp [hv], hn⟩
            · obtain ⟨i1, i2, i3⟩ := ih
              refine ⟨?_, ?_, ?_⟩
              · intro v hv
                rcases List.mem_cons.1 hv with rfl | hv
                · exact .inr ⟨_, hr, e, by rw [hc]; rfl⟩
                · exact i1 v hv
              · intro v
                rw [i2]
                constructor
                · rintro (h | ⟨h, k⟩)
                  · exact .inl h
                  · exact .inr ⟨by simp [h], k⟩
                · rintro (h | ⟨h, k⟩)
                  · exact .inl h
                  · rcases List.mem_cons.1 h with rfl | h
                    · exact absurd h1 k
                    · exact .inr ⟨h, k⟩
              · intro m'
                rw [i3]
                constructor
                · rintro (h | ⟨r, h, k⟩)
                  · rcases List.mem_append.1 h with h | h
                    · exact .inl h
                    · rw [List.mem_singleton.1 h]
                      exact .inr ⟨_, by rw [← e]; simp, hc⟩
                  · exact .inr ⟨r, List.mem_cons_of_mem _ h, k⟩
                · rintro (h | ⟨r, h, k⟩)
                  · exact .inl (by simp [h])
                  · rcases List.mem_cons.1 h with h | h
                    · rw [← h, between_drop, k] at hc
                      injection hc with hc
                      exact .inl (by simp [hc])
                    · exact .inr ⟨r, h, k⟩
      · rw [if_neg h1]
        have ih := setup_spec comp ss { ig with verbatim := ig.verbatim ++ [s] }
        split at ih <;> rename_i hh
        · obtain ⟨v, hv, hn⟩ := ih
          exact ⟨v, by simp [hv], hn⟩
        · obtain ⟨i1, i2, i3⟩ := ih
          refine ⟨?_, ?_, ?_⟩
          · intro v hv
            rcases List.mem_cons.1 hv with rfl | hv
            · exact .inl ⟨hne, h1⟩
            · exact i1 v hv
          · intro v
            rw [i2]
            constructor
            · rintro (h | ⟨h, k⟩)
              · rcases List.mem_append.1 h with h | h
                · exact .inl h
                · rw [List.mem_singleton.1 h]
                  exact .inr ⟨by simp, h1⟩
              · exact .inr ⟨by simp [h], k⟩
            · rintro (h | ⟨h, k⟩)
              · exact .inl (by simp [h])
              · rcases List.mem_cons.1 h with rfl | h
                · exact .inl (by simp)
                · exact .inr ⟨h, k⟩
          · intro m'
            rw [i3]
            constructor
            · rintro (h | ⟨r, h, k⟩)
              · exact .inl h
              · exact .inr ⟨r, List.mem_cons_of_mem _ h, k⟩
            · rintro (h | ⟨r, h, k⟩)
              · exact .inl h
              · rcases List.mem_cons.1 h with h | h
                · exact absurd (by rw [← h]; simp [bs]) h1
                · exact .inr ⟨r, h, k⟩

theorem dirString_eq (root : Str) : ∀ p : Path, dirString root p = root ++ (p.map (fun n => bs "/" ++ n)).flatten := by
  intro p
  unfold dirString
  induction p generalizing root with
  | nil => simp
  | cons a p ih => simp [ih]

theorem inter_cons (a : Str) : ∀ (l : List Str), l ≠ [] → List.intercalate (bs "/") (a :: l) = a ++ bs "/" ++ List.intercalate (bs "/") l
  | [], h => absurd rfl h
  | b :: l, _ => by simp [List.intercalate]

theorem joined_cons (a : Str) (p : Path) (n : Str) : joined (a :: p) n = a ++ bs "/" ++ joined p n := by
  rw [joined, joined, List.cons_append, inter_cons _ _ (by simp)]

theorem flat_joined (n : Str) : ∀ p : Path, (p.map (fun x => bs "/" ++ x)).flatten ++ bs "/" ++ n = bs "/" ++ joined p n
  | [] => by simp [joined, List.intercalate]
  | a :: p => by
    rw [joined_cons]
    have := flat_joined n p
    simp only [List.map_cons, List.flatten_cons, List.append_assoc] at *
    rw [this]

/-- The path that regular expressions are compared with. -/
theorem relativePath_spec (root : Str) (p : Path) (n : Str) (hp : ∀ a ∈ p, NameOk a) : relativePath root (dirString root p) n = some (joined p n) := by
  rw [dirString_eq, relativePath, if_neg (by simp), List.drop_left]
  cases p with
  | nil => simp [joined, List.intercalate]
  | cons a p =>
    have ha := hp a (by simp)
    have e : (List.map (fun n => bs "/" ++ n) (a :: p)).flatten = 47 :: (a ++ (p.map (fun n => bs "/" ++ n)).flatten) := by simp [bs]
    have hd : (47 :: (a ++ (p.map (fun n => bs "/" ++ n)).flatten)).dropWhile (· = 47) = a ++ (p.map (fun n => bs "/" ++ n)).flatten := by
      cases a with
      | nil => exact absurd rfl ha.1
      | cons c a =>
        have : c ≠ 47 := fun h => ha.2 (by simp [h])
        simp [this]
    rw [e, hd]
    cases a with
    | nil => exact absurd rfl ha.1
    | cons c a =>
      simp only [List.cons_append]
      rw [joined_cons]
      have := flat_joined n p
      simp only [List.cons_append, List.append_assoc, Option.some.injEq, List.cons.injEq, true_and] at this ⊢
      rw [this]

theorem ignored_spec {comp : Str → Option (Str → Bool)} {vs : List Str} {ig : Ignore} (h : setupIgnore comp vs ⟨[], []⟩ = some ig) (root : Str) (p : Path) (n : Str)
    (hp : ∀ a ∈ p, NameOk a) (hn : NameOk n) : ignoredBy ig root p n = true ↔ ∃ v ∈ vs, Hits comp v p n := by
  have hs := setup_spec comp vs ⟨[], []⟩
  rw [h] at hs
  obtain ⟨_, h2, h3⟩ := hs
  simp only [List.not_mem_nil, false_or] at h2 h3
  have key : ignoredBy ig root p n = true ↔ n ∈ ig.verbatim ∨ ∃ m ∈ ig.regex, m (joined p n) = true := by
    rw [ignoredBy, inIgnoreList]
    by_cases hv : n ∈ ig.verbatim
    · simp [hv]
    · have hv' : ¬ (ig.verbatim.any (fun v => decide (n = v)) = true) := by
        intro k
        obtain ⟨v, k1, k2⟩ := List.any_eq_true.1 k
        exact hv (of_decide_eq_true k2 ▸ k1)
      rw [if_neg hv']
      by_cases hr : ig.regex.length = 0
      · rw [if_pos hr]
        have : ig.regex = [] := List.length_eq_zero_iff.1 hr
        simp [this, hv]
      · rw [if_neg hr, relativePath_spec root p n hp]
        simp [hv]
  rw [key]
  constructor
  · rintro (k | ⟨m, k, hm⟩)
    · exact ⟨n, ((h2 n).1 k).1, .inl rfl⟩
    · obtain ⟨r, hr, hc⟩ := (h3 m).1 k
      exact ⟨_, hr, .inr ⟨r, m, rfl, hc, hm⟩⟩
  · rintro ⟨v, hv, rfl | ⟨r, m, rfl, hc, hm⟩⟩
    · refine .inl ((h2 v).2 ⟨hv, fun hh => ?_⟩)
      cases v with
      | nil => simp at hh
      | cons c v => simp at hh; exact hn.2 (by simp [hh])
    · exact .inr ⟨m, (h3 m).2 ⟨r, hv, hc⟩, hm⟩

/-! ## Counting -/

theorem tick_false {st : CSt} (h : (tick st).1 = false) : (tick st).2.count = st.count := by
  unfold tick at *
  split at h <;> simp_all

/-- SIGINT was seen. -/
def CFired (st : CSt) : Prop := st.intr = some 0

/-- The directories that are counted from `d` on. -/
inductive Under (E : Env) (d : Path) : Path → Prop
  | here : Under E d d
  | sub {p : Path} {n : Str} : Under E d p → Entry E p n → E.fs.kind (p ++ [n]) = .dir → Under E d (p ++ [n])

theorem under_root {E : Env} {p : Path} : Under E [] p ↔ CountedDir E p := by
  constructor
  · intro h
    induction h with
    | here => exact .root
    | sub _ h1 h2 ih => exact .sub ih h1 h2
  · intro h
    induction h with
    | root => exact .here
    | sub _ h1 h2 ih => exact .sub ih h1 h2

theorem Under.prefix {E : Env} {d p : Path} (h : Under E d p) : d <+: p := by
  induction h with
  | here => exact List.prefix_rfl
  | sub _ _ _ ih => exact ih.trans (List.prefix_append _ _)

theorem Under.down {E : Env} {d : Path} {n : Str} (h1 : Entry E d n) (h2 : E.fs.kind (d ++ [n]) = .dir) {p : Path} (h : Under E (d ++ [n]) p) : Under E d p := by
  induction h with
  | here => exact .sub .here h1 h2
  | sub _ k1 k2 ih => exact .sub ih k1 k2

theorem Under.cases_front {E : Env} {d p : Path} (h : Under E d p) : p = d ∨ ∃ n, Entry E d n ∧ E.fs.kind (d ++ [n]) = .dir ∧ Under E (d ++ [n]) p := by
  induction h with
  | here => exact .inl rfl
  | @sub p n _ k1 k2 ih =>
    rcases ih with rfl | ⟨m, m1, m2, m3⟩
    · exact .inr ⟨n, k1, k2, .here⟩
    · exact .inr ⟨m, m1, m2, .sub m3 k1 k2⟩

/-- A file that is counted from `d` on. -/
def UFile (E : Env) (d : Path) (x : Path × Str) : Prop := Under E d x.1 ∧ Entry E x.1 x.2 ∧ E.fs.kind (x.1 ++ [x.2]) = .file

/-- The files found from some entries of a directory. -/
def From (E : Env) (d : Path) (ns : List Str) (x : Path × Str) : Prop :=
  ∃ n ∈ ns, Entry E d n ∧ ((E.fs.kind (d ++ [n]) = .file ∧ x = (d, n)) ∨ (E.fs.kind (d ++ [n]) = .dir ∧ UFile E (d ++ [n]) x))

theorem from_all {E : Env} {d : Path} {ns : List Str} (h : ∀ n, n ∈ ns ↔ n ∈ E.fs.list d) (x : Path × Str) : From E d ns x ↔ UFile E d x := by
  constructor
  · rintro ⟨n, _, he, ⟨k, rfl⟩ | ⟨k, u1, u2, u3⟩⟩
    · exact ⟨.here, he, k⟩
    · exact ⟨.down he k u1, u2, u3⟩
  · rintro ⟨u1, u2, u3⟩
    rcases u1.cases_front with e | ⟨n, n1, n2, n3⟩
    · obtain ⟨p, n⟩ := x
      simp only at e u2 u3
      subst e
      exact ⟨n, (h n).2 u2.1.1, u2, .inl ⟨u3, rfl⟩⟩
    · exact ⟨n, (h n).2 n1.1.1, n1, .inr ⟨n2, n3, u2, u3⟩⟩

theorem append_cons_inj {d : Path} {a b : Str} {x : Path} (h1 : d ++ [a] <+: x) (h2 : d ++ [b] <+: x) : a = b := by
  obtain ⟨s, rfl⟩ := h1
  obtain ⟨t, ht⟩ := h2
  simp only [List.append_assoc, List.singleton_append] at ht
  have := List.append_cancel_left ht
  simp at this
  exact this.1.symm

theorem from_disjoint {E : Env} {d : Path} {n : Str} {ns : List Str} (hn : n ∉ ns) {x : Path × Str} (h1 : From E d [n] x) (h2 : From E d ns x) : False := by
  obtain ⟨a, ha, -, h1⟩ := h1
  rw [List.mem_singleton] at ha
  subst ha
  obtain ⟨b, hb, -, h2⟩ := h2
  have hne : b ≠ a := fun h => hn (h ▸ hb)
  rcases h1 with ⟨_, rfl⟩ | ⟨_, u⟩ <;> rcases h2 with ⟨_, e⟩ | ⟨_, w⟩
  · injection e with _ e; exact hne e.symm
  · have := w.1.prefix.length_le; simp at this; omega
  · subst e; have := u.1.prefix.length_le; simp at this; omega
  · exact hne (append_cons_inj w.1.prefix u.1.prefix)

theorem from_cons {E : Env} {d : Path} {n : Str} {ns : List Str} (x : Path × Str) : From E d (n :: ns) x ↔ From E d [n] x ∨ From E d ns x := by
  simp only [From, List.mem_cons, List.not_mem_nil, or_false]
  constructor
  · rintro ⟨m, rfl | hm, h⟩
    · exact .inl ⟨_, rfl, h⟩
    · exact .inr ⟨m, hm, h⟩
  · rintro (⟨m, rfl, h⟩ | ⟨m, hm, h⟩)
    · exact ⟨_, .inl rfl, h⟩
    · exact ⟨m, .inr hm, h⟩

theorem tick_cases (st : CSt) : ((tick st).1 = true ∧ (tick st).2 = st ∧ CFired st) ∨ ((tick st).1 = false ∧ (tick st).2.count = st.count) := by
  unfold tick CFired
  split <;> simp_all

theorem join_lists {A : Type} {P Q R : A → Prop} {L M : List A} (hL : L.Nodup) (hM : M.Nodup) (h1 : ∀ x, x ∈ L ↔ P x) (h2 : ∀ x, x ∈ M ↔ Q x)
    (hd : ∀ x, P x → Q x → False) (hR : ∀ x, R x ↔ P x ∨ Q x) : (L ++ M).Nodup ∧ ∀ x, x ∈ L ++ M ↔ R x := by
  refine ⟨List.nodup_append.2 ⟨hL, hM, ?_⟩, fun x => ?_⟩
  · rintro a ha b hb rfl
    exact hd a ((h1 a).1 ha) ((h2 a).1 hb)
  · rw [List.mem_append, h1, h2, hR]

theorem special_iff (n : Str) : New.special n = true ↔ n = bs "." ∨ n = bs ".." := by
  simp [New.special]

/-- Where the loop has counted. -/
theorem countLoop_spec {E : Env} {rec : Path → CSt → Option CSt} {d : Path}
    (hrec : ∀ n st st', rec (d ++ [n]) st = some st' → ¬ CFired st' → ∃ L : List (Path × Str), L.Nodup ∧ st'.count = st.count + L.length ∧ ∀ x, x ∈ L ↔ UFile E (d ++ [n]) x) :
    ∀ (ns : List Str), ns.Nodup → (∀ n ∈ ns, n ∈ E.fs.list d) → ∀ st st', countLoop rec E d ns st = some st' → ¬ CFired st' →
      ∃ L : List (Path × Str), L.Nodup ∧ st'.count = st.count + L.length ∧ ∀ x, x ∈ L ↔ From E d ns x
  | [], _, _, st, st', h, _ => by
    rw [countLoop] at h
    injection h with h
    subst h
    exact ⟨[], List.nodup_nil, rfl, fun x => by simp [From]⟩
  | n :: ns, hnd, hin, st, st', h, hf => by
    obtain ⟨hn, hnd⟩ := List.nodup_cons.1 hnd
    have hin' : ∀ m ∈ ns, m ∈ E.fs.list d := fun m hm => hin m (by simp [hm])
    have step : ∀ (P : List (Path × Str)) (st1 : CSt), P.Nodup → st1.count = st.count + P.length → (∀ x, x ∈ P ↔ From E d [n] x) →
        countLoop rec E d ns st1 = some st' → ∃ L : List (Path × Str), L.Nodup ∧ st'.count = st.count + L.length ∧ ∀ x, x ∈ L ↔ From E d (n :: ns) x := by
      intro P st1 hP hc hm hl
      obtain ⟨L, l1, l2, l3⟩ := countLoop_spec hrec ns hnd hin' st1 st' hl hf
      obtain ⟨j1, j2⟩ := join_lists hP l1 hm l3 (fun x a b => from_disjoint hn a b) (from_cons (n := n) (ns := ns))
      exact ⟨P ++ L, j1, by rw [l2, hc, List.length_append]; omega, j2⟩
    have none_of : (¬ Entry E d n ∨ (E.fs.kind (d ++ [n]) ≠ .file ∧ E.fs.kind (d ++ [n]) ≠ .dir)) → ∀ x, x ∈ ([] : List (Path × Str)) ↔ From E d [n] x := by
      intro hh x
      constructor
      · intro h; cases h
      · rintro ⟨m, hm, he, kk⟩
        rw [List.mem_singleton] at hm
        subst hm
        rcases hh with hh | ⟨h1, h2⟩
        · exact absurd he hh
        · rcases kk with ⟨h, _⟩ | ⟨h, _⟩
          · exact absurd h h1
          · exact absurd h h2
    rw [countLoop] at h
    rcases tick_cases st with ⟨t1, t2, t3⟩ | ⟨t1, t2⟩
    · rw [if_pos t1, t2] at h
      injection h with h
      subst h
      exact absurd t3 hf
    · rw [if_neg (by simp [t1])] at h
      split at h
      · rename_i hs
        refine step [] _ List.nodup_nil (by simpa using t2) (none_of (.inl ?_)) h
        rintro ⟨⟨_, e1, e2, _⟩, e3⟩
        rw [Bool.or_eq_true, special_iff, decide_eq_true_iff] at hs
        rcases hs with (hs | hs) | hs
        · exact e1 hs
        · exact e2 hs
        · exact e3 hs
      · rename_i hs
        rw [Bool.or_eq_true, special_iff, decide_eq_true_iff] at hs
        split at h
        · rename_i hi
          refine step [] _ List.nodup_nil (by simpa using t2) (none_of (.inl ?_)) h
          rintro ⟨⟨_, _, _, e⟩, _⟩
          rw [hi] at e
          cases e
        · rename_i hi
          have he : Entry E d n := ⟨⟨hin n (by simp), fun e => hs (.inl (.inl e)), fun e => hs (.inl (.inr e)), by simpa using hi⟩, fun e => hs (.inr e)⟩
          split at h
          · rename_i hk
            refine step [(d, n)] _ (by simp) (by simp [t2]) (fun x => ?_) h
            rw [List.mem_singleton]
            constructor
            · rintro rfl; exact ⟨n, by simp, he, .inl ⟨hk, rfl⟩⟩
            · rintro ⟨m, hm, _, ⟨_, e⟩ | ⟨e, _⟩⟩ <;> rw [List.mem_singleton] at hm <;> subst hm
              · exact e
              · rw [hk] at e; cases e
          · rename_i hk
            split at h
            · cases h
            · rename_i st1 hr
              have hf1 : ¬ CFired st1 := by
                intro hh
                cases ns with
                | nil =>
                  rw [countLoop] at h
                  injection h with h
                  exact hf (h ▸ hh)
                | cons m ms =>
                  rw [countLoop] at h
                  rcases tick_cases st1 with ⟨a, b, _⟩ | ⟨a, _⟩
                  · rw [if_pos a, b] at h
                    injection h with h
                    exact hf (h ▸ hh)
                  · unfold tick at a
                    rw [CFired] at hh
                    rw [hh] at a
                    cases a
              obtain ⟨P, p1, p2, p3⟩ := hrec n _ st1 hr hf1
              refine step P st1 p1 (by rw [p2, t2]) (fun x => ?_) h
              rw [p3]
              constructor
              · intro hu; exact ⟨n, by simp, he, .inr ⟨hk, hu⟩⟩
              · rintro ⟨m, hm, _, ⟨e, _⟩ | ⟨_, e⟩⟩ <;> rw [List.mem_singleton] at hm <;> subst hm
                · rw [hk] at e; cases e
                · exact e
          · rename_i h1 h2
            exact step [] _ List.nodup_nil (by simpa using t2) (none_of (.inr ⟨h1, h2⟩)) h

theorem countFiles_spec {E : Env} (hE : New.EnvOk E) : ∀ (fuel : Nat) (d : Path) (st st' : CSt), countFiles E fuel d st = some st' → ¬ CFired st' →
    ∃ L : List (Path × Str), L.Nodup ∧ st'.count = st.count + L.length ∧ ∀ x, x ∈ L ↔ UFile E d x
  | 0, _, _, _, h, _ => by cases h
  | fuel + 1, d, st, st', h, hf => by
    have hp := hE.inodePerm d (E.fs.list d)
    rw [countFiles] at h
    obtain ⟨L, l1, l2, l3⟩ := countLoop_spec (fun n a b k1 k2 => countFiles_spec hE fuel (d ++ [n]) a b k1 k2) _ (hp.nodup_iff.2 (hE.names d)) (fun n hn => hp.mem_iff.1 hn) st st' h hf
    exact ⟨L, l1, l2, fun x => (l3 x).trans (from_all (fun n => hp.mem_iff) x)⟩

end Notmuch.NewFront
