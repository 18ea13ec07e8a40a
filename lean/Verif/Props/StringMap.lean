import Verif.Proofs.StringMap

/-!
# C22: string maps behave like multimaps
-/

namespace Notmuch.Props
open Notmuch.StringMap Notmuch.StringMapSpec

theorem smGet_spec {qs : List Pair → List Pair} (hq : QSort cmppair qs) {m : Map} (hm : Inv m) (k : Str) :
    ∃ m' r, get qs m k = some (m', r) ∧ m' = sort qs m ∧
      (∀ v, r = some v → (k, v) ∈ m.pairs) ∧ (r = none → ∀ v, (k, v) ∉ m.pairs) ∧
      (∀ v, r = some v → ∃ i, m'.pairs[i]? = some (k, v) ∧
        ∀ (j : Nat) (q : Pair), j < i → m'.pairs[j]? = some q → stringCmp k q.1 true = .gt) := by
  obtain ⟨h1, h2, h3⟩ := sort_spec hq hm
  obtain ⟨c, hc, hn, hs⟩ := bsearchFirst_spec h1 k true
  unfold StringMap.get
  simp only [hc]
  cases c with
  | none =>
    refine ⟨_, none, rfl, rfl, by simp, ?_, by simp⟩
    intro _ v hv
    exact hn rfl (k, v) (h2.mem_iff.2 hv) (by simp [Matches])
  | some i =>
    obtain ⟨p, hp, hmt, hbefore⟩ := hs i rfl
    simp only [hp]
    have hpk : p.1 = k := by simpa [Matches] using hmt
    have hpe : (k, p.2) = p := by rw [← hpk]
    refine ⟨_, _, rfl, rfl, ?_, by simp, ?_⟩
    · intro v hv
      obtain rfl := Option.some.inj hv
      rw [hpe]
      exact h2.mem_iff.1 (List.mem_of_getElem? hp)
    · intro v hv
      obtain rfl := Option.some.inj hv
      exact ⟨i, by rw [hpe]; exact hp, hbefore⟩

theorem keySorted_set {l : List Pair} (h : KeySorted l) {i : Nat} {p : Pair} (hp : l[i]? = some p) (v : Str) :
    KeySorted (l.set i (p.1, v)) := by
  unfold KeySorted at *
  have : l.map (·.1) = (l.set i (p.1, v)).map (·.1) := by
    rw [List.map_set]
    obtain ⟨hi, rfl⟩ := List.getElem?_eq_some_iff.1 hp
    apply List.ext_getElem?
    intro j
    rw [List.getElem?_set]
    split
    · rename_i hij; subst hij; simp [hi]
    · rfl
  rw [← List.pairwise_map (f := fun p : Pair => p.1) (R := LexLe)] at *
  rwa [← this]

theorem smPerm_set {l : List Pair} {i : Nat} {p : Pair} (hp : l[i]? = some p) (q : Pair) :
    ∃ rest, l.Perm (p :: rest) ∧ (l.set i q).Perm (q :: rest) := by
  induction l generalizing i with
  | nil => simp at hp
  | cons a l ih =>
    cases i with
    | zero =>
      simp at hp; subst hp
      exact ⟨l, .refl _, .refl _⟩
    | succ i =>
      simp at hp
      obtain ⟨rest, h1, h2⟩ := ih hp
      refine ⟨a :: rest, (h1.cons a).trans (.swap _ _ _), ?_⟩
      rw [List.set_cons_succ]
      exact (h2.cons a).trans (.swap _ _ _)

theorem smSet_spec {qs : List Pair → List Pair} (hq : QSort cmppair qs) {m : Map} (hm : Inv m) (k v : Str) :
    ∃ m', set qs m k v = some m' ∧ Inv m' ∧
      ((∀ w, (k, w) ∉ m.pairs) ∧ m'.pairs.Perm ((k, v) :: m.pairs) ∨
       ∃ w rest, m.pairs.Perm ((k, w) :: rest) ∧ m'.pairs.Perm ((k, v) :: rest)) := by
  obtain ⟨h1, h2, h3⟩ := sort_spec hq hm
  obtain ⟨c, hc, hn, hs⟩ := bsearchFirst_spec h1 k true
  unfold StringMap.set
  simp only [hc]
  cases c with
  | none =>
    refine ⟨_, rfl, by simp [StringMap.Inv, append], Or.inl ⟨?_, ?_⟩⟩
    · intro w hw
      exact hn rfl (k, w) (h2.mem_iff.2 hw) (by simp [Matches])
    · simp only [append]
      exact (List.perm_append_comm.trans (.refl _)).trans (h2.cons _)
  | some i =>
    obtain ⟨p, hp, hmt, _⟩ := hs i rfl
    have hpk : p.1 = k := by simpa [Matches] using hmt
    simp only [hp]
    refine ⟨_, rfl, fun _ => keySorted_set h1 hp v, Or.inr ?_⟩
    obtain ⟨rest, h4, h5⟩ := smPerm_set hp (p.1, v)
    refine ⟨p.2, rest, ?_, ?_⟩
    · rw [← hpk]; exact h2.symm.trans h4
    · rw [← hpk]; exact h5

theorem smInv_step {qs : List Pair → List Pair} (hq : QSort cmppair qs) {m : Map} (hm : Inv m) (o : Op) :
    ∃ m', step qs m o = some m' ∧ Inv m' := by
  cases o with
  | append k v => exact ⟨_, rfl, by simp [StringMap.Inv, append]⟩
  | set k v => obtain ⟨m', h1, h2, _⟩ := smSet_spec hq hm k v; exact ⟨m', h1, h2⟩
  | get k =>
    obtain ⟨m', r, h1, h2, _⟩ := smGet_spec hq hm k
    refine ⟨m', by simp [step, h1], ?_⟩
    rw [h2]; exact (sort_spec hq hm).2.2
  | iterate k e =>
    obtain ⟨h1, h2, h3⟩ := sort_spec hq hm
    obtain ⟨c, hc, _⟩ := bsearchFirst_spec h1 k e
    exact ⟨sort qs m, by simp [step, iterCreate, hc], h3⟩

theorem smInv_run {qs : List Pair → List Pair} (hq : QSort cmppair qs) : ∀ (ops : List Op) (m : Map), Inv m →
    ∃ m', run qs m ops = some m' ∧ Inv m'
  | [], m, hm => ⟨m, rfl, hm⟩
  | o :: os, m, hm => by
    obtain ⟨m1, h1, h2⟩ := smInv_step hq hm o
    rw [run, h1]
    exact smInv_run hq os m1 h2

theorem smInv_create : Inv create := fun _ => .nil

/-- Every map a history produces satisfies the invariant. -/
theorem smInv_of_run {qs : List Pair → List Pair} (hq : QSort cmppair qs) {ops : List Op} {m : Map}
    (h : run qs create ops = some m) : Inv m := by
  obtain ⟨m', h1, h2⟩ := smInv_run hq ops create smInv_create
  rw [h] at h1
  rw [Option.some.inj h1]; exact h2

/-- C22: no history makes the binary search loop or read outside the array. -/
theorem C22_no_bad_access (qs : List Pair → List Pair) (hq : QSort cmppair qs) (ops : List Op) :
    ∃ m, run qs create ops = some m := by
  obtain ⟨m', h1, _⟩ := smInv_run hq ops create smInv_create
  exact ⟨m', h1⟩

/-- C22: looking up a key gives a value stored under exactly that key, and NULL just when there is none; the
contents stay the same. -/
theorem C22_get (qs : List Pair → List Pair) (hq : QSort cmppair qs) (ops : List Op) (m : Map)
    (h : run qs create ops = some m) (key : Str) :
    ∃ m' r, get qs m key = some (m', r) ∧ m'.pairs.Perm m.pairs ∧
      (∀ v, r = some v → (key, v) ∈ m.pairs) ∧ (r = none ↔ ∀ v, (key, v) ∉ m.pairs) := by
  have hm := smInv_of_run hq h
  obtain ⟨m', r, h1, h2, h3, h4, _⟩ := smGet_spec hq hm key
  refine ⟨m', r, h1, by rw [h2]; exact (sort_spec hq hm).2.1, h3, h4, ?_⟩
  intro hn
  cases r with
  | none => rfl
  | some v => exact absurd (h3 v rfl) (hn v)

/-- C22: iterating shows exactly the pairs with a matching key, each as often as it is stored, in the order of
the keys; further steps show nothing more. -/
theorem C22_iterate (qs : List Pair → List Pair) (hq : QSort cmppair qs) (ops : List Op) (m : Map)
    (h : run qs create ops = some m) (key : Str) (exact : Bool) :
    ∃ m' it, iterCreate qs m key exact = some (m', it) ∧ m'.pairs.Perm m.pairs ∧
      ∃ shown, (∀ n ≥ m.pairs.length, walk m' n it = shown) ∧
        (shown.Pairwise (fun p q => LexLe p.1 q.1)) ∧
        (∀ p, shown.count p = open scoped Classical in if Matches key exact p.1 then m.pairs.count p else 0) := by
  have hm := smInv_of_run hq h
  obtain ⟨h1, h2, h3⟩ := sort_spec hq hm
  obtain ⟨c, hc, hn, hs⟩ := bsearchFirst_spec h1 key exact
  refine ⟨sort qs m, ⟨c, exact, key⟩, by simp [iterCreate, hc], h2,
    (sort qs m).pairs.filter (fun p => stringCmp key p.1 exact = .eq), ?_, h1.filter _, ?_⟩
  · intro n hnl
    cases c with
    | none =>
      rw [List.filter_eq_nil_iff.2]
      · cases n <;> simp [walk, iterPair, iterValid]
      · intro p hp
        have := hn rfl p hp
        rw [← stringCmp_eq] at this
        simpa using this
    | some i =>
      obtain ⟨p, hp, hmt, hb⟩ := hs i rfl
      rw [walk_eq _ _ _ n i (by rw [h2.length_eq]; omega), filter_from_first h1 key exact i hb]
      intro p' hp'
      rw [hp] at hp'
      rw [← Option.some.inj hp', stringCmp_eq]
      exact hmt
  · intro p
    rw [← h2.count_eq]
    by_cases hp : Matches key exact p.1
    · rw [if_pos hp, List.count_filter (by simpa using (stringCmp_eq key p.1 exact).2 hp)]
    · rw [if_neg hp, List.count_eq_zero]
      intro hmem
      rw [List.mem_filter] at hmem
      exact hp ((stringCmp_eq _ _ _).1 (by simpa using hmem.2))

/-- C22: right after something was appended, the iteration is also in the order of the values of each key. -/
theorem C22_iterate_ordered (qs : List Pair → List Pair) (hq : QSort cmppair qs) (ops : List Op) (k v : Str) (m : Map)
    (h : run qs create (ops ++ [.append k v]) = some m) (key : Str) (exact : Bool) (m' : Map) (it : Iter)
    (hi : iterCreate qs m key exact = some (m', it)) (n : Nat) :
    (walk m' n it).Pairwise PairLe := by
  have hm := smInv_of_run hq h
  obtain ⟨h1, h2, h3⟩ := sort_spec hq hm
  obtain ⟨c, hc, hn, hs⟩ := bsearchFirst_spec h1 key exact
  have hm' : m' = sort qs m ∧ it = ⟨c, exact, key⟩ := by
    simp [iterCreate, hc] at hi
    exact ⟨hi.1.symm, hi.2.symm⟩
  obtain ⟨rfl, rfl⟩ := hm'
  -- the map is unsorted
  have hrun : ∀ (ops : List Op) (m0 m : Map), run qs m0 (ops ++ [.append k v]) = some m → m.sorted = false ∧ m.pairs ≠ [] := by
    intro ops
    induction ops with
    | nil => intro m0 m h; simp [run, step, append] at h; subst h; simp
    | cons o os ih =>
      intro m0 m h
      rw [List.cons_append, run] at h
      cases hst : step qs m0 o with
      | none => rw [hst] at h; simp at h
      | some m1 => rw [hst] at h; exact ih m1 m h
  obtain ⟨hun, hne⟩ := hrun ops create m h
  have hsp : (sort qs m).pairs.Pairwise PairLe := by
    have : sort qs m = ⟨true, qs m.pairs⟩ := by
      unfold sort
      rw [if_neg (by simpa using hne), if_neg (by simp [hun])]
    rw [this]
    exact (hq.sorted m.pairs).imp cmppair_le
  cases c with
  | none => cases n <;> simp [walk, iterPair, iterValid]
  | some i =>
    have hgen : ∀ n i, (walk (sort qs m) n ⟨some i, exact, key⟩).Sublist ((sort qs m).pairs.drop i) := by
      intro n
      induction n with
      | zero => intro i; simp [walk]
      | succ n ih =>
        intro i
        rw [walk]
        cases hip : iterPair (sort qs m) ⟨some i, exact, key⟩ with
        | none => simp
        | some p =>
          simp only
          have hv : iterValid (sort qs m) ⟨some i, exact, key⟩ = true := by
            unfold iterPair at hip
            split at hip
            · assumption
            · simp at hip
          simp only [iterPair, hv, if_true] at hip
          simp only [iterNext, hv, if_true, Option.map_some]
          obtain ⟨hil, rfl⟩ := List.getElem?_eq_some_iff.1 hip
          rw [List.drop_eq_getElem_cons hil]
          exact (ih (i + 1)).cons_cons _
    exact (hsp.drop (i := i)).sublist (hgen n i)

/-- C22: setting a key that has no value adds the pair; setting one that has values replaces one of them.
Nothing else changes. -/
theorem C22_set (qs : List Pair → List Pair) (hq : QSort cmppair qs) (ops : List Op) (m : Map)
    (h : run qs create ops = some m) (key val : Str) :
    ∃ m', set qs m key val = some m' ∧
      ((∀ w, (key, w) ∉ m.pairs) ∧ m'.pairs.Perm ((key, val) :: m.pairs) ∨
       ∃ w rest, m.pairs.Perm ((key, w) :: rest) ∧ m'.pairs.Perm ((key, val) :: rest)) := by
  obtain ⟨m', h1, _, h2⟩ := smSet_spec hq (smInv_of_run hq h) key val
  exact ⟨m', h1, h2⟩

/-- C22: a value that was set is what the next lookup gives. -/
theorem C22_set_get (qs : List Pair → List Pair) (hq : QSort cmppair qs) (ops : List Op) (m : Map)
    (h : run qs create ops = some m) (key val : Str) :
    ∃ m' m'', set qs m key val = some m' ∧ get qs m' key = some (m'', some val) := by
  have hm := smInv_of_run hq h
  obtain ⟨m', hset, hinv, _⟩ := smSet_spec hq hm key val
  obtain ⟨m'', r, hg, hm'', hin, hnone, hfirst⟩ := smGet_spec hq hinv key
  refine ⟨m', m'', hset, ?_⟩
  rw [hg]
  obtain ⟨h1, h2, h3⟩ := sort_spec hq hm
  obtain ⟨c, hc, hn, hs⟩ := bsearchFirst_spec h1 key true
  unfold StringMap.set at hset
  simp only [hc] at hset
  cases c with
  | none =>
    simp only [Option.some.injEq] at hset
    subst hset
    simp only [append] at hin hnone
    cases r with
    | none => exact absurd (by simp) (hnone rfl val)
    | some v =>
      have := hin v rfl
      rw [List.mem_append] at this
      rcases this with h4 | h4
      · exact absurd (by simp [Matches]) (hn rfl _ h4)
      · have : v = val := by simpa using h4
        rw [this]
  | some i =>
    obtain ⟨p, hp, hmt, hb⟩ := hs i rfl
    have hpk : p.1 = key := by simpa [Matches] using hmt
    simp only [hp, Option.some.injEq] at hset
    have hil : i < (sort qs m).pairs.length := (List.getElem?_eq_some_iff.1 hp).1
    have hsorted : (sort qs m).sorted = true := by
      unfold sort
      split
      · rename_i h0
        unfold sort at hil
        rw [if_pos h0] at hil
        omega
      · split
        · assumption
        · rfl
    have hss : sort qs m' = m' := by
      rw [← hset, hsorted]
      generalize (sort qs m).pairs.set i (p.1, val) = l
      unfold sort
      split <;> simp
    rw [hss] at hm''
    subst hm''
    have hmi : m''.pairs[i]? = some (key, val) := by
      rw [← hset]; simp [hil, hpk]
    cases r with
    | none => exact absurd (List.mem_of_getElem? hmi) (hnone rfl val)
    | some v =>
      obtain ⟨i', hi', hb'⟩ := hfirst v rfl
      have : i' = i := by
        rcases Nat.lt_trichotomy i' i with hlt | heq | hgt
        · have h6 : (sort qs m).pairs[i']? = some (key, v) := by
            rw [← hset] at hi'
            simpa [List.getElem?_set, Nat.ne_of_gt hlt] using hi'
          have := hb i' _ hlt h6
          rw [(stringCmp_eq key key true).2 (by simp [Matches])] at this
          simp at this
        · exact heq
        · have := hb' i _ hgt hmi
          rw [(stringCmp_eq key key true).2 (by simp [Matches])] at this
          simp at this
      subst this
      rw [hmi] at hi'
      simp at hi'
      rw [hi']

/-- C22: setting a key does not change what a lookup of another key gives, if that has at most one value. -/
theorem C22_set_other (qs : List Pair → List Pair) (hq : QSort cmppair qs) (ops : List Op) (m : Map)
    (h : run qs create ops = some m) (key val : Str) (other : Str) (hne : other ≠ key)
    (hone : ∀ v w, (other, v) ∈ m.pairs → (other, w) ∈ m.pairs → v = w) :
    ∃ m' a b r, set qs m key val = some m' ∧ get qs m other = some (a, r) ∧ get qs m' other = some (b, r) := by
  have hm := smInv_of_run hq h
  obtain ⟨m', hset, hinv, hcont⟩ := smSet_spec hq hm key val
  obtain ⟨a, r, hg, _, hin, hnone, _⟩ := smGet_spec hq hm other
  obtain ⟨b, r', hg', _, hin', hnone', _⟩ := smGet_spec hq hinv other
  have hmem : ∀ v, (other, v) ∈ m'.pairs ↔ (other, v) ∈ m.pairs := by
    intro v
    rcases hcont with ⟨_, hp⟩ | ⟨w, rest, hp1, hp2⟩
    · rw [hp.mem_iff]; simp [hne]
    · rw [hp2.mem_iff, hp1.mem_iff]; simp [hne]
  refine ⟨m', a, b, r, hset, hg, ?_⟩
  rw [hg']
  congr 2
  cases r with
  | none =>
    cases r' with
    | none => rfl
    | some v => exact absurd ((hmem v).1 (hin' v rfl)) (hnone rfl v)
  | some w =>
    cases r' with
    | none => exact absurd ((hmem w).2 (hin w rfl)) (hnone' rfl w)
    | some v => rw [hone v w ((hmem v).1 (hin' v rfl)) (hin w rfl)]

/-- C22: in a history without `append`, a lookup gives the value last set. -/
theorem C22_last_set (qs : List Pair → List Pair) (hq : QSort cmppair qs) (ops : List Op)
    (hna : ∀ k v, Op.append k v ∉ ops) (key : Str) :
    ∃ m m', run qs create ops = some m ∧ get qs m key = some (m', lastSet ops key) := by
  suffices H : ∀ (ops : List Op) (m : Map) (f : Str → Option Str), (∀ k v, Op.append k v ∉ ops) → Inv m →
      (∀ k v, (k, v) ∈ m.pairs ↔ f k = some v) → (m.pairs.map (·.1)).Nodup →
      ∃ m', run qs m ops = some m' ∧ Inv m' ∧ (∀ k v, (k, v) ∈ m'.pairs ↔ ops.foldl update f k = some v) by
    obtain ⟨m, h1, h2, h3⟩ := H ops create (fun _ => none) hna smInv_create (by simp [create]) (by simp [create])
    obtain ⟨m', r, hg, _, hin, hnone, _⟩ := smGet_spec hq h2 key
    refine ⟨m, m', h1, ?_⟩
    rw [hg]
    congr 2
    unfold lastSet
    cases r with
    | some v => exact ((h3 key v).1 (hin v rfl)).symm
    | none =>
      cases hf : ops.foldl update (fun _ => none) key with
      | none => rfl
      | some v => exact absurd ((h3 key v).2 hf) (hnone rfl v)
  clear hna ops
  intro ops
  induction ops with
  | nil => intro m f _ hm hf _; exact ⟨m, rfl, hm, hf⟩
  | cons o os ih =>
    intro m f hna hm hf hnd
    have hna' : ∀ k v, Op.append k v ∉ os := fun k v hh => hna k v (by simp [hh])
    have same : ∀ m1, step qs m o = some m1 → m1.pairs.Perm m.pairs → update f o = f → Inv m1 →
        ∃ m', run qs m (o :: os) = some m' ∧ Inv m' ∧ (∀ k v, (k, v) ∈ m'.pairs ↔ (o :: os).foldl update f k = some v) := by
      intro m1 h1 hp hu hi1
      rw [run, h1, List.foldl_cons, hu]
      exact ih m1 f hna' hi1 (fun k v => by rw [hp.mem_iff]; exact hf k v) ((hp.map _).nodup_iff.2 hnd)
    cases o with
    | append k v => exact absurd (by simp) (hna k v)
    | get k =>
      obtain ⟨m', r, h1, h2, _⟩ := smGet_spec hq hm k
      exact same m' (by simp [step, h1]) (by rw [h2]; exact (sort_spec hq hm).2.1) rfl (by rw [h2]; exact (sort_spec hq hm).2.2)
    | iterate k e =>
      obtain ⟨h1, h2, h3⟩ := sort_spec hq hm
      obtain ⟨c, hc, _⟩ := bsearchFirst_spec h1 k e
      exact same (sort qs m) (by simp [step, iterCreate, hc]) h2 rfl h3
    | set k v =>
      obtain ⟨m1, h1, h2, h3⟩ := smSet_spec hq hm k v
      have hrun : run qs m (Op.set k v :: os) = run qs m1 os := by rw [run, step, h1]; rfl
      rw [hrun]
      apply ih m1 _ hna' h2
      · intro k' v'
        simp only [update]
        rcases h3 with ⟨habs, hp⟩ | ⟨w, rest, hp1, hp2⟩
        · rw [hp.mem_iff]
          by_cases hk : k' = k
          · subst hk
            simp only [List.mem_cons, Prod.mk.injEq, true_and, if_true, Option.some.injEq]
            constructor
            · rintro (h | h)
              · exact h.symm
              · exact absurd h (habs _)
            · rintro rfl; simp
          · simp [hk, hf]
        · rw [hp2.mem_iff]
          have hnd2 := (hp1.map (·.1)).nodup_iff.1 hnd
          rw [List.map_cons, List.nodup_cons] at hnd2
          by_cases hk : k' = k
          · subst hk
            simp only [List.mem_cons, Prod.mk.injEq, true_and, if_true, Option.some.injEq]
            constructor
            · rintro (h | h)
              · exact h.symm
              · exact absurd (List.mem_map_of_mem (f := fun p : Pair => p.1) h) hnd2.1
            · rintro rfl; simp
          · rw [if_neg hk, ← hf, hp1.mem_iff]
            simp [hk]
      · rcases h3 with ⟨habs, hp⟩ | ⟨w, rest, hp1, hp2⟩
        · rw [(hp.map _).nodup_iff, List.map_cons, List.nodup_cons]
          refine ⟨?_, hnd⟩
          intro hmem
          obtain ⟨p, hp, hpe⟩ := List.mem_map.1 hmem
          exact habs p.2 (by have e : p.1 = k := hpe; rw [← e]; exact hp)
        · rw [(hp2.map _).nodup_iff]
          exact (hp1.map (·.1)).nodup_iff.1 hnd

/-- `qsort` for the examples: insertion. -/
def exInsert (p : Pair) : List Pair → List Pair
  | [] => [p]
  | q :: l => if cmppair p q = .gt then q :: exInsert p l else p :: q :: l

def exSort : List Pair → List Pair
  | [] => []
  | p :: l => exInsert p (exSort l)

/-- If a key has several values, setting another key can change which of them a lookup gives: adding a pair
sorts the array again. -/
theorem C22_set_other_counterexample :
    ∃ ops m m' a b, run exSort create ops = some m ∧ set exSort m (bs "b") (bs "x") = some m' ∧
      get exSort m (bs "a") = some (a, some (bs "9")) ∧ get exSort m' (bs "a") = some (b, some (bs "2")) :=
  ⟨[.append (bs "a") (bs "1"), .append (bs "a") (bs "2"), .set (bs "a") (bs "9")],
    ⟨true, [(bs "a", bs "9"), (bs "a", bs "2")]⟩, ⟨false, [(bs "a", bs "9"), (bs "a", bs "2"), (bs "b", bs "x")]⟩,
    ⟨true, [(bs "a", bs "9"), (bs "a", bs "2")]⟩, ⟨true, [(bs "a", bs "2"), (bs "a", bs "9"), (bs "b", bs "x")]⟩,
    rfl, rfl, rfl, rfl⟩

theorem exInsert_perm (p : Pair) : ∀ l, (exInsert p l).Perm (p :: l)
  | [] => .refl _
  | q :: l => by
    rw [exInsert]
    split
    · exact ((exInsert_perm p l).cons q).trans (.swap _ _ _)
    · exact .refl _

theorem cmppair_iff (p q : Pair) : cmppair p q ≠ .gt ↔ PairLe p q := by
  refine ⟨cmppair_le, fun h hg => ?_⟩
  unfold cmppair at hg
  rcases h with ⟨h1, h2⟩ | ⟨h1, h2⟩
  · cases hc : strcmp p.1 q.1 with
    | lt => rw [hc] at hg; simp at hg
    | eq => exact h1 ((strcmp_eq _ _).1 hc).symm
    | gt => exact (strcmp_gt _ _).1 hc h2
  · rw [(strcmp_eq _ _).2 h1.symm] at hg
    exact (strcmp_gt _ _).1 hg h2

theorem pairLe_trans {p q r : Pair} (h : PairLe p q) (h' : PairLe q r) : PairLe p r := by
  rcases h with ⟨h1, h2⟩ | ⟨h1, h2⟩ <;> rcases h' with ⟨h3, h4⟩ | ⟨h3, h4⟩
  · refine Or.inl ⟨fun e => ?_, lexLe_trans _ _ _ h2 h4⟩
    rw [e] at h2
    exact h3 (lexLe_antisymm _ _ h4 h2)
  · exact Or.inl ⟨by rw [← h3]; exact h1, by rw [← h3]; exact h2⟩
  · exact Or.inl ⟨by rw [h1]; exact h3, by rw [h1]; exact h4⟩
  · exact Or.inr ⟨h1.trans h3, lexLe_trans _ _ _ h2 h4⟩

theorem exInsert_sorted (p : Pair) : ∀ l, l.Pairwise PairLe → (exInsert p l).Pairwise PairLe
  | [], _ => by simp [exInsert]
  | q :: l, h => by
    rw [List.pairwise_cons] at h
    rw [exInsert]
    split
    · rename_i hg
      rw [List.pairwise_cons]
      refine ⟨fun r hr => ?_, exInsert_sorted p l h.2⟩
      rw [(exInsert_perm p l).mem_iff, List.mem_cons] at hr
      rcases hr with rfl | hr
      · refine (cmppair_iff _ _).1 fun hg' => ?_
        have a := (not_congr (cmppair_iff r q)).1 (by simpa using hg)
        have b := (not_congr (cmppair_iff q r)).1 (by simpa using hg')
        unfold PairLe at a b
        rcases lexLe_total q.1 r.1 with t | t <;> rcases lexLe_total q.2 r.2 with t' | t' <;>
          by_cases e : q.1 = r.1 <;> simp_all [eq_comm]
      · exact h.1 r hr
    · rename_i hg
      have hpq := (cmppair_iff p q).1 hg
      rw [List.pairwise_cons]
      refine ⟨fun r hr => ?_, List.pairwise_cons.2 h⟩
      rcases List.mem_cons.1 hr with rfl | hr
      · exact hpq
      · exact pairLe_trans hpq (h.1 r hr)

/-- The hypothesis on `qsort` can be met. -/
theorem exSort_qsort : QSort cmppair exSort where
  perm := by
    intro l
    induction l with
    | nil => exact .refl _
    | cons p l ih => exact (exInsert_perm p _).trans (ih.cons p)
  sorted := by
    intro l
    have : (exSort l).Pairwise PairLe := by
      induction l with
      | nil => exact .nil
      | cons p l ih => exact exInsert_sorted p _ ih
    exact this.imp (fun h => (cmppair_iff _ _).2 h)

/-- A history: prefix iteration over a map with several keys. -/
def exOps : List Op :=
  [.append (bs "user.name") (bs "me"), .set (bs "search.x") (bs "1"), .get (bs "user.name"), .append (bs "user.mail") (bs "b"),
    .append (bs "user.mail") (bs "a")]

example : ((run exSort create exOps).bind (iterCreate exSort · (bs "user.") false)).map (fun p => walk p.1 9 p.2) =
    some [(bs "user.mail", bs "a"), (bs "user.mail", bs "b"), (bs "user.name", bs "me")] := by rfl

end Notmuch.Props
