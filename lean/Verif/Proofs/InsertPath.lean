import Verif.Base.ListLemmas
import Verif.Proofs.Insert

namespace Notmuch.Insert

/-! ## Components -/

theorem components_cons (c : UInt8) (s : Str) : components (c :: s) = if c = 47 then [] :: components s else
    match components s with
    | [] => [[c]]
    | a :: l => (c :: a) :: l := rfl

theorem components_ne (s : Str) : ∃ a l, components s = a :: l := by
  cases s with
  | nil => exact ⟨_, _, rfl⟩
  | cons c s =>
    rw [components_cons]
    split
    · exact ⟨_, _, rfl⟩
    · split <;> exact ⟨_, _, rfl⟩

theorem components_noslash : ∀ (s : Str), (∀ c ∈ s, c ≠ 47) → components s = [s]
  | [], _ => rfl
  | c :: s, h => by rw [components_cons, if_neg (h c (by simp)), components_noslash s (fun d hd => h d (by simp [hd]))]

theorem components_append : ∀ (a b : Str), components (a ++ 47 :: b) = components a ++ components b
  | [], b => by rw [List.nil_append, components_cons, if_pos rfl]; rfl
  | c :: a, b => by
    rw [List.cons_append, components_cons, components_cons, components_append a b]
    split
    · rfl
    · obtain ⟨x, l, h⟩ := components_ne a
      rw [h]
      rfl

theorem split_slash (p : Str) : (p.dropWhile (· ≠ 47) = [] ∧ ∀ c ∈ p, c ≠ 47) ∨ ∃ r, p.dropWhile (· ≠ 47) = 47 :: r ∧ p = p.takeWhile (· ≠ 47) ++ 47 :: r := by
  have hs := List.takeWhile_append_dropWhile (p := (· ≠ (47 : UInt8))) (l := p)
  cases h : p.dropWhile (· ≠ 47) with
  | nil =>
    left
    refine ⟨rfl, ?_⟩
    rw [h, List.append_nil] at hs
    intro c hc
    rw [← hs] at hc
    simpa using takeWhile_all _ _ _ hc
  | cons d r =>
    right
    have hd : ¬ (d ≠ 47) := by
      have := List.head_dropWhile_not (p := (· ≠ (47 : UInt8))) (l := p) (by rw [h]; simp)
      simp only [h, List.head_cons] at this
      simpa using this
    have : d = 47 := Decidable.of_not_not hd
    subst this
    refine ⟨r, rfl, ?_⟩
    rw [h] at hs
    exact hs.symm

theorem take_dotdot {p r : Str} (hd : p = p.takeWhile (· ≠ 47) ++ 47 :: r) : (p = [46, 46] ∨ p.take 3 = [46, 46, 47]) ↔ p.takeWhile (· ≠ 47) = [46, 46] := by
  constructor
  · rintro (h | h)
    · rw [h]; decide
    · match p, h with
      | a :: b :: c :: s, h =>
        simp only [List.take_succ_cons, List.take_zero, List.cons.injEq, and_true] at h
        obtain ⟨rfl, rfl, rfl⟩ := h
        simp
      | [a, b], h => simp at h
      | [a], h => simp at h
      | [], h => simp at h
  · intro h
    right
    rw [hd, h]
    rfl

/-- The test of `is_valid_folder_name`. -/
theorem isValid_iff (p : Str) : isValidFolderName p = true ↔ [46, 46] ∉ components p := by
  rw [isValidFolderName]
  rcases split_slash p with ⟨h, hn⟩ | ⟨r, h, hp⟩
  · rw [components_noslash p hn]
    have h3 : p.take 3 ≠ [46, 46, 47] := fun e => by
      have : (47 : UInt8) ∈ p.take 3 := by rw [e]; simp
      exact hn 47 (List.mem_of_mem_take this) rfl
    by_cases he : p = [46, 46]
    · simp [he]
    · have : ¬ (p = [46, 46] ∨ p.take 3 = [46, 46, 47]) := fun x => x.elim he h3
      rw [if_neg this]
      split
      · simp [Ne.symm he]
      · rename_i h'
        rw [h] at h'
        cases h'
  · have hlen : r.length < p.length := by rw [hp, List.length_append, List.length_cons]; omega
    have ih := isValid_iff r
    have hc : components p = p.takeWhile (· ≠ 47) :: components r := by
      rw [hp, components_append, ← hp, components_noslash]
      · rfl
      · intro c hc
        simpa using takeWhile_all _ _ _ hc
    rw [hc]
    by_cases he : p.takeWhile (· ≠ 47) = [46, 46]
    · rw [if_pos ((take_dotdot hp).2 he), he]
      simp
    · rw [if_neg (fun x => he ((take_dotdot hp).1 x))]
      split
      · rename_i h'
        rw [h] at h'
        cases h'
      · rename_i h'
        rw [h] at h'
        cases h'
        rw [ih, List.mem_cons, not_or]
        exact ⟨fun x => ⟨Ne.symm he, x⟩, fun x => x.2⟩
termination_by p.length

/-! ## Walking -/

theorem walk_append : ∀ (a b cur : List Str), walk cur (a ++ b) = walk (walk cur a) b
  | [], _, _ => rfl
  | c :: a, b, cur => by
    rw [List.cons_append, walk, walk]
    split
    · exact walk_append a b cur
    · split
      · exact walk_append a b _
      · exact walk_append a b _

/-- Without `..` one stays below. -/
theorem walk_below : ∀ (cs cur : List Str), [46, 46] ∉ cs → ∃ rest, walk cur cs = cur ++ rest
  | [], cur, _ => ⟨[], by rw [List.append_nil]; rfl⟩
  | c :: cs, cur, h => by
    rw [List.mem_cons, not_or] at h
    rw [walk]
    split
    · exact walk_below cs cur h.2
    · rw [if_neg (Ne.symm h.1)]
      obtain ⟨rest, hr⟩ := walk_below cs (cur ++ [c]) h.2
      exact ⟨c :: rest, by rw [hr]; simp⟩

theorem resolve_slash (s : Str) : ∀ n, resolve (s ++ List.replicate n 47) = resolve s
  | 0 => by simp
  | n + 1 => by
    rw [List.replicate_succ', ← List.append_assoc, resolve, show s ++ List.replicate n 47 ++ [47] = (s ++ List.replicate n 47) ++ 47 :: [] from rfl, components_append, walk_append]
    exact resolve_slash s n

theorem stripTrailing_spec (s : Str) : ∃ n, s = StringUtil.stripTrailing s 47 ++ List.replicate n 47 := by
  refine ⟨(s.reverse.takeWhile (· == 47)).length, ?_⟩
  have h := List.takeWhile_append_dropWhile (p := (· == (47 : UInt8))) (l := s.reverse)
  have h2 := congrArg List.reverse h
  rw [List.reverse_append, List.reverse_reverse] at h2
  have h3 : (s.reverse.takeWhile (· == 47)).reverse = List.replicate (s.reverse.takeWhile (· == 47)).length 47 := by
    rw [List.eq_replicate_iff]
    refine ⟨by simp, fun b hb => ?_⟩
    simpa using takeWhile_all _ _ _ (List.mem_reverse.1 hb)
  rw [h3] at h2
  exact h2.symm

theorem resolve_maildir (root folder : Str) : resolve (maildirOf root folder) = walk (resolve root) (components folder) := by
  obtain ⟨n, hn⟩ := stripTrailing_spec (root ++ [47] ++ folder)
  rw [maildirOf, ← resolve_slash _ n, ← hn, resolve]
  rw [show root ++ [47] ++ folder = root ++ 47 :: folder by simp, components_append, walk_append]
  rfl

/-! ## Making folders -/

/-- `p` is `q` or a directory above it. -/
def Above (p q : Str) : Prop := p = q ∨ ∃ r, q = p ++ 47 :: r

theorem Above.trans {p q r : Str} (h : Above p q) (k : Above q r) : Above p r := by
  rcases h with rfl | ⟨x, rfl⟩
  · exact k
  · rcases k with rfl | ⟨y, rfl⟩
    · exact .inr ⟨x, rfl⟩
    · exact .inr ⟨x ++ 47 :: y, by simp⟩

theorem mkdirRec_spec : ∀ (fuel : Nat) (k : Str → Kind) (path : Str), path.length < fuel →
    match mkdirRec fuel k path with
    | none => ∃ p, Above p path ∧ k p = .other
    | some k' => k' path = .dir ∧ ∀ p, k' p = k p ∨ (k p = .absent ∧ k' p = .dir ∧ Above p path)
  | 0, _, _, h => absurd h (by omega)
  | fuel + 1, k, path, h => by
    rw [mkdirRec]
    cases hk : k path with
    | dir => exact ⟨hk, fun _ => .inl rfl⟩
    | other => exact ⟨path, .inl rfl, hk⟩
    | absent =>
      have done : ∀ k1 : Str → Kind, (∀ p, k1 p = k p ∨ (k p = .absent ∧ k1 p = .dir ∧ Above p path)) →
          (if path = path then Kind.dir else k1 path) = .dir ∧ ∀ p, (if p = path then Kind.dir else k1 p) = k p ∨ (k p = .absent ∧ (if p = path then Kind.dir else k1 p) = .dir ∧ Above p path) := by
        intro k1 h1
        refine ⟨if_pos rfl, fun p => ?_⟩
        by_cases hp : p = path
        · subst hp
          exact .inr ⟨hk, if_pos rfl, .inl rfl⟩
        · rw [if_neg hp]
          exact h1 p
      simp only
      cases hr : Maildir.rsplitSlash path with
      | none => exact done k (fun _ => .inl rfl)
      | some x =>
        obtain ⟨par, b⟩ := x
        cases par with
        | nil => exact done k (fun _ => .inl rfl)
        | cons c par =>
          have hs := (Maildir.rsplitSlash_some hr).1
          have hab : Above (c :: par) path := .inr ⟨b, hs⟩
          have ih := mkdirRec_spec fuel k (c :: par) (by rw [hs] at h; simp at h ⊢; omega)
          simp only
          cases hm : mkdirRec fuel k (c :: par) with
          | none =>
            rw [hm] at ih
            obtain ⟨p, hp, ho⟩ := ih
            exact ⟨p, hp.trans hab, ho⟩
          | some k1 =>
            rw [hm] at ih
            exact done k1 (fun p => (ih.2 p).imp id (fun ⟨a, b, c⟩ => ⟨a, b, c.trans hab⟩))

end Notmuch.Insert
