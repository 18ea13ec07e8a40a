import Verif.Proofs.Compat2

/-! # strsep and getdelim -/

namespace Notmuch.Compat

/-! ## strsep -/

theorem search_none (f : UInt8 → Bool) : ∀ (s post : Str) (i : Nat), 0 ∉ s → (∀ c ∈ s, f c = false) → search f (s ++ 0 :: post) i = none
  | [], _, _, _, _ => by simp [search]
  | c :: s, post, i, h0, hf => by
    simp only [List.mem_cons, not_or] at h0
    rw [List.cons_append, search, if_neg (fun e => h0.1 e.symm), if_neg (by simp [hf c (by simp)])]
    exact search_none f s post (i + 1) h0.2 (fun c hc => hf c (by simp [hc]))

theorem search_some (f : UInt8 → Bool) : ∀ (t : Str) (c : UInt8) (r : Str) (i : Nat), 0 ∉ t → (∀ c ∈ t, f c = false) → c ≠ 0 → f c = true →
    search f (t ++ c :: r) i = some (i + t.length)
  | [], c, r, i, _, _, h0, hf => by simp [search, h0, hf]
  | a :: t, c, r, i, h0, hn, hc, hf => by
    simp only [List.mem_cons, not_or] at h0
    rw [List.cons_append, search, if_neg (fun e => h0.1 e.symm), if_neg (by simp [hn a (by simp)])]
    rw [search_some f t c r (i + 1) h0.2 (fun c hc => hn c (by simp [hc])) hc hf]
    simp only [List.length_cons]; congr 1; omega

theorem drop_pre (pre s : Str) : (pre ++ s).drop pre.length = s := by simp

theorem strsep_last {pre s post delim : Str} (h0 : 0 ∉ s) (hd : 0 ∉ delim) (hn : ∀ c ∈ s, c ∉ delim) :
    strsep (pre ++ (s ++ 0 :: post)) (some pre.length) delim = (some pre.length, pre ++ (s ++ 0 :: post), none) := by
  have key : ∀ (e : Option Nat), e = none → (match e with
      | some e => (some pre.length, (pre ++ (s ++ 0 :: post)).set e 0, some (e + 1))
      | none => (some pre.length, pre ++ (s ++ 0 :: post), none)) = (some pre.length, pre ++ (s ++ 0 :: post), none) := by
    rintro _ rfl; rfl
  unfold strsep
  simp only
  refine key _ ?_
  have hx : (pre ++ (s ++ 0 :: post))[pre.length]? = (s ++ 0 :: post)[0]? := by simp [List.getElem?_append_right]
  have hdr : (pre ++ (s ++ 0 :: post)).drop (pre.length + 1) = (s ++ 0 :: post).drop 1 := by
    rw [← List.drop_drop, drop_pre]
  match delim, hd, hn with
  | [], _, _ => rfl
  | [ch], hd, hn =>
    simp only [List.mem_singleton] at hd hn
    simp only [hx, hdr]
    cases s with
    | nil => simp [show ¬ (0 : UInt8) = ch from hd]
    | cons a s =>
      simp only [List.mem_cons, not_or] at h0
      have ha : a ≠ ch := hn a (by simp)
      simp only [List.cons_append, List.getElem?_cons_zero, Option.some.injEq, List.drop_succ_cons, List.drop_zero]
      rw [if_neg ha, if_neg (fun e => h0.1 e.symm)]
      exact search_none _ _ _ _ h0.2 (fun c hc => by simpa using hn c (by simp [hc]))
  | d :: d' :: ds, hd, hn =>
    simp only [drop_pre]
    exact search_none _ _ _ _ h0 (fun c hc => by simpa using hn c hc)

theorem set_mid (pre t : Str) (c : UInt8) (r : Str) : (pre ++ (t ++ c :: r)).set (pre.length + t.length) 0 = pre ++ (t ++ 0 :: r) := by
  rw [List.set_append_right _ _ (by omega), List.set_append_right _ _ (by omega)]
  simp

theorem strsep_next {pre t r post delim : Str} {c : UInt8} (h0 : 0 ∉ t) (hc : c ≠ 0) (hd : 0 ∉ delim) (hn : ∀ c ∈ t, c ∉ delim) (hcd : c ∈ delim) :
    strsep (pre ++ (t ++ c :: (r ++ 0 :: post))) (some pre.length) delim = (some pre.length, pre ++ (t ++ 0 :: (r ++ 0 :: post)), some (pre.length + t.length + 1)) := by
  have key : ∀ (e : Option Nat), e = some (pre.length + t.length) → (match e with
      | some e => (some pre.length, (pre ++ (t ++ c :: (r ++ 0 :: post))).set e 0, some (e + 1))
      | none => (some pre.length, pre ++ (t ++ c :: (r ++ 0 :: post)), none)) = (some pre.length, pre ++ (t ++ 0 :: (r ++ 0 :: post)), some (pre.length + t.length + 1)) := by
    rintro _ rfl; simp only [set_mid]
  unfold strsep
  simp only
  refine key _ ?_
  have hx : (pre ++ (t ++ c :: (r ++ 0 :: post)))[pre.length]? = (t ++ c :: (r ++ 0 :: post))[0]? := by simp [List.getElem?_append_right]
  have hdr : (pre ++ (t ++ c :: (r ++ 0 :: post))).drop (pre.length + 1) = (t ++ c :: (r ++ 0 :: post)).drop 1 := by
    rw [← List.drop_drop, drop_pre]
  match delim, hd, hn, hcd with
  | [ch], hd, hn, hcd =>
    simp only [List.mem_singleton] at hd hn hcd
    subst hcd
    simp only [hx, hdr]
    cases t with
    | nil => simp
    | cons a t =>
      simp only [List.mem_cons, not_or] at h0
      have ha : a ≠ c := hn a (by simp)
      simp only [List.cons_append, List.getElem?_cons_zero, Option.some.injEq, List.drop_succ_cons, List.drop_zero]
      rw [if_neg ha, if_neg (fun e => h0.1 e.symm)]
      rw [search_some _ _ _ _ _ h0.2 (fun c' hc' => by simpa using hn c' (by simp [hc'])) hc (by simp)]
      simp only [List.length_cons]; congr 1; omega
  | d :: d' :: ds, hd, hn, hcd =>
    simp only [drop_pre]
    exact search_some _ _ _ _ _ h0 (fun c hc => by simpa using hn c hc) hc (by simpa using hcd)

theorem pieces_last {delim : Str} : ∀ {t : Str}, (∀ c ∈ t, c ∉ delim) → pieces delim t = [t]
  | [], _ => rfl
  | c :: t, h => by rw [pieces, if_neg (h c (by simp)), pieces_last (fun c hc => h c (by simp [hc]))]

theorem pieces_next {delim : Str} {c : UInt8} {r : Str} (hc : c ∈ delim) : ∀ {t : Str}, (∀ c ∈ t, c ∉ delim) → pieces delim (t ++ c :: r) = t :: pieces delim r
  | [], _ => by rw [List.nil_append, pieces, if_pos hc]
  | a :: t, h => by rw [List.cons_append, pieces, if_neg (h a (by simp)), pieces_next hc (fun c hc => h c (by simp [hc]))]

theorem split_at (delim : Str) : ∀ s : Str, (∀ c ∈ s, c ∉ delim) ∨ ∃ t c r, s = t ++ c :: r ∧ c ∈ delim ∧ ∀ c ∈ t, c ∉ delim
  | [] => .inl (fun _ h => by cases h)
  | a :: s => by
    by_cases ha : a ∈ delim
    · exact .inr ⟨[], a, s, rfl, ha, fun _ h => by cases h⟩
    · rcases split_at delim s with h | ⟨t, c, r, rfl, hc, hn⟩
      · exact .inl (fun c hc => by rcases List.mem_cons.1 hc with rfl | hc <;> (first | exact ha | exact h c hc))
      · exact .inr ⟨a :: t, c, r, rfl, hc, fun c hc => by rcases List.mem_cons.1 hc with rfl | hc <;> (first | exact ha | exact hn c hc)⟩

theorem cstr_at {pre t r : Str} (h0 : 0 ∉ t) : cstr (pre ++ (t ++ 0 :: r)) pre.length = t := by
  unfold cstr
  rw [drop_pre]
  induction t with
  | nil => simp
  | cons a t ih =>
    simp only [List.mem_cons, not_or] at h0
    rw [List.cons_append, List.takeWhile_cons, if_pos (by simpa using fun e => h0.1 e.symm), ih h0.2]

theorem map_keep {delim : Str} : ∀ {s : Str}, (∀ c ∈ s, c ∉ delim) → s.map (fun c => if c ∈ delim then 0 else c) = s
  | [], _ => rfl
  | c :: s, h => by rw [List.map_cons, if_neg (h c (by simp)), map_keep (fun c hc => h c (by simp [hc]))]

theorem tokens_spec {delim : Str} (hd : 0 ∉ delim) (post : Str) : ∀ (k : Nat) (s pre : Str), s.length + 1 < k → 0 ∉ s →
    (tokens delim k (pre ++ (s ++ 0 :: post)) (some pre.length)).2 = pre ++ (s.map (fun c => if c ∈ delim then 0 else c) ++ 0 :: post) ∧
    (tokens delim k (pre ++ (s ++ 0 :: post)) (some pre.length)).1.map (cstr (tokens delim k (pre ++ (s ++ 0 :: post)) (some pre.length)).2) = pieces delim s
  | 0, _, _, h, _ => by omega
  | k + 1, s, pre, hk, h0 => by
    rcases split_at delim s with hn | ⟨t, c, r, rfl, hc, hn⟩
    · have hm : s.map (fun c => if c ∈ delim then 0 else c) = s := map_keep hn
      have e : ∀ mem, tokens delim k mem none = ([], mem) := by
        intro mem
        cases k with
        | zero => rfl
        | succ k => rfl
      rw [tokens, strsep_last h0 hd hn, pieces_last hn, hm]
      simp only [e, List.map_cons, List.map_nil, cstr_at h0, and_self]
    · simp only [List.mem_append, List.mem_cons, not_or] at h0
      have hm : t.map (fun c => if c ∈ delim then 0 else c) = t := map_keep hn
      have e1 : pre ++ (t ++ c :: r ++ 0 :: post) = pre ++ (t ++ c :: (r ++ 0 :: post)) := by simp
      have e2 : pre ++ (t ++ 0 :: (r ++ 0 :: post)) = (pre ++ t ++ [0]) ++ (r ++ 0 :: post) := by simp
      have e3 : pre.length + t.length + 1 = (pre ++ t ++ [0]).length := by simp; omega
      obtain ⟨ih1, ih2⟩ := tokens_spec hd post k r (pre ++ t ++ [0]) (by simp at hk; omega) h0.2.2
      rw [e1, tokens, strsep_next h0.1 (fun e => h0.2.1 e.symm) hd hn hc, pieces_next hc hn, e2, e3]
      simp only [List.map_cons, ih2]
      rw [ih1]
      refine ⟨by simp [hm, hc], ?_⟩
      have e4 : pre ++ t ++ [0] ++ (r.map (fun c => if c ∈ delim then 0 else c) ++ 0 :: post) = pre ++ (t ++ 0 :: (r.map (fun c => if c ∈ delim then 0 else c) ++ 0 :: post)) := by simp
      rw [e4, cstr_at h0.1]

/-! ## getdelim -/

/-- The block has `*n` bytes, or there is none yet. -/
def LineBuf.Ok (b : LineBuf) : Prop := ∀ s, b.block = some s → 0 < b.n ∧ b.n ≤ s

theorem holds_of {b : LineBuf} {s i : Nat} (h : b.block = some s) (hi : i < s) : b.holds i = true := by
  unfold LineBuf.holds
  rw [h]; simpa using hi

theorem finish_eq {b : LineBuf} {s : Nat} {cur rest : Str} (h : b.block = some s) (hi : cur.length < s) :
    finish b cur rest = .ret (if cur.length ≠ 0 then cur.length else -1) b (some cur) rest := if_pos (holds_of h hi)

theorem loop_safe (alloc : Nat → Bool) (delim : UInt8) : ∀ (stream : Str) (b : LineBuf) (cur : Str) (s : Nat), b.block = some s → b.n ≤ s → cur.length < b.n →
    ∃ r b' line rest, getdelimLoop alloc delim stream b cur = .ret r b' line rest ∧ (∃ s', b'.block = some s' ∧ 0 < b'.n ∧ b'.n ≤ s')
  | [], b, cur, s, hb, hn, hc => by
    rw [getdelimLoop, finish_eq hb (by omega)]
    exact ⟨_, _, _, _, rfl, s, hb, by omega, hn⟩
  | c :: stream, b, cur, s, hb, hn, hc => by
    rw [getdelimLoop]
    split
    · split
      · exact ⟨_, _, _, _, rfl, s, hb, by omega, hn⟩
      · rename_i h1
        split
        · exact ⟨_, _, _, _, rfl, s, hb, by omega, hn⟩
        · split
          · rw [finish_eq rfl (by simp; omega)]
            exact ⟨_, _, _, _, rfl, _, rfl, (by simp only; omega), Nat.le_refl _⟩
          · exact loop_safe alloc delim stream _ _ _ rfl (Nat.le_refl _) (by simp; omega)
    · rename_i h1
      rw [if_neg (by rw [holds_of hb (by omega)]; simp)]
      split
      · rw [finish_eq hb (by simp; omega)]
        exact ⟨_, _, _, _, rfl, s, hb, by omega, hn⟩
      · exact loop_safe alloc delim stream b _ s hb hn (by simp; omega)

theorem loop_small (alloc : Nat → Bool) (delim : UInt8) : ∀ (stream : Str) (b : LineBuf) (cur : Str), b.n ≤ 2 ^ 63 → cur.length < b.n →
    ∀ r b' line rest, getdelimLoop alloc delim stream b cur = .ret r b' line rest → r < 2 ^ 63 ∧ b'.n ≤ 2 ^ 63
  | [], b, cur, hn, hc => by
    intro r b' line rest h
    rw [getdelimLoop] at h
    unfold finish at h
    split at h
    · injection h with h1 h2
      subst h1 h2
      exact ⟨by split <;> omega, hn⟩
    · cases h
  | c :: stream, b, cur, hn, hc => by
    intro r b' line rest h
    have hx : needed b.n ≤ 2 ^ 63 := Nat.min_le_left _ _
    have fin : ∀ (b : LineBuf), b.n ≤ 2 ^ 63 → (cur ++ [c]).length < b.n → finish b (cur ++ [c]) stream = .ret r b' line rest → r < 2 ^ 63 ∧ b'.n ≤ 2 ^ 63 := by
      intro b hn hc h
      unfold finish at h
      split at h
      · injection h with h1 h2
        subst h1 h2
        exact ⟨by split <;> omega, hn⟩
      · cases h
    rw [getdelimLoop] at h
    split at h
    · split at h
      · injection h with h1 h2; subst h1 h2; exact ⟨by omega, hn⟩
      · rename_i h1
        split at h
        · injection h with h1 h2; subst h1 h2; exact ⟨by omega, hn⟩
        · split at h
          · exact fin _ hx (by simp; omega) h
          · exact loop_small alloc delim stream _ _ hx (by simp; omega) _ _ _ _ h
    · rename_i h1
      split at h
      · cases h
      · split at h
        · exact fin b hn (by simp; omega) h
        · exact loop_small alloc delim stream b _ hn (by simp; omega) _ _ _ _ h

theorem getdelim_small (alloc : Nat → Bool) (delim : UInt8) (b : LineBuf) (hb : b.n ≤ 2 ^ 63) (stream : Str) {r b' line rest}
    (h : getdelim alloc delim b stream = .ret r b' line rest) : r < 2 ^ 63 ∧ b'.n ≤ 2 ^ 63 := by
  unfold getdelim at h
  split at h
  · split at h
    · exact loop_small alloc delim stream ⟨some 120, 120⟩ [] (by decide) (by simp) _ _ _ _ h
    · injection h with h1 h2; subst h1 h2; exact ⟨by omega, by simp only; omega⟩
  · rename_i h0
    exact loop_small alloc delim stream b [] hb (by have := fun e => h0 (.inr e); simp; omega) _ _ _ _ h

theorem needed_more {n k : Nat} (h : k ≤ n) (hk : k < 2 ^ 63) (hn : n < 2 ^ 63) : k < needed n := by
  unfold needed
  rw [Nat.mod_eq_of_lt (by omega)]
  omega

/-- When there is memory, the loop reads up to the delimiter or to the end. -/
theorem loop_reads (alloc : Nat → Bool) (ha : ∀ n, alloc n = true) (delim : UInt8) : ∀ (stream : Str) (b : LineBuf) (cur : Str) (s : Nat), b.block = some s → b.n ≤ s → cur.length < b.n →
    cur.length + stream.length + 1 < 2 ^ 63 → ∃ b' t rest, getdelimLoop alloc delim stream b cur = .ret (if (cur ++ t).length ≠ 0 then (cur ++ t).length else -1) b' (some (cur ++ t)) rest ∧
      stream = t ++ rest ∧ (∃ s', b'.block = some s' ∧ 0 < b'.n ∧ b'.n ≤ s') ∧ delim ∉ t.dropLast ∧ (rest ≠ [] → t.getLast? = some delim) ∧ (t = [] → stream = [])
  | [], b, cur, s, hb, hn, hc, hl => by
    rw [getdelimLoop, finish_eq hb (by omega)]
    exact ⟨b, [], [], by simp, rfl, ⟨s, hb, by omega, hn⟩, by simp, fun h => absurd rfl h, fun _ => rfl⟩
  | c :: stream, b, cur, s, hb, hn, hc, hl => by
    have go : ∀ (b : LineBuf) (s : Nat), b.block = some s → b.n ≤ s → (cur ++ [c]).length < b.n → ∃ b' t rest,
        (if c = delim then finish b (cur ++ [c]) stream else getdelimLoop alloc delim stream b (cur ++ [c])) =
          .ret (if (cur ++ t).length ≠ 0 then (cur ++ t).length else -1) b' (some (cur ++ t)) rest ∧
        c :: stream = t ++ rest ∧ (∃ s', b'.block = some s' ∧ 0 < b'.n ∧ b'.n ≤ s') ∧ delim ∉ t.dropLast ∧ (rest ≠ [] → t.getLast? = some delim) ∧ (t = [] → c :: stream = []) := by
      intro b s hb hn hc
      split
      · rename_i hcd
        rw [finish_eq hb (by omega)]
        exact ⟨b, [c], stream, rfl, rfl, ⟨s, hb, by omega, hn⟩, by simp, fun _ => by simp [hcd], fun h => by cases h⟩
      · rename_i hcd
        obtain ⟨b', t, rest, e, h1, h2, h3, h4, h5⟩ := loop_reads alloc ha delim stream b (cur ++ [c]) s hb hn hc (by simp at hl ⊢; omega)
        refine ⟨b', c :: t, rest, by rw [e]; simp, by rw [h1]; rfl, h2, ?_, fun hr => ?_, fun h => by cases h⟩
        · cases t with
          | nil => simp
          | cons a t =>
            simp only [List.dropLast_cons_cons, List.mem_cons, not_or] at h3 ⊢
            exact ⟨fun e => hcd e.symm, h3⟩
        · have := h4 hr
          cases t with
          | nil => cases this
          | cons a t => rw [List.getLast?_cons_cons]; exact this
    rw [getdelimLoop]
    simp only [List.length_cons] at hl
    split
    · rename_i h1
      have hnd : cur.length + 1 < needed b.n := needed_more (by omega) (by omega) (by omega)
      rw [if_neg (by omega), if_neg (by rw [ha]; simp)]
      exact go ⟨some (needed b.n), needed b.n⟩ _ rfl (Nat.le_refl _) (by simp; exact hnd)
    · rename_i h1
      rw [if_neg (by rw [holds_of hb (by omega)]; simp)]
      exact go b s hb hn (by simp; omega)

theorem getdelim_safe (alloc : Nat → Bool) (delim : UInt8) (b : LineBuf) (hb : b.Ok) (stream : Str) :
    ∃ r b' line rest, getdelim alloc delim b stream = .ret r b' line rest ∧ b'.Ok := by
  unfold getdelim
  split
  · rename_i h
    split
    · obtain ⟨r, b', line, rest, e, s', h1, h2, h3⟩ := loop_safe alloc delim stream ⟨some 120, 120⟩ [] 120 rfl (Nat.le_refl _) (by simp)
      exact ⟨r, b', line, rest, e, fun s hs => by rw [h1] at hs; injection hs with hs; subst hs; exact ⟨h2, h3⟩⟩
    · refine ⟨_, _, _, _, rfl, fun s hs => ?_⟩
      simp only at hs
      have := hb s hs
      rcases h with h | h
      · rw [hs] at h; cases h
      · omega
  · rename_i h
    cases hs : b.block with
    | none => exact absurd (.inl hs) h
    | some s =>
      obtain ⟨h1, h2⟩ := hb s hs
      obtain ⟨r, b', line, rest, e, s', h1, h2, h3⟩ := loop_safe alloc delim stream b [] s hs h2 h1
      exact ⟨r, b', line, rest, e, fun s hs => by rw [h1] at hs; injection hs with hs; subst hs; exact ⟨h2, h3⟩⟩

theorem getdelim_reads (alloc : Nat → Bool) (ha : ∀ n, alloc n = true) (delim : UInt8) (b : LineBuf) (hb : b.Ok) (stream : Str) (hl : stream.length + 1 < 2 ^ 63) :
    ∃ b' t rest, getdelim alloc delim b stream = .ret (if t.length ≠ 0 then t.length else -1) b' (some t) rest ∧
      stream = t ++ rest ∧ b'.Ok ∧ delim ∉ t.dropLast ∧ (rest ≠ [] → t.getLast? = some delim) ∧ (t = [] → stream = []) := by
  have fin : ∀ (b : LineBuf) s, b.block = some s → b.n ≤ s → 0 < b.n → ∃ b' t rest, getdelimLoop alloc delim stream b [] = .ret (if t.length ≠ 0 then t.length else -1) b' (some t) rest ∧
      stream = t ++ rest ∧ b'.Ok ∧ delim ∉ t.dropLast ∧ (rest ≠ [] → t.getLast? = some delim) ∧ (t = [] → stream = []) := by
    intro b s hb hn h0
    obtain ⟨b', t, rest, e, h1, ⟨s', h2, h2', h2''⟩, h3, h4, h5⟩ := loop_reads alloc ha delim stream b [] s hb hn (by simpa using h0) (by simp; omega)
    exact ⟨b', t, rest, by simpa using e, h1, fun s hs => by rw [h2] at hs; injection hs with hs; subst hs; exact ⟨h2', h2''⟩, h3, h4, h5⟩
  unfold getdelim
  split
  · rw [if_pos (ha 120)]
    exact fin _ 120 rfl (Nat.le_refl _) (by simp)
  · rename_i h
    cases hs : b.block with
    | none => exact absurd (.inl hs) h
    | some s =>
      obtain ⟨h1, h2⟩ := hb s hs
      exact fin b s hs h2 h1

theorem getlines_spec (alloc : Nat → Bool) (ha : ∀ n, alloc n = true) : ∀ (k : Nat) (b : LineBuf) (s : Str), b.Ok → s.length < k → s.length + 1 < 2 ^ 63 →
    ∃ ls, getlines alloc k b s = some ls ∧ Lines s ls
  | 0, _, _, _, h, _ => by omega
  | k + 1, b, s, hb, hk, hl => by
    obtain ⟨b', t, rest, e, h1, h2, h3, h4, h5⟩ := getdelim_reads alloc ha 10 b hb s hl
    rw [getlines, e]
    simp only
    by_cases ht : t = []
    · have := h5 ht
      subst ht this
      exact ⟨[], rfl, ⟨rfl, (fun _ h => by cases h), (fun _ h => by cases h), (fun _ h => by cases h)⟩⟩
    · have hlen : t.length ≠ 0 := fun h => ht (List.eq_nil_of_length_eq_zero h)
      rw [if_pos hlen, if_neg (by omega)]
      have hsl := congrArg List.length h1
      simp only [List.length_append] at hsl
      obtain ⟨ls, e', h⟩ := getlines_spec alloc ha k b' rest h2 (by omega) (by omega)
      refine ⟨t :: ls, by rw [e']; rfl, ⟨by rw [List.flatten_cons, h.all, h1], fun l hm => ?_, fun l hm => ?_, fun l hm => ?_⟩⟩
      · rcases List.mem_cons.1 hm with rfl | hm
        · exact ht
        · exact h.some_ l hm
      · rcases List.mem_cons.1 hm with rfl | hm
        · exact h3
        · exact h.inner l hm
      · cases ls with
        | nil => cases hm
        | cons l' ls =>
          rw [List.dropLast_cons_cons] at hm
          rcases List.mem_cons.1 hm with rfl | hm
          · refine h4 (fun e => ?_)
            have h6 := h.all
            rw [e] at h6
            exact h.some_ l' (by simp) (by simp at h6; exact h6.1)
          · exact h.ended l hm

end Notmuch.Compat
