import Verif.Spec.TreeDraw

namespace Notmuch.TreeDrawProofs
open Notmuch.TreeDraw Notmuch.TreeDrawSpec

mutual
theorem tree_order {α : Type} (σ : Symbols) : ∀ (t : Tree α) d st f l, (insertTree σ t d st f l).map (·.msg) = preorder t
  | .node m rs, d, st, f, l => by
    simp only [insertTree, preorder, List.map_cons, thread_order σ rs]
theorem thread_order {α : Type} (σ : Symbols) : ∀ (ts : List (Tree α)) c n d st, (insertThread σ ts c n d st).map (·.msg) = preorders ts
  | [], _, _, _, _ => by simp [insertThread, preorders]
  | t :: ts, c, n, d, st => by
    simp only [insertThread, preorders, List.map_append, tree_order σ t, thread_order σ ts]
end

/-- The text of a stack. -/
def txt (st : List String) : List Char := st.reverse.flatMap String.toList

theorem foldl_txt (ss : List String) : ∀ a : String, (ss.foldl (· ++ ·) a).toList = a.toList ++ ss.flatMap String.toList := by
  induction ss with
  | nil => intro a; simp
  | cons s ss ih => intro a; simp [ih]

theorem field_txt {α : Type} (l : Line α) : (treeField l).toList = txt l.status := by
  unfold treeField txt
  rw [foldl_txt]
  simp

theorem txt_cons (s : String) (st : List String) : txt (s :: st) = txt st ++ s.toList := by simp [txt]

/-! ## Joined lines -/

/-- The lines hang together, with `u` above the first and `w` below the last. -/
def Joined (u : Nat → Bool) : List (List Char) → (Nat → Bool) → Prop
  | [], w => u = w
  | a :: l, w => at' up a = u ∧ Joined (at' down a) l w

theorem Joined.append {l₁ l₂ : List (List Char)} {v w : Nat → Bool} : ∀ {u}, Joined u l₁ v → Joined v l₂ w → Joined u (l₁ ++ l₂) w := by
  induction l₁ with
  | nil => intro u h1 h2; cases h1; exact h2
  | cons a l ih => intro u h1 h2; exact ⟨h1.1, ih h1.2 h2⟩

def bar (b : Bool) : String := if b then " " else "│"

/-- Stack made of blanks and bars. -/
def stk (bs : List Bool) : List String := bs.map bar

/-- Where the stack has bars. -/
def lines (bs : List Bool) (c : Nat) : Bool := ((bs.reverse[c]?).map (!·)).getD false

theorem txt_stk (bs : List Bool) : txt (stk bs) = bs.reverse.map (fun b => if b then ' ' else '│') := by
  induction bs with
  | nil => rfl
  | cons b bs ih =>
    have : stk (b :: bs) = bar b :: stk bs := rfl
    rw [this, txt_cons, ih]
    cases b <;> simp [bar] <;> rfl

theorem at_line (p : Char → Bool) (bs : List Bool) (x y : Char) (hb : p ' ' = false) (hv : p '│' = true) (ha : p '►' = false) :
    at' p (bs.reverse.map (fun b => if b then ' ' else '│') ++ [x, y, '►']) =
      fun c => lines bs c || (c == bs.length && p x) || (c == bs.length + 1 && p y) := by
  funext c
  unfold at' lines
  rcases Nat.lt_or_ge c bs.length with h | h
  · rw [List.getElem?_append_left (by simpa using h)]
    have h1 : (c == bs.length) = false := by simp; omega
    have h2 : (c == bs.length + 1) = false := by simp; omega
    rw [h1, h2]
    have h3 : c < bs.reverse.length := by simpa using h
    rw [List.getElem?_map, List.getElem?_eq_getElem h3]
    cases bs.reverse[c] <;> simp [hb, hv]
  · rw [List.getElem?_append_right (by simpa using h)]
    have h3 : bs.reverse[c]? = none := by simpa using h
    rw [h3]
    simp only [List.length_map, List.length_reverse]
    obtain ⟨k, rfl⟩ : ∃ k, c = bs.length + k := ⟨c - bs.length, by omega⟩
    have : bs.length + k - bs.length = k := by omega
    rw [this]
    rcases k with _ | _ | _ | k
    · simp
    · simp
    · simp [ha]
    · have e : (bs.length + (k + 1 + 1 + 1) == bs.length) = false := by simp
      have e' : (bs.length + (k + 1 + 1 + 1) == bs.length + 1) = false := by simp
      simp [e, e']

/-- The characters of a branch. -/
def branchC (d : Nat) (f l : Bool) : Char :=
  if 0 < d && !l then '├' else if 0 < d && l then '╰' else if f && l then ' ' else if f && !l then '┬' else if !f && l then '╰' else '├'

theorem branch_c (d : Nat) (f l : Bool) : (branch .default d f l).toList = [branchC d f l] := by
  unfold branch branchC
  repeat' split
  all_goals rfl

theorem lines_cons (b : Bool) (bs : List Bool) : lines (b :: bs) = fun c => lines bs c || (c == bs.length && !b) := by
  funext c
  unfold lines
  rw [List.reverse_cons]
  rcases Nat.lt_trichotomy c bs.length with h | h | h
  · rw [List.getElem?_append_left (by simpa using h)]
    have : (c == bs.length) = false := by simp; omega
    simp [this]
  · subst h
    rw [List.getElem?_append_right (by simp)]
    simp
  · rw [List.getElem?_append_right (by simp; omega)]
    have : (c == bs.length) = false := by simp; omega
    have h2 : bs.reverse[c]? = none := by simp; omega
    have h3 : ([b] : List Bool)[c - bs.reverse.length]? = none := by simp; omega
    simp only [this, h2, h3]
    rfl

mutual
theorem tree_joined {α : Type} : ∀ (t : Tree α) (bs : List Bool) (f l : Bool),
    Joined (fun c => lines bs c || (c == bs.length && !(f && bs.length == 0)))
      ((insertTree .default t bs.length (stk bs) f l).map (fun x => (treeField x).toList))
      (fun c => lines bs c || (c == bs.length && !l))
  | .node m rs, bs, f, l => by
    have hst : ((if l then " " else Symbols.default.vertical) :: stk bs) = stk (l :: bs) := by cases l <;> rfl
    have htxt : ∀ (s : String) (y : Char), s.toList = [y, '►'] →
        txt (s :: branch .default bs.length f l :: stk bs) = bs.reverse.map (fun b => if b then ' ' else '│') ++ [branchC bs.length f l, y, '►'] := by
      intro s y hs
      rw [txt_cons, txt_cons, txt_stk, branch_c, hs]
      simp
    simp only [insertTree, List.map_cons, List.tail_cons, hst]
    have ih := thread_joined rs (l :: bs) true
    simp only [List.length_cons] at ih
    cases rs with
    | nil =>
      refine ⟨?_, ?_⟩
      · rw [field_txt]
        show at' up (txt ((Symbols.default.top ++ Symbols.default.arrow) :: _)) = _
        rw [htxt _ '─' (show (Symbols.default.top ++ Symbols.default.arrow).toList = _ by decide +kernel), at_line up bs _ _ (by decide) (by decide) (by decide)]
        funext c
        rcases Nat.eq_zero_or_pos bs.length with h | h
        · rw [h]; cases f <;> cases l <;> simp [branchC, up]
        · have h0 : (bs.length == 0) = false := beq_eq_false_iff_ne.2 (by omega)
          cases f <;> cases l <;> simp [branchC, up, h, h0]
      · simp only [insertThread, List.map_nil]
        show _ = _
        rw [field_txt]
        show at' down (txt ((Symbols.default.top ++ Symbols.default.arrow) :: _)) = _
        rw [htxt _ '─' (show (Symbols.default.top ++ Symbols.default.arrow).toList = _ by decide +kernel), at_line down bs _ _ (by decide) (by decide) (by decide)]
        funext c
        rcases Nat.eq_zero_or_pos bs.length with h | h
        · rw [h]; cases f <;> cases l <;> simp [branchC, down]
        · cases f <;> cases l <;> simp [branchC, down, h]
    | cons r rs =>
      refine ⟨?_, ?_⟩
      · rw [field_txt]
        show at' up (txt ((Symbols.default.topTee ++ Symbols.default.arrow) :: _)) = _
        rw [htxt _ '┬' (show (Symbols.default.topTee ++ Symbols.default.arrow).toList = _ by decide +kernel), at_line up bs _ _ (by decide) (by decide) (by decide)]
        funext c
        rcases Nat.eq_zero_or_pos bs.length with h | h
        · rw [h]; cases f <;> cases l <;> simp [branchC, up]
        · have h0 : (bs.length == 0) = false := beq_eq_false_iff_ne.2 (by omega)
          cases f <;> cases l <;> simp [branchC, up, h, h0]
      · have ih := ih (by simp) 1 (r :: rs).length rfl (by omega) (by omega)
        rw [lines_cons] at ih
        refine cast ?_ ih
        congr 1
        rw [field_txt]
        show _ = at' down (txt ((Symbols.default.topTee ++ Symbols.default.arrow) :: _))
        rw [htxt _ '┬' (show (Symbols.default.topTee ++ Symbols.default.arrow).toList = _ by decide +kernel), at_line down bs _ _ (by decide) (by decide) (by decide)]
        funext c
        rcases Nat.eq_zero_or_pos bs.length with h | h
        · rw [h]; cases f <;> cases l <;> simp [branchC, down]
        · cases f <;> cases l <;> simp [branchC, down, h]
theorem thread_joined {α : Type} : ∀ (ts : List (Tree α)) (bs : List Bool) (f : Bool), ts ≠ [] → 
    ∀ (c n : Nat), (c == 1) = f → c + ts.length = n + 1 → 0 < c → Joined (fun k => lines bs k || (k == bs.length && !(f && bs.length == 0)))
      ((insertThread .default ts c n bs.length (stk bs)).map (fun x => (treeField x).toList)) (lines bs)
  | [], _, _, h => absurd rfl h
  | t :: ts, bs, f, _ => by
    intro c n hc hn h0
    simp only [insertThread, List.map_append]
    rw [← hc]
    refine (tree_joined t bs (c == 1) (c == n)).append ?_
    cases ts with
    | nil =>
      have : c = n := by simpa using hn
      simp only [insertThread, List.map_nil, Joined]
      simp [this]
    | cons u ts =>
      have e : (c == n) = false := beq_eq_false_iff_ne.2 (by simp only [List.length_cons] at hn; omega)
      have h1 : (c + 1 == 1) = false := beq_eq_false_iff_ne.2 (by omega)
      have := thread_joined (u :: ts) bs false (by simp) (c + 1) n h1 (by simp only [List.length_cons] at hn ⊢; omega) (by omega)
      rw [e]
      simpa using this
end

/-! ## Reading the drawing -/

mutual
/-- Message, depth, and whether a thread begins here. -/
def entT {α : Type} : Tree α → Nat → Bool → List (α × Nat × Bool)
  | .node m rs, d, s => (m, d, s) :: entF rs (d + 1) false
def entF {α : Type} : List (Tree α) → Nat → Bool → List (α × Nat × Bool)
  | [], _, _ => []
  | t :: ts, d, s => entT t d s ++ entF ts d false
end

/-- What is read from a line: the columns, and the mark of a thread's first message. -/
def readLine {α : Type} (σ : Symbols) (l : Line α) : α × Nat × Bool :=
  let t := (treeField l).toList
  let d := t.length - 2 - σ.arrow.toList.length
  (l.msg, d, d == 0 && (t.take 1 == σ.pfx.toList || t.take 1 == σ.topTee.toList))

theorem txt_len {st : List String} (h : ∀ s ∈ st, s.toList.length = 1) : (txt st).length = st.length := by
  induction st with
  | nil => rfl
  | cons s st ih =>
    rw [txt_cons, List.length_append, ih (fun x hx => h x (List.mem_cons_of_mem _ hx)), h s (List.mem_cons_self ..)]
    rfl

theorem branch_len {σ : Symbols} (hσ : Readable σ) (d : Nat) (f l : Bool) : (branch σ d f l).toList.length = 1 := by
  obtain ⟨h1, h2, h3, h4, h5, h6, -⟩ := hσ
  unfold branch
  repeat' split
  all_goals assumption

theorem branch_start {σ : Symbols} (hσ : Readable σ) (f l : Bool) :
    ((branch σ 0 f l).toList == σ.pfx.toList || (branch σ 0 f l).toList == σ.topTee.toList) = f := by
  obtain ⟨-, -, -, -, -, -, h1, h2, h3, h4⟩ := hσ
  have e1 : σ.verticalTee.toList ≠ σ.pfx.toList := fun e => h1 (String.toList_inj.1 e).symm
  have e2 : σ.bottom.toList ≠ σ.pfx.toList := fun e => h2 (String.toList_inj.1 e).symm
  have e3 : σ.verticalTee.toList ≠ σ.topTee.toList := fun e => h3 (String.toList_inj.1 e).symm
  have e4 : σ.bottom.toList ≠ σ.topTee.toList := fun e => h4 (String.toList_inj.1 e).symm
  cases f <;> cases l <;> simp [branch, e1, e2, e3, e4]

mutual
theorem tree_read {α : Type} {σ : Symbols} (hσ : Readable σ) : ∀ (t : Tree α) (d : Nat) (st : List String) (f l : Bool),
    (∀ s ∈ st, s.toList.length = 1) → st.length = d → (insertTree σ t d st f l).map (readLine σ) = entT t d (f && d == 0)
  | .node m rs, d, st, f, l, hst, hd => by
    simp only [insertTree, List.map_cons, entT, List.tail_cons]
    congr 1
    · unfold readLine
      rw [field_txt]
      simp only [txt_cons]
      have hx : ∀ b : Bool, (if b then σ.top else σ.topTee).toList.length = 1 := by
        intro b; cases b
        · exact hσ.2.2.1
        · exact hσ.2.1
      have hl : (txt st ++ (branch σ d f l).toList ++ ((if rs.isEmpty then σ.top else σ.topTee) ++ σ.arrow).toList).length =
          d + 2 + σ.arrow.toList.length := by
        rw [List.length_append, List.length_append, String.toList_append, List.length_append, txt_len hst, branch_len hσ, hx, hd]
        omega
      rw [hl]
      have e : d + 2 + σ.arrow.toList.length - 2 - σ.arrow.toList.length = d := by omega
      rw [e]
      congr 2
      rcases Nat.eq_zero_or_pos d with h0 | h0
      · have : st = [] := List.length_eq_zero_iff.1 (hd.trans h0)
        subst this
        have ht : (txt [] ++ (branch σ 0 f l).toList ++ ((if rs.isEmpty then σ.top else σ.topTee) ++ σ.arrow).toList).take 1 = (branch σ 0 f l).toList := by
          have := branch_len hσ 0 f l
          show ([] ++ (branch σ 0 f l).toList ++ _).take 1 = _
          rw [List.nil_append, List.take_append_of_le_length (by omega), List.take_of_length_le (by omega)]
        rw [h0, ht, branch_start hσ]
        simp
      · have : (d == 0) = false := beq_eq_false_iff_ne.2 (by omega)
        simp [this]
    · rw [thread_read hσ rs 1 _ (d + 1) _ (by
        intro s hs
        rcases List.mem_cons.1 hs with rfl | hs
        · cases l
          · exact hσ.2.2.2.1
          · show (" " : String).toList.length = 1
            decide +kernel
        · exact hst s hs) (by simp [hd]) (by omega)]
      simp
theorem thread_read {α : Type} {σ : Symbols} (hσ : Readable σ) : ∀ (ts : List (Tree α)) (c n d : Nat) (st : List String),
    (∀ s ∈ st, s.toList.length = 1) → st.length = d → 0 < c → (insertThread σ ts c n d st).map (readLine σ) = entF ts d (c == 1 && d == 0)
  | [], _, _, _, _, _, _, _ => by simp [insertThread, entF]
  | t :: ts, c, n, d, st, hst, hd, h => by
    simp only [insertThread, List.map_append, entF]
    rw [tree_read hσ t d st _ _ hst hd]
    congr 1
    rw [thread_read hσ ts (c + 1) n d st hst hd (by omega)]
    have : (c + 1 == 1) = false := beq_eq_false_iff_ne.2 (by omega)
    simp [this]
end

/-- The rest of the lines does not go on with these trees. -/
def Stop {α : Type} (d : Nat) : List (α × Nat × Bool) → Prop
  | [] => True
  | e :: _ => e.2.1 < d ∨ e.2.2 = true

mutual
theorem entT_inj {α : Type} : ∀ (t u : Tree α) (d : Nat) (s : Bool) (x y : List (α × Nat × Bool)), Stop (d + 1) x → Stop (d + 1) y →
    entT t d s ++ x = entT u d s ++ y → t = u ∧ x = y
  | .node m rs, .node m' rs', d, s, x, y, hx, hy, h => by
    simp only [entT, List.cons_append, List.cons.injEq, Prod.mk.injEq] at h
    obtain ⟨⟨rfl, -⟩, h⟩ := h
    obtain ⟨rfl, rfl⟩ := entF_inj rs rs' (d + 1) x y hx hy h
    exact ⟨rfl, rfl⟩
theorem entF_inj {α : Type} : ∀ (ts us : List (Tree α)) (d : Nat) (x y : List (α × Nat × Bool)), Stop d x → Stop d y →
    entF ts d false ++ x = entF us d false ++ y → ts = us ∧ x = y
  | [], [], _, _, _, _, _, h => by simpa [entF] using h
  | [], .node m rs :: us, d, x, y, hx, _, h => by
    simp only [entF, entT, List.nil_append, List.cons_append] at h
    subst h
    rcases hx with h | h
    · exact absurd h (Nat.lt_irrefl _)
    · cases h
  | .node m rs :: ts, [], d, x, y, _, hy, h => by
    simp only [entF, entT, List.nil_append, List.cons_append] at h
    subst h
    rcases hy with h | h
    · exact absurd h (Nat.lt_irrefl _)
    · cases h
  | t :: ts, u :: us, d, x, y, hx, hy, h => by
    simp only [entF, List.append_assoc] at h
    have stop : ∀ (ts : List (Tree α)) x, Stop d x → Stop (d + 1) (entF ts d false ++ x) := by
      intro ts x hx
      cases ts with
      | nil =>
        cases x with
        | nil => trivial
        | cons e x =>
          rcases hx with h | h
          · exact Or.inl (Nat.lt_succ_of_lt h)
          · exact Or.inr h
      | cons t ts => cases t; exact Or.inl (Nat.lt_succ_self _)
    obtain ⟨rfl, h1⟩ := entT_inj t u d false _ _ (stop ts x hx) (stop us y hy) h
    obtain ⟨rfl, rfl⟩ := entF_inj ts us d x y hx hy h1
    exact ⟨rfl, rfl⟩
end

/-- All threads. -/
def entries {α : Type} (f : List (List (Tree α))) : List (α × Nat × Bool) := f.flatMap (entF · 0 true)

theorem entries_inj {α : Type} : ∀ (f g : List (List (Tree α))), (∀ t ∈ f, t ≠ []) → (∀ t ∈ g, t ≠ []) → entries f = entries g → f = g := by
  have stop : ∀ f : List (List (Tree α)), (∀ t ∈ f, t ≠ []) → ∀ d, Stop d (entries f) := by
    intro f hf d
    cases f with
    | nil => trivial
    | cons t f =>
      cases t with
      | nil => exact absurd rfl (hf [] (List.mem_cons_self ..))
      | cons t ts => cases t; exact Or.inr rfl
  intro f
  induction f with
  | nil =>
    intro g _ hg h
    cases g with
    | nil => rfl
    | cons t g =>
      cases t with
      | nil => exact absurd rfl (hg [] (List.mem_cons_self ..))
      | cons t ts => cases t; cases h
  | cons t f ih =>
    intro g hf hg h
    cases t with
    | nil => exact absurd rfl (hf [] (List.mem_cons_self ..))
    | cons t ts =>
      cases g with
      | nil => cases t; cases h
      | cons u g =>
        cases u with
        | nil => exact absurd rfl (hg [] (List.mem_cons_self ..))
        | cons u us =>
          have hf' : ∀ t ∈ f, t ≠ [] := fun t ht => hf t (List.mem_cons_of_mem _ ht)
          have hg' : ∀ t ∈ g, t ≠ [] := fun t ht => hg t (List.mem_cons_of_mem _ ht)
          have h : entT t 0 true ++ (entF ts 0 false ++ entries f) = entT u 0 true ++ (entF us 0 false ++ entries g) := by
            simpa [entries, entF] using h
          have stop1 : ∀ (ts : List (Tree α)) f, (∀ t ∈ f, t ≠ []) → Stop 1 (entF ts 0 false ++ entries f) := by
            intro ts f hf
            cases ts with
            | nil => exact stop f hf 1
            | cons t ts => cases t; exact Or.inl (Nat.lt_succ_self _)
          obtain ⟨rfl, h1⟩ := entT_inj t u 0 true _ _ (stop1 ts f hf') (stop1 us g hg') h
          obtain ⟨rfl, h2⟩ := entF_inj ts us 0 _ _ (stop f hf' 0) (stop g hg' 0) h1
          rw [ih g hf' hg' h2]

theorem forest_read {α : Type} {σ : Symbols} (hσ : Readable σ) (f : List (List (Tree α))) :
    (f.flatMap (insertForestThread σ)).map (readLine σ) = entries f := by
  rw [List.map_flatMap]
  unfold entries insertForestThread
  congr 1
  funext t
  rw [thread_read hσ t 1 _ 0 [] (fun _ h => by cases h) rfl (by omega)]
  rfl

/-! ## Levels and subjects -/

mutual
theorem tree_level {α : Type} (σ : Symbols) : ∀ (t : Tree α) (d : Nat) (st : List String) (f l : Bool),
    (insertTree σ t d st f l).map (fun x => (x.first, x.level == 1)) = (f && d == 0, f && d == 0) :: List.replicate ((preorder t).length - 1) (false, false)
  | .node m rs, d, st, f, l => by
    simp only [insertTree, List.map_cons, preorder, List.length_cons, Nat.add_sub_cancel]
    congr 1
    · rcases Nat.eq_zero_or_pos d with h | h
      · subst h; cases f <;> rfl
      · have h1 : (d == 0) = false := beq_eq_false_iff_ne.2 (by omega)
        have h2 : (1 + d == 1) = false := beq_eq_false_iff_ne.2 (by omega)
        simp [h1, h2]
    · exact thread_level σ rs 1 _ (d + 1) _ (Or.inr (by omega))
theorem thread_level {α : Type} (σ : Symbols) : ∀ (ts : List (Tree α)) (c n d : Nat) (st : List String), 1 < c ∨ 0 < d →
    (insertThread σ ts c n d st).map (fun x => (x.first, x.level == 1)) = List.replicate (preorders ts).length (false, false)
  | [], _, _, _, _, _ => by simp [insertThread, preorders]
  | t :: ts, c, n, d, st, h => by
    simp only [insertThread, preorders, List.map_append, List.length_append]
    rw [tree_level σ t, thread_level σ ts (c + 1) n d st (by omega)]
    have e : ((c == 1) && d == 0) = false := by
      rcases h with h | h
      · have : (c == 1) = false := beq_eq_false_iff_ne.2 (by omega)
        simp [this]
      · have : (d == 0) = false := beq_eq_false_iff_ne.2 (by omega)
        simp [this]
    rw [e, ← List.replicate_append_replicate]
    cases t with
    | node m rs => simp [preorder, List.replicate_succ]
end

theorem forest_level {α : Type} (σ : Symbols) (t : List (Tree α)) (h : t ≠ []) :
    (insertForestThread σ t).map (fun x => (x.first, x.level == 1)) = (true, true) :: List.replicate ((preorders t).length - 1) (false, false) := by
  cases t with
  | nil => exact absurd rfl h
  | cons t ts =>
    unfold insertForestThread
    simp only [insertThread, List.map_append, preorders]
    rw [tree_level, thread_level _ _ _ _ _ _ (Or.inl (by omega))]
    cases t with
    | node m rs => simp [preorder, List.replicate_append_replicate]

end Notmuch.TreeDrawProofs
