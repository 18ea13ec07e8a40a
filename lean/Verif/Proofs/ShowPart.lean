import Verif.Proofs.ShowAll

/-! # notmuch show: parts, failures, unthreaded output (C55) -/

namespace Notmuch.Show

open Notmuch.Sprinter

theorem Inside.trans {a b c : Val} (h : Inside a b) (h' : Inside b c) : Inside a c := by
  induction h with
  | self => exact h'
  | element hx _ ih => exact .element hx (ih h')
  | member hx _ ih => exact .member hx (ih h')

mutual
theorem part_inside {o : Opts} {P : Headers → Prop} : ∀ (t : Node) (n k : Nat) (u : Node), t.Good P → t.nodes[k]? = some u → Inside (partVal o t n) (partVal o u (n + k))
  | .part i f x c e len kids, n, 0, u, _, h => by
    rw [Node.nodes] at h; simp at h; subst h; exact .self
  | .multipart i kids, n, 0, u, _, h => by
    rw [Node.nodes] at h; simp at h; subst h; exact .self
  | .message i hd kids, n, 0, u, _, h => by
    rw [Node.nodes] at h; simp at h; subst h; exact .self
  | .part i f x c e len kids, n, k + 1, u, hg, h => by
    rw [Node.Good] at hg
    rw [Node.nodes, List.getElem?_cons_succ] at h
    have hk : kids ≠ [] := by rintro rfl; simp [Node.nodesList] at h
    have hs : ¬ i.showText o.html = true := fun hs => hk (hg.1 (showText_text hs))
    obtain ⟨v, hv, hi⟩ := parts_inside (o := o) kids (n + 1) k u hg.2 h
    rw [partVal, if_neg hs, if_pos hk]
    refine .member (k := bs "content") (x := .list (partsVal o kids (n + 1))) (by simp [one]) (.element hv ?_)
    rw [show n + (k + 1) = n + 1 + k by omega]
    exact hi
  | .multipart i kids, n, k + 1, u, hg, h => by
    rw [Node.Good] at hg
    rw [Node.nodes, List.getElem?_cons_succ] at h
    obtain ⟨v, hv, hi⟩ := parts_inside (o := o) kids (n + 1) k u hg h
    rw [partVal]
    refine .member (k := bs "content") (x := .list (partsVal o kids (n + 1))) (by simp [one]) (.element hv ?_)
    rw [show n + (k + 1) = n + 1 + k by omega]
    exact hi
  | .message i hd kids, n, k + 1, u, hg, h => by
    rw [Node.Good] at hg
    rw [Node.nodes, List.getElem?_cons_succ] at h
    obtain ⟨v, hv, hi⟩ := parts_inside (o := o) kids (n + 1) k u hg.2 h
    rw [partVal]
    refine .member (k := bs "content") (x := .list _) (by simp only [one, List.mem_append, List.mem_singleton]; exact Or.inr rfl)
      (.element (List.mem_singleton.2 rfl) (.member (k := bs "body") (x := .list (partsVal o kids (n + 1))) (by simp) (.element hv ?_)))
    rw [show n + (k + 1) = n + 1 + k by omega]
    exact hi

theorem parts_inside {o : Opts} {P : Headers → Prop} : ∀ (l : List Node) (n k : Nat) (u : Node), Node.GoodAll P l → (Node.nodesList l)[k]? = some u →
    ∃ v ∈ partsVal o l n, Inside v (partVal o u (n + k))
  | [], n, k, u, _, h => by simp [Node.nodesList] at h
  | t :: l, n, k, u, hg, h => by
    rw [Node.GoodAll] at hg
    rw [Node.nodesList] at h
    rw [partsVal]
    by_cases hk : k < t.nodes.length
    · rw [List.getElem?_append_left hk] at h
      exact ⟨_, by simp, part_inside t n k u hg.1 h⟩
    · rw [List.getElem?_append_right (by omega)] at h
      obtain ⟨v, hv, hi⟩ := parts_inside (o := o) l (n + t.size) (k - t.nodes.length) u hg.2 h
      refine ⟨v, by simp [hv], ?_⟩
      rw [size_nodes, show n + t.nodes.length + (k - t.nodes.length) = n + k by omega] at hi
      exact hi
end

mutual
theorem good_node {P : Headers → Prop} : ∀ (t : Node) (u : Node), t.Good P → u ∈ t.nodes → u.Good P
  | .part i f x c e len kids, u, hg, h => by
    rw [Node.nodes] at h
    rcases List.mem_cons.1 h with rfl | h
    · exact hg
    · rw [Node.Good] at hg; exact good_nodes kids u hg.2 h
  | .multipart i kids, u, hg, h => by
    rw [Node.nodes] at h
    rcases List.mem_cons.1 h with rfl | h
    · exact hg
    · rw [Node.Good] at hg; exact good_nodes kids u hg h
  | .message i hd kids, u, hg, h => by
    rw [Node.nodes] at h
    rcases List.mem_cons.1 h with rfl | h
    · exact hg
    · rw [Node.Good] at hg; exact good_nodes kids u hg.2 h

theorem good_nodes {P : Headers → Prop} : ∀ (l : List Node) (u : Node), Node.GoodAll P l → u ∈ Node.nodesList l → u.Good P
  | [], u, _, h => by simp [Node.nodesList] at h
  | t :: l, u, hg, h => by
    rw [Node.GoodAll] at hg
    rw [Node.nodesList] at h
    rcases List.mem_append.1 h with h | h
    · exact good_node t u hg.1 h
    · exact good_nodes l u hg.2 h
end

mutual
theorem good_mono {P Q : Headers → Prop} (h : ∀ x, P x → Q x) : ∀ t : Node, t.Good P → t.Good Q
  | .part i f x c e len kids, hg => by rw [Node.Good] at hg ⊢; exact ⟨hg.1, goods_mono h kids hg.2⟩
  | .multipart i kids, hg => by rw [Node.Good] at hg ⊢; exact goods_mono h kids hg
  | .message i hd kids, hg => by rw [Node.Good] at hg ⊢; exact ⟨h _ hg.1, goods_mono h kids hg.2⟩

theorem goods_mono {P Q : Headers → Prop} (h : ∀ x, P x → Q x) : ∀ l : List Node, Node.GoodAll P l → Node.GoodAll Q l
  | [], _ => by rw [Node.GoodAll]; trivial
  | t :: l, hg => by rw [Node.GoodAll] at hg ⊢; exact ⟨good_mono h t hg.1, goods_mono h l hg.2⟩
end

theorem root_mono {P Q : Headers → Prop} (h : ∀ x, P x → Q x) {r : Root} (hg : r.Good P) : r.Good Q := ⟨h _ hg.1, good_mono h _ hg.2⟩

/-! ## Failures -/

theorem openRoot_none (d : Int) (l : List File) : openRoot d l = none ↔ ¬∃ f r, Chosen d l f ∧ f.root = some r := by
  unfold openRoot
  constructor
  · rintro h ⟨f, r, hc, hr⟩
    rw [(open_iff d l f).2 hc] at h
    simp [hr] at h
  · intro h
    cases ho : openFile d l with
    | none => rfl
    | some f =>
      cases hr : f.root with
      | none => simp [hr]
      | some r => exact absurd ⟨f, r, (open_iff d l f).1 ho, hr⟩ h

theorem showMessage_fail {fm : Format} (hf : fm = .structured ∨ fm = .text) (p : Params) (depth : Nat) (m : Msg) : (showMessage fm p depth m).2 = true ↔ ¬CanOpen p.opts.duplicate m := by
  unfold CanOpen
  rw [← openRoot_none]
  unfold showMessage
  cases ho : openRoot p.opts.duplicate m.files with
  | none => simp
  | some r =>
    simp only []
    cases hs : seek r p.part with
    | none => simp
    | some t => rcases hf with rfl | rfl <;> cases t <;> simp [formatPart]

mutual
theorem tree_fail {fm : Format} (hf : fm = .structured ∨ fm = .text) (p : Params) : ∀ (t : Tree) (depth : Nat),
    (showTree fm p depth t).2 = true ↔ ∃ m ∈ t.msgs, shown p m = true ∧ ¬CanOpen p.opts.duplicate m
  | .node m l, depth => by
    rw [showTree]
    simp only [Bool.or_eq_true, trees_fail hf p l, Tree.msgs, List.mem_cons]
    have : (showOne fm p depth m).2 = true ↔ shown p m = true ∧ ¬CanOpen p.opts.duplicate m := by
      unfold showOne
      by_cases hs : shown p m = true
      · rw [if_pos hs, showMessage_fail hf]; simp [hs]
      · rw [if_neg hs]; simp [hs]
    rw [this]
    constructor
    · rintro (h | ⟨x, hx, h⟩)
      · exact ⟨m, Or.inl rfl, h⟩
      · exact ⟨x, Or.inr hx, h⟩
    · rintro ⟨x, rfl | hx, h⟩
      · exact Or.inl h
      · exact Or.inr ⟨x, hx, h⟩

theorem trees_fail {fm : Format} (hf : fm = .structured ∨ fm = .text) (p : Params) : ∀ (l : List Tree) (depth : Nat),
    (showTrees fm p depth l).2 = true ↔ ∃ m ∈ Tree.msgsList l, shown p m = true ∧ ¬CanOpen p.opts.duplicate m
  | [], depth => by rw [showTrees, Tree.msgsList]; simp
  | t :: l, depth => by
    rw [showTrees, Tree.msgsList]
    simp only [Bool.or_eq_true, tree_fail hf p t, trees_fail hf p l, List.mem_append]
    constructor
    · rintro (⟨x, hx, h⟩ | ⟨x, hx, h⟩)
      · exact ⟨x, Or.inl hx, h⟩
      · exact ⟨x, Or.inr hx, h⟩
    · rintro ⟨x, hx | hx, h⟩
      · exact Or.inl ⟨x, hx, h⟩
      · exact Or.inr ⟨x, hx, h⟩
end

theorem all_fail {α : Type} (f : α → List Ev × Bool) : ∀ l : List α, (showAll f l).2 = true ↔ ∃ x ∈ l, (f x).2 = true
  | [] => by simp [showAll]
  | x :: l => by rw [showAll]; simp [all_fail f l]

/-! ## Without threads -/

theorem alone_calls {P : Headers → Prop} {p : Params} (hp : p.part ≤ 0) {m : Msg} (h : (m.excluded = false ∨ p.omitExcluded = false) → Readable P p.opts.duplicate m) :
    norm (calls (showAlone .structured p m).1) =
      (Val.list [.list [if m.excluded = true ∧ p.omitExcluded = true then .null else msgVal p.opts { m with isMatch := true }]]).calls ∧ (showAlone .structured p m).2 = false := by
  unfold showAlone
  simp only []
  by_cases hx : m.excluded = true ∧ p.omitExcluded = true
  · rw [if_pos hx, if_neg (by simp [hx.1, hx.2])]
    refine ⟨?_, rfl⟩
    simp [calls, n_list, n_end, n_nil, n_null, Val.calls, Val.callsList]
  · rw [if_neg hx, if_pos (by cases he : m.excluded <;> cases ho : p.omitExcluded <;> simp [he, ho] at hx ⊢)]
    have hr : Readable P p.opts.duplicate { m with isMatch := true } := by
      have := h (by cases he : m.excluded <;> cases ho : p.omitExcluded <;> simp [he, ho] at hx ⊢)
      exact this
    have := showMessage_calls (P := P) hp 0 hr
    refine ⟨?_, this.2⟩
    simp only [calls_app, norm_app, this.1]
    simp [calls, n_list, n_end, n_nil, Val.calls, Val.callsList]

mutual
/-- The text of a part is inside that of the parts around it. -/
theorem text_inside {o : Opts} (hb : o.body = true) : ∀ (t : Node) (n k : Nat) (u : Node), t.nodes[k]? = some u → ∃ pre post, textPart o t n = pre ++ textPart o u (n + k) ++ post
  | .part i f x c e len kids, n, 0, u, h => by
    rw [Node.nodes] at h; simp at h; subst h; exact ⟨[], [], by simp⟩
  | .multipart i kids, n, 0, u, h => by
    rw [Node.nodes] at h; simp at h; subst h; exact ⟨[], [], by simp⟩
  | .message i hd kids, n, 0, u, h => by
    rw [Node.nodes] at h; simp at h; subst h; exact ⟨[], [], by simp⟩
  | .part i f x c e len kids, n, k + 1, u, h => by
    rw [Node.nodes, List.getElem?_cons_succ] at h
    obtain ⟨pre, post, e⟩ := texts_inside hb kids (n + 1) k u h
    rw [textPart, e, show n + 1 + k = n + (k + 1) by omega]
    exact ⟨textBegin i n f ++ (if i.showText o.html then x else bs "Non-text part: " ++ i.mimeType ++ [10]) ++ pre, post ++ 12 :: partType i ++ bs "}\n", by simp only [List.append_assoc, List.cons_append]⟩
  | .multipart i kids, n, k + 1, u, h => by
    rw [Node.nodes, List.getElem?_cons_succ] at h
    obtain ⟨pre, post, e⟩ := texts_inside hb kids (n + 1) k u h
    rw [textPart, e, show n + 1 + k = n + (k + 1) by omega]
    exact ⟨textBegin i n none ++ pre, post ++ 12 :: partType i ++ bs "}\n", by simp only [List.append_assoc, List.cons_append]⟩
  | .message i hd kids, n, k + 1, u, h => by
    rw [Node.nodes, List.getElem?_cons_succ] at h
    obtain ⟨pre, post, e⟩ := texts_inside hb kids (n + 1) k u h
    rw [textPart, e, if_pos hb, show n + 1 + k = n + (k + 1) by omega]
    exact ⟨textBegin i n none ++ textHeaders [] hd ++ (12 :: bs "body{\n") ++ pre, post ++ 12 :: bs "body}\n" ++ 12 :: partType i ++ bs "}\n", by simp only [List.append_assoc, List.cons_append]⟩

theorem texts_inside {o : Opts} (hb : o.body = true) : ∀ (l : List Node) (n k : Nat) (u : Node), (Node.nodesList l)[k]? = some u → ∃ pre post, textParts o l n = pre ++ textPart o u (n + k) ++ post
  | [], n, k, u, h => by simp [Node.nodesList] at h
  | t :: l, n, k, u, h => by
    rw [Node.nodesList] at h
    rw [textParts]
    by_cases hk : k < t.nodes.length
    · rw [List.getElem?_append_left hk] at h
      obtain ⟨pre, post, e⟩ := text_inside hb t n k u h
      exact ⟨pre, post ++ textParts o l (n + t.size), by rw [e]; simp only [List.append_assoc]⟩
    · rw [List.getElem?_append_right (by omega)] at h
      obtain ⟨pre, post, e⟩ := texts_inside hb l (n + t.size) (k - t.nodes.length) u h
      rw [size_nodes, show n + t.nodes.length + (k - t.nodes.length) = n + k by omega] at e
      exact ⟨textPart o t n ++ pre, post, by rw [size_nodes, e]; simp only [List.append_assoc]⟩
end

end Notmuch.Show
