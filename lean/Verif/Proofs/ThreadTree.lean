import Verif.Spec.ThreadTree

namespace Notmuch.ThreadTree
open Notmuch.ThreadTreeSpec

/-- No message is a reply twice. -/
structure Forest (r : Replies) : Prop where
  nodup : ∀ p, (r p).Nodup
  unique : ∀ p q c, c ∈ r p → c ∈ r q → p = q

/-- Descendants. -/
inductive Reach (r : Replies) : Str → Str → Prop
  | refl (a : Str) : Reach r a a
  | step {a b c : Str} : Reach r a b → c ∈ r b → Reach r a c

theorem Reach.trans {r : Replies} {a b c : Str} (h1 : Reach r a b) (h2 : Reach r b c) : Reach r a c := by
  induction h2 with
  | refl => exact h1
  | step _ hc ih => exact .step ih hc

theorem Reach.linear {r : Replies} (hf : Forest r) {a b x : Str} (h1 : Reach r a x) (h2 : Reach r b x) :
    Reach r a b ∨ Reach r b a := by
  induction h1 generalizing b with
  | refl => exact Or.inr h2
  | @step y x ha hc ih =>
    cases h2 with
    | refl => exact Or.inl (.step ha hc)
    | @step y' _ hb hc' =>
      have := hf.unique _ _ _ hc hc'
      subst this
      exact ih hb

theorem Reach.root {r : Replies} {a t : Str} (ht : ∀ p, t ∉ r p) (h : Reach r a t) : a = t := by
  cases h with
  | refl => rfl
  | step _ hc => exact absurd hc (ht _)

theorem acyclic {r : Replies} (hf : Forest r) {t m : Str} (ht : ∀ p, t ∉ r p) (h : Reach r t m) :
    ∀ c ∈ r m, ¬ Reach r c m := by
  induction h with
  | refl =>
    intro c hc hr
    have := hr.root ht
    subst this
    exact ht _ hc
  | @step m' m h1 h2 ih =>
    intro c hc hr
    apply ih m h2
    refine Reach.trans (Reach.step (.refl m) hc) ?_
    cases hr with
    | refl =>
      have := hf.unique _ _ _ hc h2
      subst this
      exact .refl _
    | @step y _ hy hc' =>
      have := hf.unique _ _ _ hc' h2
      subst this
      exact hy

theorem siblings {r : Replies} (hf : Forest r) {t m c1 c2 x : Str} (ht : ∀ p, t ∉ r p) (h : Reach r t m)
    (h1 : c1 ∈ r m) (h2 : c2 ∈ r m) (hx1 : Reach r c1 x) (hx2 : Reach r c2 x) : c1 = c2 := by
  have key : ∀ a b, a ∈ r m → b ∈ r m → Reach r a b → a = b := by
    intro a b ha hb hab
    cases hab with
    | refl => rfl
    | @step y _ hy hc =>
      have := hf.unique _ _ _ hc hb
      subst this
      exact absurd hy (acyclic hf ht h a ha)
  rcases Reach.linear hf hx1 hx2 with h3 | h3
  · exact key _ _ h1 h2 h3
  · exact (key _ _ h2 h1 h3).symm

theorem roots_disjoint {r : Replies} (hf : Forest r) {t1 t2 x : Str} (ht1 : ∀ p, t1 ∉ r p) (ht2 : ∀ p, t2 ∉ r p)
    (hx1 : Reach r t1 x) (hx2 : Reach r t2 x) : t1 = t2 := by
  rcases Reach.linear hf hx1 hx2 with h3 | h3
  · exact h3.root ht2
  · exact (h3.root ht1).symm

/-- The ancestors of a message. -/
inductive Path (r : Replies) : Str → List Str → Prop
  | root {t : Str} : (∀ p, t ∉ r p) → Path r t [t]
  | step {m c : Str} {l : List Str} : Path r m l → c ∈ r m → Path r c (c :: l)

theorem Path.mem {r : Replies} {m : Str} {l : List Str} (h : Path r m l) : ∀ x ∈ l, Reach r x m := by
  induction h with
  | root _ => intro x hx; simp at hx; subst hx; exact .refl _
  | step h hc ih =>
    intro x hx
    rcases List.mem_cons.1 hx with rfl | hx
    · exact .refl _
    · exact .step (ih x hx) hc

theorem Path.ofRoot {r : Replies} {m : Str} {l : List Str} (h : Path r m l) : ∃ t, (∀ p, t ∉ r p) ∧ Reach r t m := by
  induction h with
  | root h => exact ⟨_, h, .refl _⟩
  | step h hc ih => obtain ⟨t, h1, h2⟩ := ih; exact ⟨t, h1, .step h2 hc⟩

theorem Path.nodup {r : Replies} (hf : Forest r) {m : Str} {l : List Str} (h : Path r m l) : l.Nodup := by
  induction h with
  | root _ => simp
  | @step m c l h hc ih =>
    rw [List.nodup_cons]
    refine ⟨fun hm => ?_, ih⟩
    obtain ⟨t, h1, h2⟩ := h.ofRoot
    exact acyclic hf h1 h2 c hc (h.mem c hm)

/-- All messages with replies or being replies are in `ids`. -/
def Within (ids : List Str) (r : Replies) : Prop := ∀ p c, c ∈ r p → p ∈ ids ∧ c ∈ ids

theorem Path.subset {r : Replies} {ids : List Str} (hw : Within ids r) {m : Str} {l : List Str} (h : Path r m l)
    (hm : m ∈ ids) : ∀ x ∈ l, x ∈ ids := by
  induction h with
  | root _ => intro x hx; simp at hx; subst hx; exact hm
  | step h hc ih =>
    intro x hx
    rcases List.mem_cons.1 hx with rfl | hx
    · exact hm
    · exact ih (hw _ _ hc).1 x hx

theorem nodup_length_le {l ids : List Str} (h : l.Nodup) (hs : ∀ x ∈ l, x ∈ ids) : l.length ≤ ids.length := by
  induction l generalizing ids with
  | nil => simp
  | cons a l ih =>
    rw [List.nodup_cons] at h
    have ha := hs a (by simp)
    have := ih (ids := ids.erase a) h.2 (by
      intro x hx
      have hne : x ≠ a := fun e => h.1 (e ▸ hx)
      exact (List.mem_erase_of_ne hne).2 (hs x (by simp [hx])))
    rw [List.length_erase_of_mem ha] at this
    have : 0 < ids.length := List.length_pos_of_mem ha
    simp; omega

theorem labelAll_nil (r : Replies) (n depth : Nat) (lab : Str → Nat) : labelAll r n depth [] lab = some lab := rfl
theorem labelAll_cons (r : Replies) (n depth : Nat) (c : Str) (cs : List Str) (lab : Str → Nat) :
    labelAll r n depth (c :: cs) lab = match label r n depth c lab with
      | none => none
      | some lab' => labelAll r n depth cs lab' := rfl
theorem treesAux_nil' (sort : List Str → List Str) (r : Replies) (n : Nat) : treesAux sort r n [] = some [] := rfl
theorem treesAux_cons' (sort : List Str → List Str) (r : Replies) (n : Nat) (c : Str) (cs : List Str) :
    treesAux sort r n (c :: cs) = match tree sort r n c, treesAux sort r n cs with
      | some t, some ts => some (t :: ts)
      | _, _ => none := rfl
theorem tree_succ' (sort : List Str → List Str) (r : Replies) (n : Nat) (m : Str) :
    tree sort r (n + 1) m = match treesAux sort r n (sort (r m)) with
      | none => none
      | some ts => some (.node m ts) := rfl

/-- Labelling terminates. -/
theorem label_some {r : Replies} (hf : Forest r) {ids : List Str} (hw : Within ids r) (n : Nat) :
    (∀ m l depth lab, Path r m l → m ∈ ids → ids.length + 1 ≤ n + l.length → ∃ lab', label r n depth m lab = some lab') ∧
    (∀ cs depth lab, (∀ c ∈ cs, c ∈ ids ∧ ∃ l, Path r c l ∧ ids.length + 1 ≤ n + l.length) →
      ∃ lab', labelAll r n depth cs lab = some lab') := by
  induction n with
  | zero =>
    have h1 : ∀ m l depth lab, Path r m l → m ∈ ids → ids.length + 1 ≤ 0 + l.length →
        ∃ lab', label r 0 depth m lab = some lab' := by
      intro m l depth lab hp hm hl
      have := nodup_length_le (hp.nodup hf) (hp.subset hw hm)
      omega
    refine ⟨h1, ?_⟩
    intro cs depth lab hc
    cases cs with
    | nil => exact ⟨lab, by rw [labelAll_nil]⟩
    | cons c cs =>
      obtain ⟨hm, l, hp, hl⟩ := hc c (by simp)
      have := nodup_length_le (hp.nodup hf) (hp.subset hw hm)
      omega
  | succ n ih =>
    have h1 : ∀ m l depth lab, Path r m l → m ∈ ids → ids.length + 1 ≤ (n + 1) + l.length →
        ∃ lab', label r (n + 1) depth m lab = some lab' := by
      intro m l depth lab hp hm hl
      rw [label]
      apply ih.2 (r m) (depth + 1)
      intro c hc
      exact ⟨(hw _ _ hc).2, c :: l, .step hp hc, by simp; omega⟩
    refine ⟨h1, ?_⟩
    intro cs
    induction cs with
    | nil => intro depth lab _; exact ⟨lab, by rw [labelAll_nil]⟩
    | cons c cs ihc =>
      intro depth lab hc
      obtain ⟨hm, l, hp, hl⟩ := hc c (by simp)
      obtain ⟨lab', hlab⟩ := h1 c l depth lab hp hm hl
      rw [labelAll_cons, hlab]
      exact ihc depth lab' (fun c hc' => hc c (by simp [hc']))

theorem treesAux_cons {sort : List Str → List Str} {r : Replies} {n : Nat} {c : Str} {cs : List Str} {ts : List Tree}
    (h : treesAux sort r n (c :: cs) = some ts) :
    ∃ t ts', tree sort r n c = some t ∧ treesAux sort r n cs = some ts' ∧ ts = t :: ts' := by
  rw [treesAux_cons'] at h
  split at h
  · rename_i t ts' h1 h2
    exact ⟨t, ts', h1, h2, by simpa using h.symm⟩
  · simp at h

theorem tree_succ {sort : List Str → List Str} {r : Replies} {n : Nat} {m : Str} {t : Tree}
    (h : tree sort r (n + 1) m = some t) : ∃ ts, treesAux sort r n (sort (r m)) = some ts ∧ t = .node m ts := by
  rw [tree_succ'] at h
  split at h
  · simp at h
  · rename_i ts h1
    exact ⟨ts, h1, by simpa using h.symm⟩

/-- Building the trees terminates. -/
theorem tree_some {r : Replies} (hf : Forest r) {ids : List Str} (hw : Within ids r) (sort : List Str → List Str)
    (hs : ∀ l x, x ∈ sort l ↔ x ∈ l) (n : Nat) :
    (∀ m l, Path r m l → m ∈ ids → ids.length + 1 ≤ n + l.length → ∃ t, tree sort r n m = some t) ∧
    (∀ cs, (∀ c ∈ cs, c ∈ ids ∧ ∃ l, Path r c l ∧ ids.length + 1 ≤ n + l.length) →
      ∃ ts, treesAux sort r n cs = some ts) := by
  have second : (∀ m l, Path r m l → m ∈ ids → ids.length + 1 ≤ n + l.length → ∃ t, tree sort r n m = some t) →
    (∀ cs, (∀ c ∈ cs, c ∈ ids ∧ ∃ l, Path r c l ∧ ids.length + 1 ≤ n + l.length) →
      ∃ ts, treesAux sort r n cs = some ts) := by
    intro h1 cs
    induction cs with
    | nil => intro _; exact ⟨[], by rw [treesAux_nil']⟩
    | cons c cs ih =>
      intro hc
      obtain ⟨hm, l, hp, hl⟩ := hc c (by simp)
      obtain ⟨t, ht⟩ := h1 c l hp hm hl
      obtain ⟨ts, hts⟩ := ih (fun c hc' => hc c (by simp [hc']))
      exact ⟨t :: ts, by rw [treesAux_cons', ht, hts]⟩
  induction n with
  | zero =>
    have h1 : ∀ m l, Path r m l → m ∈ ids → ids.length + 1 ≤ 0 + l.length → ∃ t, tree sort r 0 m = some t := by
      intro m l hp hm hl
      have := nodup_length_le (hp.nodup hf) (hp.subset hw hm)
      omega
    exact ⟨h1, second h1⟩
  | succ n ih =>
    have hrec := ih (by
      intro h1 cs
      induction cs with
      | nil => intro _; exact ⟨[], by rw [treesAux_nil']⟩
      | cons c cs ih =>
        intro hc
        obtain ⟨hm, l, hp, hl⟩ := hc c (by simp)
        obtain ⟨t, ht⟩ := h1 c l hp hm hl
        obtain ⟨ts, hts⟩ := ih (fun c hc' => hc c (by simp [hc']))
        exact ⟨t :: ts, by rw [treesAux_cons', ht, hts]⟩)
    have h1 : ∀ m l, Path r m l → m ∈ ids → ids.length + 1 ≤ (n + 1) + l.length → ∃ t, tree sort r (n + 1) m = some t := by
      intro m l hp hm hl
      obtain ⟨ts, hts⟩ := hrec.2 (sort (r m)) (by
        intro c hc
        rw [hs] at hc
        exact ⟨(hw _ _ hc).2, c :: l, .step hp hc, by simp; omega⟩)
      exact ⟨.node m ts, by rw [tree_succ', hts]⟩
    exact ⟨h1, second h1⟩

/-- The roots of the trees. -/
theorem treesAux_roots {sort : List Str → List Str} {r : Replies} {n : Nat} :
    ∀ {cs : List Str} {ts : List Tree}, treesAux sort r n cs = some ts → ts.map root = cs := by
  intro cs
  induction cs with
  | nil => intro ts h; simp [treesAux_nil'] at h; subst h; rfl
  | cons c cs ih =>
    intro ts h
    obtain ⟨t, ts', h1, h2, rfl⟩ := treesAux_cons h
    have : root t = c := by
      cases n with
      | zero => simp [tree] at h1
      | succ n => obtain ⟨_, _, rfl⟩ := tree_succ h1; rfl
    rw [List.map_cons, this, ih h2]

/-- The nodes of the trees. -/
theorem mem_nodes {sort : List Str → List Str} {r : Replies} (hs : ∀ l x, x ∈ sort l ↔ x ∈ l) (n : Nat) :
    (∀ m t, tree sort r n m = some t → ∀ x, x ∈ nodes t ↔ Reach r m x) ∧
    (∀ cs ts, treesAux sort r n cs = some ts → ∀ x, x ∈ nodesAll ts ↔ ∃ c ∈ cs, Reach r c x) := by
  have second : (∀ m t, tree sort r n m = some t → ∀ x, x ∈ nodes t ↔ Reach r m x) →
      (∀ cs ts, treesAux sort r n cs = some ts → ∀ x, x ∈ nodesAll ts ↔ ∃ c ∈ cs, Reach r c x) := by
    intro h1 cs
    induction cs with
    | nil => intro ts h x; simp [treesAux_nil'] at h; subst h; simp [nodesAll]
    | cons c cs ih =>
      intro ts h x
      obtain ⟨t, ts', h2, h3, rfl⟩ := treesAux_cons h
      rw [nodesAll, List.mem_append, h1 c t h2, ih ts' h3]
      simp
  suffices h1 : ∀ m t, tree sort r n m = some t → ∀ x, x ∈ nodes t ↔ Reach r m x from ⟨h1, second h1⟩
  clear second
  induction n with
  | zero => intro m t h; simp [tree] at h
  | succ n ih =>
    have h2 : (∀ cs ts, treesAux sort r n cs = some ts → ∀ x, x ∈ nodesAll ts ↔ ∃ c ∈ cs, Reach r c x) := by
      intro cs
      induction cs with
      | nil => intro ts h x; simp [treesAux_nil'] at h; subst h; simp [nodesAll]
      | cons c cs ihc =>
        intro ts h x
        obtain ⟨t, ts', h2, h3, rfl⟩ := treesAux_cons h
        rw [nodesAll, List.mem_append, ih c t h2, ihc ts' h3]
        simp
    intro m t h x
    obtain ⟨ts, hts, rfl⟩ := tree_succ h
    rw [nodes, List.mem_cons, h2 _ _ hts]
    constructor
    · rintro (rfl | ⟨c, hc, hx⟩)
      · exact .refl _
      · rw [hs] at hc
        exact Reach.trans (.step (.refl m) hc) hx
    · intro hx
      clear hts h
      induction hx with
      | refl => exact Or.inl rfl
      | @step b c hb hc ihx =>
        right
        rcases ihx with rfl | ⟨c', hc', hx'⟩
        · exact ⟨c, (hs _ _).2 hc, .refl _⟩
        · exact ⟨c', hc', .step hx' hc⟩

/-- No node occurs twice. -/
theorem nodup_nodes {sort : List Str → List Str} {r : Replies} (hf : Forest r) (hs : ∀ l x, x ∈ sort l ↔ x ∈ l)
    (hn : ∀ l, l.Nodup → (sort l).Nodup) (n : Nat) :
    ∀ m t, tree sort r n m = some t → (∃ t0, (∀ p, t0 ∉ r p) ∧ Reach r t0 m) → (nodes t).Nodup := by
  induction n with
  | zero => intro m t h; simp [tree] at h
  | succ n ih =>
    intro m t h hroot
    obtain ⟨ts, hts, rfl⟩ := tree_succ h
    rw [nodes, List.nodup_cons]
    obtain ⟨t0, ht0, hr0⟩ := hroot
    refine ⟨?_, ?_⟩
    · rw [(mem_nodes hs n).2 _ _ hts]
      rintro ⟨c, hc, hx⟩
      exact acyclic hf ht0 hr0 c ((hs _ _).1 hc) hx
    · have gen : ∀ cs ts, treesAux sort r n cs = some ts → cs.Nodup → (∀ c ∈ cs, c ∈ r m) → (nodesAll ts).Nodup := by
        intro cs
        induction cs with
        | nil => intro ts h _ _; simp [treesAux_nil'] at h; subst h; simp [nodesAll]
        | cons c cs ihc =>
          intro ts h hnd hm
          obtain ⟨t, ts', h2, h3, rfl⟩ := treesAux_cons h
          rw [List.nodup_cons] at hnd
          rw [nodesAll, List.nodup_append]
          refine ⟨ih c t h2 ⟨t0, ht0, .step hr0 (hm c (by simp))⟩, ihc ts' h3 hnd.2 (fun c hc => hm c (by simp [hc])), ?_⟩
          rintro a ha b hb rfl
          rw [(mem_nodes hs n).1 _ _ h2] at ha
          rw [(mem_nodes hs n).2 _ _ h3] at hb
          obtain ⟨c', hc', hb⟩ := hb
          have := siblings hf ht0 hr0 (hm c (by simp)) (hm c' (by simp [hc'])) ha hb
          subst this
          exact hnd.1 hc'
      exact gen _ _ hts (hn _ (hf.nodup m)) (fun c hc => (hs _ _).1 hc)

end Notmuch.ThreadTree
