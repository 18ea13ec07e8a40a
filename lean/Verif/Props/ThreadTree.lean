import Verif.Proofs.ThreadTree3

/-!
# C21: the reply forest of a thread
-/

namespace Notmuch.Props
open Notmuch.ThreadTree Notmuch.ThreadTreeSpec

theorem _root_.Notmuch.ThreadTree.Reach.head {r : Replies} {m p : Str} (h : Reach r m p) :
    m = p ∨ ∃ d ∈ r m, Reach r d p := by
  induction h with
  | refl => exact Or.inl rfl
  | step _ hc ihx =>
    rcases ihx with rfl | ⟨d, hd, hx⟩
    · exact Or.inr ⟨_, hc, .refl _⟩
    · exact Or.inr ⟨d, hd, .step hx hc⟩

theorem replyTo_iff {sort : List Str → List Str} {r : Replies} (hs : ∀ l x, x ∈ sort l ↔ x ∈ l) (n : Nat) (p c : Str) :
    (∀ m t, tree sort r n m = some t → (ReplyTo p c t ↔ Reach r m p ∧ c ∈ r p)) ∧
    (∀ cs ts, treesAux sort r n cs = some ts → (ReplyToAny p c ts ↔ (∃ m ∈ cs, Reach r m p) ∧ c ∈ r p)) := by
  have second : (∀ m t, tree sort r n m = some t → (ReplyTo p c t ↔ Reach r m p ∧ c ∈ r p)) →
      (∀ cs ts, treesAux sort r n cs = some ts → (ReplyToAny p c ts ↔ (∃ m ∈ cs, Reach r m p) ∧ c ∈ r p)) := by
    intro h1 cs
    induction cs with
    | nil => intro ts h; simp [treesAux_nil'] at h; subst h; simp [ReplyToAny]
    | cons d cs ih =>
      intro ts h
      obtain ⟨t, ts', h2, h3, rfl⟩ := treesAux_cons h
      rw [ReplyToAny, h1 d t h2, ih ts' h3]
      constructor
      · rintro (⟨h4, h5⟩ | ⟨⟨m, hm, h4⟩, h5⟩)
        · exact ⟨⟨d, by simp, h4⟩, h5⟩
        · exact ⟨⟨m, by simp [hm], h4⟩, h5⟩
      · rintro ⟨⟨m, hm, h4⟩, h5⟩
        rcases List.mem_cons.1 hm with rfl | hm
        · exact Or.inl ⟨h4, h5⟩
        · exact Or.inr ⟨⟨m, hm, h4⟩, h5⟩
  induction n with
  | zero =>
    have h1 : ∀ m t, tree sort r 0 m = some t → (ReplyTo p c t ↔ Reach r m p ∧ c ∈ r p) := by
      intro m t h; simp [tree] at h
    exact ⟨h1, second h1⟩
  | succ n ih =>
    have h1 : ∀ m t, tree sort r (n + 1) m = some t → (ReplyTo p c t ↔ Reach r m p ∧ c ∈ r p) := by
      intro m t h
      obtain ⟨ts, hts, rfl⟩ := tree_succ h
      have h2 := (ih (by
        intro h1 cs
        induction cs with
        | nil => intro ts h; simp [treesAux_nil'] at h; subst h; simp [ReplyToAny]
        | cons d cs ih =>
          intro ts h
          obtain ⟨t, ts', h2, h3, rfl⟩ := treesAux_cons h
          rw [ReplyToAny, h1 d t h2, ih ts' h3]
          constructor
          · rintro (⟨h4, h5⟩ | ⟨⟨m, hm, h4⟩, h5⟩)
            · exact ⟨⟨d, by simp, h4⟩, h5⟩
            · exact ⟨⟨m, by simp [hm], h4⟩, h5⟩
          · rintro ⟨⟨m, hm, h4⟩, h5⟩
            rcases List.mem_cons.1 hm with rfl | hm
            · exact Or.inl ⟨h4, h5⟩
            · exact Or.inr ⟨⟨m, hm, h4⟩, h5⟩)).2 _ _ hts
      rw [ReplyTo, h2, treesAux_roots hts, hs]
      constructor
      · rintro (⟨rfl, h4⟩ | ⟨⟨d, hd, h4⟩, h5⟩)
        · exact ⟨.refl _, h4⟩
        · rw [hs] at hd
          exact ⟨Reach.trans (.step (.refl m) hd) h4, h5⟩
      · rintro ⟨h4, h5⟩
        have := h4.head
        rcases this with rfl | ⟨d, hd, hx⟩
        · exact Or.inl ⟨rfl, h5⟩
        · exact Or.inr ⟨⟨d, (hs _ _).2 hd, hx⟩, h5⟩
    exact ⟨h1, second h1⟩

/-- Everything known about a result. -/
theorem resolve_spec (sort : List Str → List Str) (hp : ∀ l, (sort l).Perm l) (msgs : List Msg)
    (hnd : (msgs.map (·.mid)).Nodup) :
    ∃ r top ts, resolve sort msgs = some ts ∧ P3 msgs r top [] ∧ (msgs ≠ [] → top ≠ []) ∧
      treesAux sort r (msgs.length + 1) (sort top) = some ts ∧
      (∀ m ∈ msgs.tail, m.irt ≠ [] → m.irt ∈ msgs.map (·.mid) → m.mid ∈ r m.irt) := by
  obtain ⟨r, top, hl, h3, hne, hrep⟩ := links_spec msgs hnd
  have hs : ∀ l x, x ∈ sort l ↔ x ∈ l := fun l x => (hp l).mem_iff
  obtain ⟨ts, hts⟩ := (tree_some h3.forest h3.within sort hs (msgs.length + 1)).2 (sort top) (by
    intro c hc
    rw [hs] at hc
    exact ⟨h3.topsub c hc, [c], .root (h3.topfree c hc), by simp⟩)
  refine ⟨r, top, ts, ?_, h3, hne, hts, hrep⟩
  unfold resolve
  rw [hl]
  simp only [trees]
  exact hts

/-- C21: whatever the headers say, building the forest terminates; every message is shown at most once,
only messages of the thread are shown, and some message is at top level. -/
theorem C21_forest (sort : List Str → List Str) (hp : ∀ l, (sort l).Perm l) (msgs : List Msg)
    (hnd : (msgs.map (·.mid)).Nodup) :
    ∃ ts, resolve sort msgs = some ts ∧ (nodesAll ts).Nodup ∧ (∀ x ∈ nodesAll ts, x ∈ msgs.map (·.mid)) ∧
      (msgs ≠ [] → ts ≠ []) := by
  obtain ⟨r, top, ts, hres, h3, hne, hts, _⟩ := resolve_spec sort hp msgs hnd
  have hs : ∀ l x, x ∈ sort l ↔ x ∈ l := fun l x => (hp l).mem_iff
  refine ⟨ts, hres, ?_, ?_, ?_⟩
  · have gen : ∀ cs ts, treesAux sort r (msgs.length + 1) cs = some ts → cs.Nodup → (∀ c ∈ cs, c ∈ top) → (nodesAll ts).Nodup := by
      intro cs
      induction cs with
      | nil => intro ts h _ _; simp [treesAux_nil'] at h; subst h; simp [nodesAll]
      | cons c cs ih =>
        intro ts h hn hc
        obtain ⟨t, ts', h1, h2, rfl⟩ := treesAux_cons h
        rw [List.nodup_cons] at hn
        rw [nodesAll, List.nodup_append]
        have hct := h3.topfree c (hc c (by simp))
        refine ⟨nodup_nodes h3.forest hs (fun l hl => (hp l).nodup_iff.2 hl) _ c t h1 ⟨c, hct, .refl _⟩,
          ih ts' h2 hn.2 (fun c hc' => hc c (by simp [hc'])), ?_⟩
        rintro a ha b hb rfl
        rw [(mem_nodes hs _).1 _ _ h1] at ha
        rw [(mem_nodes hs _).2 _ _ h2] at hb
        obtain ⟨d, hd, hb⟩ := hb
        have := roots_disjoint h3.forest hct (h3.topfree d (hc d (by simp [hd]))) ha hb
        subst this
        exact hn.1 hd
    exact gen _ _ hts ((hp top).nodup_iff.2 h3.topnodup) (fun c hc => (hs _ _).1 hc)
  · intro x hx
    rw [(mem_nodes hs _).2 _ _ hts] at hx
    obtain ⟨c, hc, hx⟩ := hx
    rw [hs] at hc
    cases hx with
    | refl => exact h3.topsub _ hc
    | step _ h => exact (h3.within _ _ h).2
  · intro hm he
    have := treesAux_roots hts
    rw [he] at this
    have h4 : sort top = [] := this.symm
    have := (hp top)
    rw [h4] at this
    exact hne hm this.symm.eq_nil

/-- C21: if the links between the messages of the thread contain no cycle (some rank decreases along In-Reply-To
and References), every message is shown exactly once.  (In general it is not:
`C21_in_reply_to_cycle_counterexample`.) -/
theorem C21_complete_if_acyclic_partial (sort : List Str → List Str) (hp : ∀ l, (sort l).Perm l) (msgs : List Msg)
    (hnd : (msgs.map (·.mid)).Nodup) (rank : Str → Nat)
    (hrank : ∀ m ∈ msgs, (m.irt ∈ msgs.map (·.mid) → rank m.irt < rank m.mid) ∧
      ∀ x ∈ m.refs, x ∈ msgs.map (·.mid) → rank x < rank m.mid) :
    ∃ ts, resolve sort msgs = some ts ∧ (nodesAll ts).Perm (msgs.map (·.mid)) := by
  obtain ⟨ts, hres, hnod, hsub, _⟩ := C21_forest sort hp msgs hnd
  refine ⟨ts, hres, ?_⟩
  obtain ⟨r, top, ts', hres', h3, hne, hts, _⟩ := resolve_spec sort hp msgs hnd
  rw [hres] at hres'
  have : ts = ts' := by simpa using hres'
  subst this
  have hs : ∀ l x, x ∈ sort l ↔ x ∈ l := fun l x => (hp l).mem_iff
  have hall : ∀ n x, rank x < n → x ∈ msgs.map (·.mid) → ∃ c ∈ top, Reach r c x := by
    intro n
    induction n with
    | zero => intro x hx; omega
    | succ n ih =>
      intro x hx hm
      rcases h3.cover x hm with ⟨p, hpx⟩ | h | h
      · have hpi := (h3.within p x hpx).1
        obtain ⟨m, hm', e1, e2⟩ := h3.link p x hpx
        have hlt : rank p < rank x := by
          rw [← e1]
          rcases e2 with e2 | e2
          · rw [← e2]; exact (hrank m hm').1 (by rw [e2]; exact hpi)
          · exact (hrank m hm').2 p e2 hpi
        obtain ⟨c, hc, hr⟩ := ih p (by omega) hpi
        exact ⟨c, hc, .step hr hpx⟩
      · exact ⟨x, h, .refl _⟩
      · simp at h
  rw [List.perm_ext_iff_of_nodup hnod hnd]
  intro x
  refine ⟨hsub x, fun hx => ?_⟩
  rw [(mem_nodes hs _).2 _ _ hts]
  obtain ⟨c, hc, hr⟩ := hall _ x (Nat.lt_succ_self _) hx
  exact ⟨c, (hs _ _).2 hc, hr⟩

/-- C21: a message is shown below another only if its headers name that one. -/
theorem C21_replies_are_justified (sort : List Str → List Str) (hp : ∀ l, (sort l).Perm l) (msgs : List Msg)
    (hnd : (msgs.map (·.mid)).Nodup) (ts : List Tree) (h : resolve sort msgs = some ts) (p c : Str)
    (hc : ReplyToAny p c ts) : ∃ m ∈ msgs, m.mid = c ∧ (m.irt = p ∨ p ∈ m.refs) := by
  obtain ⟨r, top, ts', hres', h3, hne, hts, _⟩ := resolve_spec sort hp msgs hnd
  rw [h] at hres'
  have : ts = ts' := by simpa using hres'
  subst this
  have hs : ∀ l x, x ∈ sort l ↔ x ∈ l := fun l x => (hp l).mem_iff
  exact h3.link p c (((replyTo_iff hs _ p c).2 _ _ hts).1 hc).2

/-- C21: a message (other than the first of the thread) that answers a message which is shown, is shown directly
below it. -/
theorem C21_answers_are_below (sort : List Str → List Str) (hp : ∀ l, (sort l).Perm l) (msgs : List Msg)
    (hnd : (msgs.map (·.mid)).Nodup) (ts : List Tree) (h : resolve sort msgs = some ts) (m : Msg) (hm : m ∈ msgs.tail)
    (h1 : m.irt ≠ []) (h2 : m.irt ∈ nodesAll ts) : ReplyToAny m.irt m.mid ts := by
  obtain ⟨ts0, hres0, _, hsub, _⟩ := C21_forest sort hp msgs hnd
  rw [h] at hres0
  have : ts = ts0 := by simpa using hres0
  subst this
  obtain ⟨r, top, ts', hres', h3, hne, hts, hrep⟩ := resolve_spec sort hp msgs hnd
  rw [h] at hres'
  have : ts = ts' := by simpa using hres'
  subst this
  have hs : ∀ l x, x ∈ sort l ↔ x ∈ l := fun l x => (hp l).mem_iff
  have h4 := hrep m hm h1 (hsub _ h2)
  rw [(mem_nodes hs _).2 _ _ hts] at h2
  exact ((replyTo_iff hs _ _ _).2 _ _ hts).2 ⟨h2, h4⟩

/-- C21: siblings are ordered by date. -/
theorem C21_sorted (date : Str → Int) (sort : List Str → List Str) (hs : SortsByDate date sort) (msgs : List Msg)
    (ts : List Tree) (h : resolve sort msgs = some ts) :
    (ts.map root).Pairwise (fun a b => date a ≤ date b) ∧
      EveryAll (fun l => l.Pairwise (fun a b => date a ≤ date b)) ts := by
  unfold resolve at h
  split at h
  · simp at h
  · rename_i r top _
    rw [trees] at h
    refine ⟨by rw [treesAux_roots h]; exact hs.sorted _, ?_⟩
    have gen : ∀ n, (∀ m t, tree sort r n m = some t → Every (fun l => l.Pairwise (fun a b => date a ≤ date b)) t) := by
      intro n
      induction n with
      | zero => intro m t h; simp [tree] at h
      | succ n ih =>
        intro m t h
        obtain ⟨ts, hts, rfl⟩ := tree_succ h
        rw [Every]
        refine ⟨by rw [treesAux_roots hts]; exact hs.sorted _, ?_⟩
        have : ∀ cs ts, treesAux sort r n cs = some ts → EveryAll (fun l => l.Pairwise (fun a b => date a ≤ date b)) ts := by
          intro cs
          induction cs with
          | nil => intro ts h; simp [treesAux_nil'] at h; subst h; simp [EveryAll]
          | cons c cs ihc =>
            intro ts h
            obtain ⟨t, ts', h1, h2, rfl⟩ := treesAux_cons h
            rw [EveryAll]
            exact ⟨ih c t h1, ihc ts' h2⟩
        exact this _ _ hts
    have : ∀ n cs ts, treesAux sort r n cs = some ts → EveryAll (fun l => l.Pairwise (fun a b => date a ≤ date b)) ts := by
      intro n cs
      induction cs with
      | nil => intro ts h; simp [treesAux_nil'] at h; subst h; simp [EveryAll]
      | cons c cs ihc =>
        intro ts h
        obtain ⟨t, ts', h1, h2, rfl⟩ := treesAux_cons h
        rw [EveryAll]
        exact ⟨gen n c t h1, ihc ts' h2⟩
    exact this _ _ _ h

/-- C21: in a thread whose first message answers none of it, take another message that answers none.  If none
of its references is in the thread, it is at top level.  Otherwise it belongs below one of its references
that is in the thread, one at least as deep below its In-Reply-To ancestors as every other; and if that
reference is shown, the message is shown directly below it. -/
theorem C21_orphans_below_deepest_reference (sort : List Str → List Str) (hp : ∀ l, (sort l).Perm l) (first : Msg)
    (rest : List Msg) (hnd : ((first :: rest).map (·.mid)).Nodup) (hfirst : ¬ Answers (first :: rest) first)
    (ts : List Tree) (h : resolve sort (first :: rest) = some ts) (m : Msg) (hm : m ∈ rest)
    (ho : ¬ Answers (first :: rest) m) :
    ((∀ x ∈ m.refs, x ∉ (first :: rest).map (·.mid)) → m.mid ∈ ts.map root) ∧
    ((∃ x ∈ m.refs, x ∈ (first :: rest).map (·.mid)) →
      ∃ p ∈ m.refs, p ∈ (first :: rest).map (·.mid) ∧ (p ∈ nodesAll ts → ReplyToAny p m.mid ts) ∧
        ∀ q ∈ m.refs, ∀ k, Depth (first :: rest) q (k + 1) → ∃ k' ≥ k + 1, Depth (first :: rest) p k') := by
  obtain ⟨r, top, hl, h1, h2⟩ := links_orphan first rest hnd hfirst m hm ho
  obtain ⟨r', top', hl', h3, _, _⟩ := links_spec (first :: rest) hnd
  rw [hl] at hl'
  obtain ⟨rfl, rfl⟩ : r = r' ∧ top = top' := by simpa using hl'
  have hs : ∀ l x, x ∈ sort l ↔ x ∈ l := fun l x => (hp l).mem_iff
  unfold resolve at h
  rw [hl] at h
  simp only [trees] at h
  constructor
  · intro hx
    rw [treesAux_roots h, hs]
    exact h1 hx
  · intro hx
    obtain ⟨p, hpr, hpm, hd⟩ := h2 hx
    refine ⟨p, hpr, (h3.within p _ hpm).1, fun hpn => ?_, hd⟩
    rw [(mem_nodes hs _).2 _ _ h] at hpn
    exact ((replyTo_iff hs _ _ _).2 _ _ h).2 ⟨hpn, hpm⟩

/-- Two messages that claim to answer each other disappear from the tree of a thread with a third message. -/
theorem C21_in_reply_to_cycle_counterexample :
    ∃ msgs : List Msg, (msgs.map (·.mid)).Nodup ∧ ∃ ts, resolve id msgs = some ts ∧
      bs "b" ∈ msgs.map (·.mid) ∧ bs "b" ∉ nodesAll ts := by
  refine ⟨[⟨bs "a", [], [], 0⟩, ⟨bs "b", bs "c", [bs "a", bs "c"], 1⟩, ⟨bs "c", bs "b", [bs "a", bs "b"], 2⟩], by decide +kernel,
    [.node (bs "a") []], ?_, by decide +kernel, by decide +kernel⟩
  rfl

/-- So does a message whose References name an answer to it, if another top-level candidate exists. -/
theorem C21_reference_cycle_counterexample :
    ∃ msgs : List Msg, (msgs.map (·.mid)).Nodup ∧ ∃ ts, resolve id msgs = some ts ∧
      bs "b" ∈ msgs.map (·.mid) ∧ bs "b" ∉ nodesAll ts := by
  refine ⟨[⟨bs "a", [], [], 0⟩, ⟨bs "b", [], [bs "c"], 1⟩, ⟨bs "c", bs "b", [bs "a", bs "b"], 2⟩], by decide +kernel,
    [.node (bs "a") []], ?_, by decide +kernel, by decide +kernel⟩
  rfl

/-- The hypotheses of the theorems above are met by an ordinary thread. -/
def exThread : List Msg :=
  [⟨bs "a", [], [], 0⟩, ⟨bs "b", bs "a", [bs "a"], 1⟩, ⟨bs "c", bs "missing", [bs "a", bs "b", bs "missing"], 2⟩, ⟨bs "d", bs "a", [bs "a"], 3⟩]

example : resolve id exThread =
    some [.node (bs "a") [.node (bs "b") [.node (bs "c") []], .node (bs "d") []]] := by rfl
example : (exThread.map (·.mid)).Nodup := by decide +kernel
example : ∀ m ∈ exThread, (m.irt ∈ exThread.map (·.mid) → (m.irt.headD 0).toNat < (m.mid.headD 0).toNat) ∧
    ∀ x ∈ m.refs, x ∈ exThread.map (·.mid) → (x.headD 0).toNat < (m.mid.headD 0).toNat := by decide +kernel

example : ¬ Answers exThread ⟨bs "c", bs "missing", [bs "a", bs "b", bs "missing"], 2⟩ := by
  unfold Answers; decide +kernel
example : Depth exThread (bs "b") 1 :=
  .answer (m := ⟨bs "b", bs "a", [bs "a"], 1⟩) (by simp [exThread]) ⟨by decide +kernel, by decide +kernel⟩
    (.orphan (m := ⟨bs "a", [], [], 0⟩) (by simp [exThread]) (by unfold Answers; decide +kernel))

end Notmuch.Props
