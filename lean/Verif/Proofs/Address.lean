import Verif.Spec.Address
import Verif.Proofs.QueryThreads

namespace Notmuch.Address

open Notmuch.QuerySpec (firsts)
open Notmuch.StringUtil (strcaseEqual)

theorem sameName_iff (a b : Option Str) : sameName a b = true ↔ a = b := by
  cases a <;> cases b <;> simp [sameName]

theorem same_iff (a b : Mbx) : same a b = true ↔ a = b := by
  unfold same
  rw [Bool.and_eq_true, sameName_iff, decide_eq_true_eq]
  constructor
  · rintro ⟨h1, h2⟩; exact Prod.ext h1 h2
  · rintro rfl; exact ⟨rfl, rfl⟩

theorem case_iff (a b : Str) : strcaseEqual a b = true ↔ a.map toLower = b.map toLower := by
  unfold strcaseEqual; exact beq_iff_eq

theorem case_false (a b : Str) : strcaseEqual a b = false ↔ a.map toLower ≠ b.map toLower := by
  rw [← Bool.not_eq_true, case_iff]

/-! ## Firsts -/

theorem mem_firsts' {α : Type} [DecidableEq α] (l : List α) (a : α) : a ∈ firsts l ↔ a ∈ l := by
  induction l with
  | nil => rfl
  | cons b l ih =>
    rw [firsts, List.mem_cons, List.mem_cons, List.mem_filter, ih]
    by_cases h : a = b <;> simp [h]

theorem nodup_firsts' {α : Type} [DecidableEq α] (l : List α) : (firsts l).Nodup := by
  induction l with
  | nil => exact List.nodup_nil
  | cons b l ih =>
    rw [firsts, List.nodup_cons]
    exact ⟨fun h => by simpa using (List.mem_filter.mp h).2, ih.sublist List.filter_sublist⟩

theorem firsts_concat {α : Type} [DecidableEq α] (l : List α) (m : α) : firsts (l ++ [m]) = if m ∈ l then firsts l else firsts l ++ [m] := by
  induction l with
  | nil => rfl
  | cons b l ih =>
    rw [List.cons_append, firsts, ih]
    by_cases hb : m = b
    · subst hb
      rw [if_pos List.mem_cons_self, firsts]
      congr 1
      split
      · rfl
      · rw [List.filter_append]; simp
    · have hm : (m ∈ b :: l) ↔ m ∈ l := by rw [List.mem_cons]; simp [hb]
      by_cases hl : m ∈ l
      · rw [if_pos hl, if_pos (hm.mpr hl), firsts]
      · rw [if_neg hl, if_neg (fun h => hl (hm.mp h)), firsts, List.filter_append, List.cons_append]
        congr 2
        simp [hb]

/-! ## The table -/

/-- The mailboxes of an address with their counts. -/
def entry (occ : List Mbx) (k : Str) : Str × List Entry :=
  (k, (firsts (occ.filter (fun m => strcaseEqual k m.2))).map (fun m => ⟨m, occ.count m⟩))

/-- The addresses, each as it occurs first. -/
def keys (occ : List Mbx) : List Str := occ.foldl (fun ks m => if ks.any (fun k => strcaseEqual k m.2) then ks else ks ++ [m.2]) []

theorem keys_concat (occ : List Mbx) (m : Mbx) : keys (occ ++ [m]) = if (keys occ).any (fun k => strcaseEqual k m.2) then keys occ else keys occ ++ [m.2] := by
  unfold keys
  rw [List.foldl_append]
  rfl

theorem snocRec {α : Type} {P : List α → Prop} (h0 : P []) (h1 : ∀ l a, P l → P (l ++ [a])) (l : List α) : P l := by
  have : ∀ l : List α, P l.reverse := by
    intro l
    induction l with
    | nil => exact h0
    | cons a l ih => rw [List.reverse_cons]; exact h1 _ _ ih
  have h := this l.reverse
  rwa [List.reverse_reverse] at h

theorem keys_spec (occ : List Mbx) : (keys occ).Pairwise (fun a b => strcaseEqual a b = false) ∧
    (∀ m ∈ occ, ∃ k ∈ keys occ, strcaseEqual k m.2 = true) ∧ ∀ k ∈ keys occ, ∃ m ∈ occ, m.2 = k := by
  induction occ using snocRec with
  | h0 => exact ⟨List.Pairwise.nil, by simp, by simp [keys]⟩
  | h1 occ m ih =>
    obtain ⟨i1, i2, i3⟩ := ih
    rw [keys_concat]
    by_cases h : (keys occ).any (fun k => strcaseEqual k m.2) = true
    · rw [if_pos h]
      refine ⟨i1, fun x hx => ?_, fun k hk => ?_⟩
      · rcases List.mem_append.mp hx with hx | hx
        · exact i2 x hx
        · rw [List.mem_singleton] at hx; subst hx; exact List.any_eq_true.mp h
      · obtain ⟨x, hx, e⟩ := i3 k hk
        exact ⟨x, List.mem_append_left _ hx, e⟩
    · rw [if_neg h]
      refine ⟨?_, fun x hx => ?_, fun k hk => ?_⟩
      · rw [List.pairwise_append]
        refine ⟨i1, List.pairwise_singleton _ _, fun a ha b hb => ?_⟩
        rw [List.mem_singleton] at hb
        subst hb
        rw [← Bool.not_eq_true]
        exact fun hc => h (List.any_eq_true.mpr ⟨a, ha, hc⟩)
      · rcases List.mem_append.mp hx with hx | hx
        · obtain ⟨k, hk, e⟩ := i2 x hx
          exact ⟨k, List.mem_append_left _ hk, e⟩
        · rw [List.mem_singleton] at hx; subst hx
          exact ⟨x.2, List.mem_append_right _ (List.mem_singleton.mpr rfl), (case_iff _ _).mpr rfl⟩
      · rcases List.mem_append.mp hk with hk | hk
        · obtain ⟨x, hx, e⟩ := i3 k hk
          exact ⟨x, List.mem_append_left _ hx, e⟩
        · rw [List.mem_singleton] at hk; subst hk
          exact ⟨m, List.mem_append_right _ (List.mem_singleton.mpr rfl), rfl⟩

theorem bump_spec (m : Mbx) (f g : Mbx → Nat) (hg : g m = f m + 1) (hf : ∀ x, x ≠ m → g x = f x) : ∀ l : List Mbx, l.Nodup →
    bump m (l.map (fun x => ⟨x, f x⟩)) = if m ∈ l then some (l.map (fun x => ⟨x, g x⟩)) else none
  | [], _ => rfl
  | x :: l, hn => by
    rw [List.nodup_cons] at hn
    rw [List.map_cons, bump]
    by_cases hx : x = m
    · subst hx
      rw [if_pos ((same_iff _ _).mpr rfl), if_pos List.mem_cons_self, List.map_cons, hg]
      congr 2
      refine List.map_congr_left (fun y hy => ?_)
      rw [hf y (fun e => hn.1 (e ▸ hy))]
    · rw [if_neg (fun h => hx ((same_iff _ _).mp h)), bump_spec m f g hg hf l hn.2]
      have : (m ∈ x :: l) ↔ m ∈ l := by rw [List.mem_cons]; simp [Ne.symm hx]
      by_cases hm : m ∈ l
      · rw [if_pos hm, if_pos (this.mpr hm), List.map_cons, hf x hx]; rfl
      · rw [if_neg hm, if_neg (fun h => hm (this.mp h))]; rfl

theorem entry_other {occ : List Mbx} {m : Mbx} {k : Str} (h : strcaseEqual k m.2 = false) : entry (occ ++ [m]) k = entry occ k := by
  unfold entry
  rw [List.filter_append, List.filter_cons_of_neg (by simpa using h), List.filter_nil, List.append_nil]
  congr 1
  refine List.map_congr_left (fun x hx => ?_)
  have hx := (List.mem_filter.mp ((mem_firsts' _ _).mp hx)).2
  rw [List.count_append, List.count_singleton]
  have : ¬ (m == x) = true := by
    rw [beq_iff_eq]
    rintro rfl
    rw [h] at hx; cases hx
  rw [if_neg this]
  rfl

theorem isDuplicate_keys (occ : List Mbx) (m : Mbx) : ∀ ks : List Str, ks.Pairwise (fun a b => strcaseEqual a b = false) →
    isDuplicate (ks.map (entry occ)) m = if ks.any (fun k => strcaseEqual k m.2) then (decide (m ∈ occ), ks.map (entry (occ ++ [m])))
      else (false, ks.map (entry occ) ++ [(m.2, [⟨m, 1⟩])])
  | [], _ => rfl
  | k :: ks, hp => by
    rw [List.pairwise_cons] at hp
    rw [List.map_cons]
    by_cases hk : strcaseEqual k m.2 = true
    · have hrest : ks.map (entry (occ ++ [m])) = ks.map (entry occ) := by
        refine List.map_congr_left (fun k' hk' => ?_)
        refine entry_other ?_
        rw [case_false]
        have := (case_false k k').mp (hp.1 k' hk')
        rw [case_iff] at hk
        rw [← hk]
        exact fun e => this e.symm
      have hb := bump_spec m (fun x => occ.count x) (fun x => (occ ++ [m]).count x) (by simp [List.count_append]) (fun x hx => by
        rw [List.count_append, List.count_singleton, if_neg (by rw [beq_iff_eq]; exact Ne.symm hx)]; rfl)
        (firsts (occ.filter (fun m => strcaseEqual k m.2))) (nodup_firsts' _)
      have hmem : m ∈ firsts (occ.filter (fun m => strcaseEqual k m.2)) ↔ m ∈ occ := by
        rw [mem_firsts', List.mem_filter]
        exact ⟨fun h => h.1, fun h => ⟨h, hk⟩⟩
      have hfc : firsts ((occ ++ [m]).filter (fun m => strcaseEqual k m.2)) = if m ∈ occ then firsts (occ.filter (fun m => strcaseEqual k m.2)) else firsts (occ.filter (fun m => strcaseEqual k m.2)) ++ [m] := by
        rw [List.filter_append, List.filter_cons_of_pos (by exact hk), List.filter_nil, firsts_concat]
        have : m ∈ occ.filter (fun m => strcaseEqual k m.2) ↔ m ∈ occ := by rw [List.mem_filter]; exact ⟨fun h => h.1, fun h => ⟨h, hk⟩⟩
        by_cases h : m ∈ occ
        · rw [if_pos h, if_pos (this.mpr h)]
        · rw [if_neg h, if_neg (fun h' => h (this.mp h'))]
      rw [show entry occ k = (k, (firsts (occ.filter (fun m => strcaseEqual k m.2))).map (fun m => ⟨m, occ.count m⟩)) from rfl]
      rw [isDuplicate, if_pos hk, hb, List.any_cons, hk, Bool.true_or, if_pos rfl, List.map_cons, hrest]
      by_cases h : m ∈ occ
      · rw [if_pos (hmem.mpr h), decide_eq_true h]
        simp only
        rw [show entry (occ ++ [m]) k = (k, (firsts ((occ ++ [m]).filter (fun m => strcaseEqual k m.2))).map (fun x => ⟨x, (occ ++ [m]).count x⟩)) from rfl, hfc, if_pos h]
      · rw [if_neg (fun h' => h (hmem.mp h')), decide_eq_false h]
        simp only
        rw [show entry (occ ++ [m]) k = (k, (firsts ((occ ++ [m]).filter (fun m => strcaseEqual k m.2))).map (fun x => ⟨x, (occ ++ [m]).count x⟩)) from rfl, hfc, if_neg h,
          List.map_append, List.map_cons, List.map_nil]
        have hc0 : (occ ++ [m]).count m = 1 := by rw [List.count_append, List.count_eq_zero.mpr h]; simp
        rw [hc0]
        have hmc : (firsts (occ.filter (fun m => strcaseEqual k m.2))).map (fun x => (⟨x, (occ ++ [m]).count x⟩ : Entry)) =
            (firsts (occ.filter (fun m => strcaseEqual k m.2))).map (fun x => ⟨x, occ.count x⟩) := by
          refine List.map_congr_left (fun x hx => ?_)
          have hxo := (List.mem_filter.mp ((mem_firsts' _ _).mp hx)).1
          rw [List.count_append, List.count_singleton, if_neg (by rw [beq_iff_eq]; rintro rfl; exact h hxo)]
          rfl
        rw [hmc]
    · have ih := isDuplicate_keys occ m ks hp.2
      rw [show entry occ k = (k, (firsts (occ.filter (fun m => strcaseEqual k m.2))).map (fun m => ⟨m, occ.count m⟩)) from rfl]
      rw [isDuplicate, if_neg hk, ih, List.any_cons, Bool.not_eq_true] at *
      rw [hk, Bool.false_or]
      by_cases ha : ks.any (fun k => strcaseEqual k m.2) = true
      · rw [if_pos ha, if_pos ha, List.map_cons, entry_other hk]; rfl
      · rw [if_neg ha, if_neg ha]; rfl

theorem isDuplicate_spec (occ : List Mbx) (m : Mbx) :
    isDuplicate ((keys occ).map (entry occ)) m = (decide (m ∈ occ), (keys (occ ++ [m])).map (entry (occ ++ [m]))) := by
  obtain ⟨k1, k2, k3⟩ := keys_spec occ
  rw [isDuplicate_keys occ m _ k1, keys_concat]
  by_cases h : (keys occ).any (fun k => strcaseEqual k m.2) = true
  · rw [if_pos h, if_pos h]
  · rw [if_neg h, if_neg h]
    have hn : ∀ k ∈ keys occ, strcaseEqual k m.2 = false := by
      intro k hk
      rw [← Bool.not_eq_true]
      exact fun e => h (List.any_eq_true.mpr ⟨k, hk, e⟩)
    have hno : ∀ x ∈ occ, strcaseEqual m.2 x.2 = false := by
      intro x hx
      obtain ⟨k, hk, e⟩ := k2 x hx
      rw [case_iff] at e
      have := (case_false _ _).mp (hn k hk)
      rw [case_false, ← e]
      exact fun h => this h.symm
    have hm : m ∉ occ := fun hm => by
      have := hno m hm
      rw [(case_iff _ _).mpr rfl] at this
      cases this
    rw [decide_eq_false hm, List.map_append, List.map_congr_left (fun k hk => entry_other (hn k hk))]
    have he : entry (occ ++ [m]) m.2 = (m.2, [⟨m, 1⟩]) := by
      unfold entry
      have hf : occ.filter (fun x => strcaseEqual m.2 x.2) = [] := List.filter_eq_nil_iff.mpr (fun x hx => by rw [hno x hx]; simp)
      rw [List.filter_append, hf, List.filter_cons_of_pos (by exact (case_iff _ _).mpr rfl)]
      have hc0 : (occ ++ [m]).count m = 1 := by rw [List.count_append, List.count_eq_zero.mpr hm]; simp
      simp only [List.nil_append, List.filter_nil, firsts, List.map_cons, List.map_nil, hc0]
    rw [List.map_cons, List.map_nil, he]

/-! ## The state -/

/-- What is in the table and what was printed after some mailboxes. -/
def stateOf (o : Opts) (occ : List Mbx) : St :=
  ⟨if o.dedup = .no then [] else (keys occ).map (entry occ),
   if o.count || o.dedup = .address then [] else if o.dedup = .no then occ.map (fun m => ⟨m, 0⟩) else (firsts occ).map (fun m => ⟨m, 0⟩)⟩

theorem processMailbox_spec (o : Opts) (occ : List Mbx) (m : Mbx) : processMailbox o (stateOf o occ) m = stateOf o (occ ++ [m]) := by
  obtain ⟨s, r, c, d⟩ := o
  unfold processMailbox
  by_cases hd : d = .no
  · subst hd
    cases c <;> simp [stateOf]
  · simp only [ne_eq, hd, not_false_eq_true, if_true, stateOf, if_false, isDuplicate_spec]
    by_cases ha : c = true ∨ d = .address
    · have hif : (c || decide (d = .address)) = true := by simpa using ha
      have hif' : (decide (m ∈ occ) || c || decide (d = .address)) = true := by rw [Bool.or_assoc, hif, Bool.or_true]
      simp only [hif, hif', if_true]
    · rw [not_or] at ha
      have hif : (c || decide (d = .address)) = false := by simpa using ha
      have hc : c = false := by simpa using ha.1
      simp only [hif, Bool.or_assoc, Bool.or_false, Bool.false_eq_true, if_false, firsts_concat]
      by_cases hm : m ∈ occ
      · rw [decide_eq_true hm, if_pos rfl, if_pos hm]
      · rw [decide_eq_false hm, if_neg (by simp), if_neg hm, List.map_append]; rfl

mutual
theorem processAddr_spec (o : Opts) : ∀ (a : Addr) (occ : List Mbx), processAddr o (stateOf o occ) a = stateOf o (occ ++ a.mailboxes)
  | .mailbox name addr, occ => by rw [processAddr, processMailbox_spec, Addr.mailboxes]
  | .group none, occ => by rw [processAddr, Addr.mailboxes, List.append_nil]
  | .group (some l), occ => by rw [processAddr, Addr.mailboxes, processList_spec o l occ]

theorem processList_spec (o : Opts) : ∀ (l : List Addr) (occ : List Mbx), processList o (stateOf o occ) l = stateOf o (occ ++ mailboxesList l)
  | [], occ => by rw [processList, mailboxesList, List.append_nil]
  | a :: l, occ => by rw [processList, processAddr_spec o a occ, processList_spec o l, mailboxesList, List.append_assoc]
end

theorem processHeader_spec (o : Opts) (h : Option (List Addr)) (occ : List Mbx) : processHeader o (stateOf o occ) h = stateOf o (occ ++ headerMailboxes h) := by
  cases h with
  | none => rw [processHeader, headerMailboxes, List.append_nil]
  | some l => rw [processHeader, headerMailboxes, processList_spec]

theorem stateOf_nil (o : Opts) : stateOf o [] = ⟨[], []⟩ := by
  unfold stateOf
  have : keys [] = [] := rfl
  rw [this]
  simp [firsts]

theorem messages_spec (o : Opts) (ho : o.sender = true ∨ o.recipients = true) (msgs : List Msg) : msgs.foldl (processMessage o) ⟨[], []⟩ = stateOf o (occurrences o msgs) := by
  have hs : (o.sender || !o.recipients) = o.sender := by
    rcases ho with h | h
    · rw [h]; rfl
    · rw [h]; simp
  have key : ∀ (msgs : List Msg) (occ : List Mbx), msgs.foldl (processMessage o) (stateOf o occ) = stateOf o (occ ++ occurrences o msgs) := by
    intro msgs
    induction msgs with
    | nil => intro occ; simp [occurrences]
    | cons m msgs ih =>
      intro occ
      rw [List.foldl_cons]
      have : processMessage o (stateOf o occ) m = stateOf o (occ ++ ((if o.sender || !o.recipients then headerMailboxes m.sender else []) ++
          (if o.recipients then headerMailboxes m.to ++ headerMailboxes m.cc ++ headerMailboxes m.bcc else []))) := by
        unfold processMessage
        rw [hs]
        cases o.sender <;> cases o.recipients <;>
          simp only [Bool.false_eq_true, if_false, if_true, List.foldl_cons, List.foldl_nil, processHeader_spec, List.append_assoc, List.append_nil, List.nil_append]
      rw [this, ih]
      unfold occurrences
      rw [List.flatMap_cons, List.append_assoc]
  have := key msgs []
  rw [stateOf_nil, List.nil_append] at this
  exact this

/-! ## The end -/

theorem popular_spec : ∀ (l : List Entry) (b : Entry), ∃ e, popular (some b) b.count l = some e ∧
    ((e = b ∧ ∀ x ∈ l, x.count ≤ b.count) ∨
      ∃ l1 l2, l = l1 ++ e :: l2 ∧ b.count < e.count ∧ (∀ x ∈ l1, x.count < e.count) ∧ ∀ x ∈ l2, x.count ≤ e.count)
  | [], b => ⟨b, rfl, .inl ⟨rfl, by simp⟩⟩
  | x :: l, b => by
    rw [popular]
    by_cases h : x.count > b.count
    · rw [if_pos h]
      obtain ⟨e, h1, h2⟩ := popular_spec l x
      refine ⟨e, h1, .inr ?_⟩
      rcases h2 with ⟨rfl, h2⟩ | ⟨l1, l2, rfl, h2, h3, h4⟩
      · exact ⟨[], l, rfl, h, by simp, h2⟩
      · refine ⟨x :: l1, l2, rfl, by omega, fun y hy => ?_, h4⟩
        rcases List.mem_cons.mp hy with rfl | hy
        · exact h2
        · exact h3 y hy
    · rw [if_neg h]
      obtain ⟨e, h1, h2⟩ := popular_spec l b
      refine ⟨e, h1, ?_⟩
      rcases h2 with ⟨rfl, h2⟩ | ⟨l1, l2, rfl, h2, h3, h4⟩
      · refine .inl ⟨rfl, fun y hy => ?_⟩
        rcases List.mem_cons.mp hy with rfl | hy
        · omega
        · exact h2 y hy
      · refine .inr ⟨x :: l1, l2, rfl, h2, fun y hy => ?_, h4⟩
        rcases List.mem_cons.mp hy with rfl | hy
        · omega
        · exact h3 y hy

/-- The first with the highest count. -/
theorem popular_first {l : List Entry} (hne : l ≠ []) (hpos : ∀ x ∈ l, 0 < x.count) : ∃ e l1 l2, popular none 0 l = some e ∧ l = l1 ++ e :: l2 ∧
    (∀ x ∈ l1, x.count < e.count) ∧ ∀ x ∈ l2, x.count ≤ e.count := by
  cases l with
  | nil => exact absurd rfl hne
  | cons x l =>
    rw [popular, if_pos (hpos x List.mem_cons_self)]
    obtain ⟨e, h1, h2⟩ := popular_spec l x
    rcases h2 with ⟨rfl, h2⟩ | ⟨l1, l2, rfl, h2, h3, h4⟩
    · exact ⟨e, [], l, h1, rfl, by simp, h2⟩
    · refine ⟨e, x :: l1, l2, h1, rfl, fun y hy => ?_, h4⟩
      rcases List.mem_cons.mp hy with rfl | hy
      · exact h2
      · exact h3 y hy

theorem sum_filter {α : Type} [DecidableEq α] (f : α → Nat) (a : α) : ∀ l : List α, l.Nodup →
    (l.map f).sum = (if a ∈ l then f a else 0) + ((l.filter (fun x => decide (x ≠ a))).map f).sum
  | [], _ => rfl
  | x :: l, h => by
    rw [List.nodup_cons] at h
    rw [List.map_cons, List.sum_cons, sum_filter f a l h.2]
    by_cases hx : x = a
    · subst hx
      rw [if_pos List.mem_cons_self, if_neg h.1, List.filter_cons_of_neg (by simp)]
      omega
    · rw [List.filter_cons_of_pos (by simpa using hx), List.map_cons, List.sum_cons]
      have : (a ∈ x :: l) ↔ a ∈ l := by rw [List.mem_cons]; simp [Ne.symm hx]
      by_cases ha : a ∈ l
      · rw [if_pos ha, if_pos (this.mpr ha)]; omega
      · rw [if_neg ha, if_neg (fun h => ha (this.mp h))]; omega

theorem sum_counts (l : List Mbx) : ((firsts l).map (fun a => l.count a)).sum = l.length := by
  induction l with
  | nil => rfl
  | cons a l ih =>
    rw [firsts, List.map_cons, List.sum_cons, List.length_cons, ← ih, sum_filter (fun x => l.count x) a _ (nodup_firsts' l), List.count_cons_self]
    have : ((firsts l).filter (fun x => decide (x ≠ a))).map (fun x => (a :: l).count x) = ((firsts l).filter (fun x => decide (x ≠ a))).map (fun x => l.count x) := by
      refine List.map_congr_left (fun x hx => ?_)
      have := (List.mem_filter.mp hx).2
      rw [List.count_cons_of_ne (by simpa using Ne.symm (by simpa using this))]
    rw [this]
    by_cases ha : a ∈ firsts l
    · rw [if_pos ha]; omega
    · rw [if_neg ha, List.count_eq_zero.mpr (fun h => ha ((mem_firsts' l a).mpr h))]; omega

theorem foldl_sum (l : List Nat) : ∀ n, l.foldl (· + ·) n = n + l.sum := by
  induction l with
  | nil => intro n; rfl
  | cons a l ih => intro n; rw [List.foldl_cons, ih, List.sum_cons]; omega

theorem total_spec (occ : List Mbx) (k : Str) : ((entry occ k).2.map (·.count)).foldl (· + ·) 0 = (occ.filter (fun m => strcaseEqual k m.2)).length := by
  rw [foldl_sum, Nat.zero_add, ← sum_counts]
  unfold entry
  rw [List.map_map]
  congr 1
  refine List.map_congr_left (fun x hx => ?_)
  have := (List.mem_filter.mp ((mem_firsts' _ _).mp hx)).2
  show occ.count x = (occ.filter (fun m => strcaseEqual k m.2)).count x
  exact (List.count_filter (p := fun m : Mbx => strcaseEqual k m.2) this).symm

theorem popular_entry (occ : List Mbx) (k : Str) (hk : ∃ m ∈ occ, strcaseEqual k m.2 = true) :
    ∃ m, printPopular (entry occ k).2 = some ⟨m, (occ.filter (fun m => strcaseEqual k m.2)).length⟩ ∧ mostFrequent occ k = some m ∧ m ∈ occ ∧ strcaseEqual k m.2 = true := by
  have hne : (entry occ k).2 ≠ [] := by
    obtain ⟨m, hm, e⟩ := hk
    unfold entry
    intro h
    have := List.map_eq_nil_iff.mp h
    have hmem := (mem_firsts' (occ.filter (fun m => strcaseEqual k m.2)) m).mpr (List.mem_filter.mpr ⟨hm, e⟩)
    rw [this] at hmem
    cases hmem
  have hent : ∀ x ∈ (entry occ k).2, x.count = occ.count x.mbx ∧ x.mbx ∈ occ ∧ strcaseEqual k x.mbx.2 = true := by
    intro x hx
    unfold entry at hx
    obtain ⟨m, hm, rfl⟩ := List.mem_map.mp hx
    have := List.mem_filter.mp ((mem_firsts' _ _).mp hm)
    exact ⟨rfl, this.1, this.2⟩
  obtain ⟨e, l1, l2, h1, h2, h3, h4⟩ := popular_first hne (fun x hx => by
    obtain ⟨a, b, _⟩ := hent x hx
    rw [a]; exact List.count_pos_iff.mpr b)
  have hall : ∀ x ∈ (entry occ k).2, x.count ≤ e.count := by
    intro x hx
    rw [h2] at hx
    rcases List.mem_append.mp hx with hx | hx
    · exact Nat.le_of_lt (h3 x hx)
    · rcases List.mem_cons.mp hx with rfl | hx
      · exact Nat.le_refl _
      · exact h4 x hx
  have he := hent e (by rw [h2]; exact List.mem_append_right _ List.mem_cons_self)
  refine ⟨e.mbx, ?_, ?_, he.2.1, he.2.2⟩
  · unfold printPopular
    rw [h1, Option.map_some, total_spec]
  · unfold mostFrequent
    rw [List.find?_eq_some_iff_append]
    refine ⟨?_, l1.map (·.mbx), l2.map (·.mbx), ?_, ?_⟩
    · rw [List.all_eq_true]
      intro m' hm'
      cases hc : strcaseEqual k m'.2 with
      | false => rfl
      | true =>
        have : (⟨m', occ.count m'⟩ : Entry) ∈ (entry occ k).2 := List.mem_map.mpr ⟨m', (mem_firsts' _ _).mpr (List.mem_filter.mpr ⟨hm', hc⟩), rfl⟩
        have := hall _ this
        rw [he.1] at this
        simpa using this
    · have := congrArg (List.map Entry.mbx) h2
      rw [List.map_append, List.map_cons] at this
      rw [← this]
      unfold entry
      rw [List.map_map]
      exact (List.map_id _).symm
    · intro a ha
      obtain ⟨x, hx, rfl⟩ := List.mem_map.mp ha
      have hxe := hent x (by rw [h2]; exact List.mem_append_left _ hx)
      have hlt := h3 x hx
      rw [Bool.not_eq_true', ← Bool.not_eq_true, List.all_eq_true]
      intro h
      have := h e.mbx he.2.1
      rw [he.2.2] at this
      simp only [Bool.not_true, Bool.false_or, decide_eq_true_eq] at this
      rw [← he.1, ← hxe.1] at this
      omega

theorem printTable_list {o : Opts} (h : o.dedup ≠ .address) (t : Table) : printTable o t = some (t.flatMap (·.2)) := by
  induction t with
  | nil => rfl
  | cons a t ih =>
    rw [printTable, if_neg h, ih]; rfl

theorem printTable_popular {o : Opts} (h : o.dedup = .address) (f : Str × List Entry → Entry) (t : Table) (hf : ∀ x ∈ t, printPopular x.2 = some (f x)) :
    printTable o t = some (t.map f) := by
  induction t with
  | nil => rfl
  | cons a t ih =>
    rw [printTable, if_pos h, hf a List.mem_cons_self, ih (fun x hx => hf x (List.mem_cons_of_mem _ hx))]; rfl

/-- Each mailbox is under one address. -/
theorem keys_flatMap (occ : List Mbx) : ((keys occ).flatMap (fun k => firsts (occ.filter (fun m => strcaseEqual k m.2)))).Perm (firsts occ) := by
  obtain ⟨k1, k2, k3⟩ := keys_spec occ
  have hnd : ((keys occ).flatMap (fun k => firsts (occ.filter (fun m => strcaseEqual k m.2)))).Nodup := by
    have : ∀ ks : List Str, ks.Pairwise (fun a b => strcaseEqual a b = false) → (ks.flatMap (fun k => firsts (occ.filter (fun m => strcaseEqual k m.2)))).Nodup := by
      intro ks
      induction ks with
      | nil => intro _; exact List.nodup_nil
      | cons k ks ih =>
        intro hp
        rw [List.pairwise_cons] at hp
        rw [List.flatMap_cons, List.nodup_append]
        refine ⟨nodup_firsts' _, ih hp.2, ?_⟩
        rintro a ha b hb rfl
        obtain ⟨k', hk', hb⟩ := List.mem_flatMap.mp hb
        have h1 := (List.mem_filter.mp ((mem_firsts' _ _).mp ha)).2
        have h2 := (List.mem_filter.mp ((mem_firsts' _ _).mp hb)).2
        have h3 := (case_false _ _).mp (hp.1 k' hk')
        rw [case_iff] at h1 h2
        exact h3 (h1.trans h2.symm)
    exact this _ k1
  rw [List.perm_ext_iff_of_nodup hnd (nodup_firsts' occ)]
  intro m
  rw [mem_firsts', List.mem_flatMap]
  constructor
  · rintro ⟨k, _, h⟩
    exact (List.mem_filter.mp ((mem_firsts' _ _).mp h)).1
  · intro h
    obtain ⟨k, hk, e⟩ := k2 m h
    exact ⟨k, hk, (mem_firsts' _ _).mpr (List.mem_filter.mpr ⟨h, e⟩)⟩

end Notmuch.Address
