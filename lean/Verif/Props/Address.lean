import Verif.Proofs.Address

/-!
# C47: what `notmuch address` prints
-/

namespace Notmuch.Props

open Notmuch.Address Notmuch.QuerySpec
open Notmuch.StringUtil (strcaseEqual)

private theorem address_occ (o : Opts) : ∃ o', (o'.sender = true ∨ o'.recipients = true) ∧ o'.count = o.count ∧ o'.dedup = o.dedup ∧
    (∀ msgs, occurrences o' msgs = occurrences o msgs) ∧ (if o.sender || o.recipients then o else { o with sender := true }) = o' := by
  obtain ⟨s, r, c, d⟩ := o
  cases s <;> cases r
  · exact ⟨⟨true, false, c, d⟩, .inl rfl, rfl, rfl, fun _ => rfl, rfl⟩
  · exact ⟨⟨false, true, c, d⟩, .inr rfl, rfl, rfl, fun _ => rfl, rfl⟩
  · exact ⟨⟨true, false, c, d⟩, .inl rfl, rfl, rfl, fun _ => rfl, rfl⟩
  · exact ⟨⟨true, true, c, d⟩, .inl rfl, rfl, rfl, fun _ => rfl, rfl⟩

/-- **C47 (no deduplication).**  With `--deduplicate=no`, every mailbox of the headers asked for is printed, members of groups too, as often as it occurs and in order. -/
theorem C47_no (order : Table → Table) (o : Opts) (msgs : List Msg) (hd : o.dedup = .no) (hc : o.count = false) :
    (address order o msgs).map (List.map (·.mbx)) = some (occurrences o msgs) := by
  obtain ⟨o', h1, h2, h3, h4, h5⟩ := address_occ o
  unfold address
  simp only [h5, messages_spec o' h1, h4]
  simp [stateOf, h2, h3, hd, hc]
  exact List.map_id _

/-- **C47 (mailboxes).**  By default, every mailbox (name and address) is printed once, where it occurs first. -/
theorem C47_mailbox (order : Table → Table) (o : Opts) (msgs : List Msg) (hd : o.dedup = .mailbox) (hc : o.count = false) :
    (address order o msgs).map (List.map (·.mbx)) = some (firsts (occurrences o msgs)) := by
  obtain ⟨o', h1, h2, h3, h4, h5⟩ := address_occ o
  unfold address
  simp only [h5, messages_spec o' h1, h4]
  simp [stateOf, h2, h3, hd, hc]
  exact List.map_id _

/-- **C47 (counts).**  With `--output=count`, every mailbox is printed once, with the number of times it occurs, in whatever order the hash table has. -/
theorem C47_count (order : Table → Table) (horder : ∀ t, (order t).Perm t) (o : Opts) (msgs : List Msg) (hd : o.dedup = .mailbox) (hc : o.count = true) :
    ∃ out, address order o msgs = some out ∧
      out.Perm ((firsts (occurrences o msgs)).map (fun m => ⟨m, (occurrences o msgs).count m⟩)) := by
  obtain ⟨o', h1, h2, h3, h4, h5⟩ := address_occ o
  have ha : o'.dedup ≠ .address := by rw [h3, hd]; decide
  have e : address order o msgs = some ((order ((keys (occurrences o msgs)).map (entry (occurrences o msgs)))).flatMap (·.2)) := by
    unfold address
    simp only [h5, messages_spec o' h1, h4]
    have : (o'.count && decide (o'.dedup = .no)) = false := by rw [h3, hd]; simp
    rw [this]
    simp only [stateOf, h2, hc, Bool.true_or, if_true, Bool.false_eq_true, if_false]
    rw [if_neg (by rw [h3, hd]; decide), printTable_list ha]
    rfl
  refine ⟨_, e, ?_⟩
  refine ((horder _).flatMap_right _).trans ?_
  rw [List.flatMap_map]
  have : (fun k => (entry (occurrences o msgs) k).2) = fun k => (firsts ((occurrences o msgs).filter (fun m => strcaseEqual k m.2))).map (fun m => (⟨m, (occurrences o msgs).count m⟩ : Entry)) := rfl
  rw [this, ← List.map_flatMap]
  exact (keys_flatMap _).map _

/-- **C47 (addresses).**  With `--deduplicate=address`, every address is printed once, regardless of case: with the name that occurs most often with it (the first of those, if several do), and
with the number of times the address occurs with whatever name. -/
theorem C47_address (order : Table → Table) (horder : ∀ t, (order t).Perm t) (o : Opts) (msgs : List Msg) (hd : o.dedup = .address) :
    ∃ out, address order o msgs = some out ∧
      out.Pairwise (fun a b => ¬ SameAddr a.mbx.2 b.mbx.2) ∧
      (∀ m ∈ occurrences o msgs, ∃ e ∈ out, SameAddr e.mbx.2 m.2) ∧
      ∀ e ∈ out, mostFrequent (occurrences o msgs) e.mbx.2 = some e.mbx ∧ e.mbx ∈ occurrences o msgs ∧
        e.count = ((occurrences o msgs).filter (fun m => strcaseEqual e.mbx.2 m.2)).length := by
  obtain ⟨o', h1, h2, h3, h4, h5⟩ := address_occ o
  generalize hocc : occurrences o msgs = occ
  obtain ⟨k1, k2, k3⟩ := keys_spec occ
  have hpop : ∀ k ∈ keys occ, ∃ m, printPopular (entry occ k).2 = some ⟨m, (occ.filter (fun m => strcaseEqual k m.2)).length⟩ ∧ mostFrequent occ k = some m ∧ m ∈ occ ∧ strcaseEqual k m.2 = true := by
    intro k hk
    obtain ⟨m, hm, e⟩ := k3 k hk
    exact popular_entry occ k ⟨m, hm, by rw [e]; exact (case_iff _ _).mpr rfl⟩
  have hmf : ∀ k, mostFrequent occ k = none ∨ ∃ m, mostFrequent occ k = some m := by
    intro k; cases mostFrequent occ k <;> simp
  let f : Str × List Entry → Entry := fun x => ⟨(mostFrequent occ x.1).getD (none, []), (occ.filter (fun m => strcaseEqual x.1 m.2)).length⟩
  have hf : ∀ k ∈ keys occ, printPopular (entry occ k).2 = some (f (entry occ k)) := by
    intro k hk
    obtain ⟨m, e1, e2, _⟩ := hpop k hk
    rw [e1]
    show _ = some (⟨(mostFrequent occ k).getD (none, []), _⟩ : Entry)
    rw [e2]
    rfl
  have e : address order o msgs = some ((order ((keys occ).map (entry occ))).map f) := by
    unfold address
    simp only [h5, messages_spec o' h1, h4, hocc]
    have : (o'.count && decide (o'.dedup = .no)) = false := by rw [h3, hd]; simp
    rw [this]
    have h6 : (o'.count || decide (o'.dedup = .address)) = true := by rw [h3, hd]; simp
    simp only [stateOf, h6, if_true, Bool.false_eq_true, if_false]
    rw [if_neg (by rw [h3, hd]; decide), printTable_popular (h3.trans hd) f _ (fun x hx => by
      obtain ⟨k, hk, rfl⟩ := List.mem_map.mp ((horder _).mem_iff.mp hx)
      exact hf k hk)]
    rfl
  have hperm : ((order ((keys occ).map (entry occ))).map f).Perm ((keys occ).map (fun k => f (entry occ k))) := by
    have := (horder ((keys occ).map (entry occ))).map f
    rwa [List.map_map] at this
  have hkf : ∀ k ∈ keys occ, strcaseEqual k (f (entry occ k)).mbx.2 = true ∧ mostFrequent occ k = some (f (entry occ k)).mbx ∧ (f (entry occ k)).mbx ∈ occ := by
    intro k hk
    obtain ⟨m, _, e2, e3, e4⟩ := hpop k hk
    have : (f (entry occ k)).mbx = m := by
      show (mostFrequent occ k).getD (none, []) = m
      rw [e2]; rfl
    rw [this]
    exact ⟨e4, e2, e3⟩
  have hcongr : ∀ a b : Str, a.map toLower = b.map toLower → ∀ c, strcaseEqual a c = strcaseEqual b c := by
    intro a b h c
    unfold strcaseEqual
    rw [h]
  refine ⟨_, e, ?_, ?_, ?_⟩
  · have hsym : ∀ {a b : Entry}, ¬ SameAddr a.mbx.2 b.mbx.2 → ¬ SameAddr b.mbx.2 a.mbx.2 :=
      fun h h' => h ((case_iff _ _).mpr ((case_iff _ _).mp h').symm)
    refine (hperm.pairwise_iff hsym).mpr ?_
    · rw [List.pairwise_map]
      have : (keys occ).Pairwise (fun a b => a ∈ keys occ ∧ b ∈ keys occ ∧ strcaseEqual a b = false) := k1.imp_of_mem (fun ha hb h => ⟨ha, hb, h⟩)
      refine this.imp ?_
      rintro a b ⟨ha, hb, h⟩ hs
      have h1 := (case_iff _ _).mp (hkf a ha).1
      have h2 := (case_iff _ _).mp (hkf b hb).1
      have hs := (case_iff _ _).mp hs
      exact (case_false _ _).mp h (h1.trans (hs.trans h2.symm))
  · intro m hm
    obtain ⟨k, hk, hkm⟩ := k2 m hm
    refine ⟨f (entry occ k), hperm.mem_iff.mpr (List.mem_map.mpr ⟨k, hk, rfl⟩), ?_⟩
    have h1 := (case_iff _ _).mp (hkf k hk).1
    rw [case_iff] at hkm
    exact (case_iff _ _).mpr (h1.symm.trans hkm)
  · intro x hx
    obtain ⟨k, hk, rfl⟩ := List.mem_map.mp (hperm.mem_iff.mp hx)
    obtain ⟨h1, h2, h3⟩ := hkf k hk
    have hsame := hcongr _ _ ((case_iff _ _).mp h1)
    have hm : mostFrequent occ (f (entry occ k)).mbx.2 = mostFrequent occ k := by
      unfold mostFrequent
      simp only [hsame]
    refine ⟨hm.trans h2, h3, ?_⟩
    show (occ.filter (fun m => strcaseEqual k m.2)).length = _
    simp only [hsame]

/-- **C47 (what the most frequent is).**  It occurs with this address, no other does so more often, and those that occur first before it do so less often. -/
theorem C47_most_frequent {occ : List Mbx} {a : Str} {m : Mbx} (h : mostFrequent occ a = some m) :
    m ∈ occ ∧ SameAddr a m.2 ∧ (∀ m' ∈ occ, SameAddr a m'.2 → occ.count m' ≤ occ.count m) := by
  unfold mostFrequent at h
  have h1 := List.mem_of_find?_eq_some h
  have h2 := List.find?_some h
  rw [mem_firsts', List.mem_filter] at h1
  refine ⟨h1.1, h1.2, fun m' hm' hs => ?_⟩
  rw [List.all_eq_true] at h2
  have := h2 m' hm'
  rw [hs] at this
  simpa using this

/-- **C47 (refused).**  Counting without deduplication is refused. -/
theorem C47_refused (order : Table → Table) (o : Opts) (msgs : List Msg) (hd : o.dedup = .no) (hc : o.count = true) : address order o msgs = none := by
  obtain ⟨o', h1, h2, h3, h4, h5⟩ := address_occ o
  unfold address
  simp only [h5]
  rw [h2, h3, hd, hc]
  rfl

/-- Two messages, with a group and several names for one address. -/
def exMsgs : List Msg :=
  [⟨some [.mailbox (some (bs "Al")) (bs "a@x")], some [.mailbox none (bs "b@x"), .group (some [.mailbox (some (bs "Bo")) (bs "B@x"), .mailbox none (bs "c@x")])], none, none⟩,
   ⟨some [.mailbox (some (bs "Al")) (bs "a@x")], some [.mailbox (some (bs "Bo")) (bs "B@x")], some [.group none], some [.mailbox (some (bs "Bob")) (bs "b@X")]⟩]

theorem C47_example :
    (address id ⟨false, false, false, .mailbox⟩ exMsgs) = some [⟨(some (bs "Al"), bs "a@x"), 0⟩] ∧
    (address id ⟨true, true, true, .address⟩ exMsgs) = some [⟨(some (bs "Al"), bs "a@x"), 2⟩, ⟨(some (bs "Bo"), bs "B@x"), 4⟩, ⟨(none, bs "c@x"), 1⟩] ∧
    (address List.reverse ⟨false, true, true, .mailbox⟩ exMsgs) =
      some [⟨(none, bs "c@x"), 1⟩, ⟨(none, bs "b@x"), 1⟩, ⟨(some (bs "Bo"), bs "B@x"), 2⟩, ⟨(some (bs "Bob"), bs "b@X"), 1⟩] := by
  refine ⟨?_, ?_, ?_⟩ <;> decide +kernel

end Notmuch.Props
