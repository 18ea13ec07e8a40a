import Verif.Proofs.RubyCheck

/-!
# C78: memory in the Ruby bindings
-/

namespace Notmuch.Props
open Notmuch.Ruby

/-- **C78**: a program that keeps what it needs (the database; of Threads the Query; of the Messages of a Thread, or the replies of a Message, the Thread, and the Message), that destroys none of
these before, nor the object of a loop in the loop, and that takes no message of a thread twice, never uses freed memory and frees nothing twice: whenever, and in whatever order, the collector
frees what the program has forgotten, and whatever else the program destroys. -/
theorem C78_safe (es : List Event) (h : Careful State.init es) : run State.init es ≠ .crash := run_safe inv_init es h

/-- **C78** (no leak): when all values are destroyed or collected, all memory of the library is freed.  No care is asked of the program. -/
theorem C78_no_leak (es : List Event) (s : State) (h : run State.init es = .ok s) (hv : ∀ v ∈ s.vals, v.data = none) : ∀ o ∈ s.objs, o.alive = false := by
  have G := next_run State.init es
  rw [h] at G
  have O : Owned s := Next.owned G (by intro c o h; simp [State.init] at h)
  intro o ho
  obtain ⟨c, hc⟩ := List.getElem?_of_mem ho
  cases ha : o.alive with
  | false => rfl
  | true =>
    have hno : ∀ r, ¬ Has s r := fun r ⟨v, h1, h2⟩ => h2 (hv v (List.mem_of_getElem? h1))
    rcases O c o hc ha with ⟨r, _, h⟩ | ⟨_, _, _, _, _, r, _, h⟩ <;> exact absurd h (hno r)

/-- **C78** (what the collector leaves): a value that the program can still name, or that a loop goes through, is never collected. -/
theorem C78_gc_keeps (s : State) (r : Nat) (h : r ∈ s.held ∨ ∃ lp ∈ s.loops, lp.val = r) : step s (.gc r) = .invalid := by
  unfold step
  dsimp only
  rw [if_pos]
  rw [Bool.or_eq_true]
  rcases h with h | ⟨lp, h1, h2⟩
  · exact .inl (List.contains_iff_mem.2 h)
  · exact .inr (List.any_eq_true.2 ⟨lp, h1, by simpa using h2⟩)

/-- The value a method is called on. -/
private def receiver : Event → Option Nat
  | .query r | .directory r | .findMessage r | .searchThreads r | .searchMessages r | .listOf r _ | .replies r | .tags r | .call r | .each r | .close r | .destroy r => some r
  | _ => none

/-- **C78** (after `destroy!`): every method called on the value, `destroy!` too, however much later, raises an exception and does nothing. -/
theorem C78_destroyed (s s' s'' : State) (r : Nat) (es : List Event) (h : step s (.destroy r) = .ok s') (hr : run s' es = .ok s'') (e : Event)
    (he : receiver e = some r) : (step s'' e = .raised s'' ∨ step s'' e = .invalid) ∧ (r ∈ s''.held → step s'' (.call r) = .raised s'' ∧ step s'' (.destroy r) = .raised s'') := by
  have h1 : ∃ v : Val, s'.vals[r]? = some v ∧ v.data = none := by
    unfold step at h
    dsimp only at h
    unfold withObj at h
    cases hv : s.vals[r]? with
    | none => rw [hv] at h; cases h
    | some v =>
      rw [hv] at h
      dsimp only at h
      split at h
      · have hcl : ∀ t : State, t.vals = s.vals → ∃ w : Val, (clear t r).vals[r]? = some w ∧ w.data = none := by
          intro t ht
          refine ⟨{ v with data := none }, ?_, rfl⟩
          rw [clear_get, ht, hv]
          simp
        cases hd : v.data with
        | none => rw [hd] at h; cases h
        | some x =>
          rw [hd] at h
          cases x with
          | none => cases h; exact hcl _ rfl
          | some c =>
            dsimp only at h
            split at h
            · cases h; exact hcl _ rfl
            · cases h
      · cases h
  obtain ⟨v, h1, h2⟩ := h1
  have G := next_run s' es
  rw [hr] at G
  obtain ⟨w, h3, h4, _⟩ := Next.gone G r v h1 h2
  have hw : ∀ ks (f : Option Nat → Out), withObj s'' r ks f = .raised s'' ∨ withObj s'' r ks f = .invalid := by
    intro ks f
    unfold withObj
    rw [h3]
    dsimp only
    split
    · rw [h4]; exact .inl rfl
    · exact .inr rfl
  have hheld : r ∈ s''.held → ∀ (f : Option Nat → Out), withObj s'' r [.database, .query, .threads, .thread, .messages, .message, .directory] f = .raised s'' := by
    intro hin f
    unfold withObj
    rw [h3]
    dsimp only
    rw [if_pos, h4]
    simp only [Bool.and_eq_true, List.contains_iff_mem]
    refine ⟨hin, ?_⟩
    cases w.kind <;> simp
  refine ⟨?_, fun hin => ⟨hheld hin _, hheld hin _⟩⟩
  cases e <;> simp only [receiver, Option.some.injEq] at he <;> first | (subst he; exact hw _ _) | cases he

/-- **C78** (lock): closing a database, and destroying it, gives up its lock. -/
theorem C78_lock (s s' : State) (r c : Nat) (v : Val) (hv : s.vals[r]? = some v) (hd : v.data = some (some c))
    (h : step s (.close r) = .ok s' ∨ step s (.destroy r) = .ok s') : c ∉ s'.locks := by
  have hnot : c ∉ s.locks.filter (· != c) := by
    intro h
    have := (List.mem_filter.1 h).2
    simp at this
  rcases h with h | h <;> unfold step at h <;> dsimp only at h
  · unfold onObj withObj at h
    rw [hv] at h
    dsimp only at h
    split at h
    · rw [hd] at h
      dsimp only at h
      split at h
      · split at h
        · cases h; exact hnot
        · cases h
      · cases h
    · cases h
  · unfold withObj at h
    rw [hv] at h
    dsimp only at h
    split at h
    · rw [hd] at h
      dsimp only at h
      split at h
      · cases h; exact hnot
      · cases h
    · cases h

/-- A database forgotten without being closed keeps its lock after it is collected: nothing is called, the memory is only freed. -/
theorem C78_gc_lock_counterexample : ∃ s, run State.init [.open true, .drop 0, .gc 0] = .ok s ∧ s.locks = [0] ∧ s.objs.all (fun o => !o.alive) = true :=
  ⟨_, rfl, by decide +kernel, by decide +kernel⟩

/-- `db.query("x").search_threads.each { ... }`: nothing holds the query, and when it is collected the loop uses its memory. -/
theorem C78_query_counterexample : run State.init [.open false, .query 0, .searchThreads 1, .drop 1, .each 2, .gc 1, .next ⟨[], []⟩] = .crash := by decide +kernel

/-- The messages of a thread taken twice: the second loop takes the message from the first value, and when the first is destroyed the second has freed memory.  So too if only the first value is
collected before the second loop. -/
theorem C78_twice_counterexample :
    run State.init [.open false, .query 0, .searchThreads 1, .each 2, .next ⟨[0], [[]]⟩, .leave, .listOf 3 0, .each 4, .next ⟨[], []⟩, .leave, .listOf 3 1, .each 6, .next ⟨[], []⟩,
      .destroy 5, .call 7] = .crash ∧
    run State.init [.open false, .query 0, .searchThreads 1, .each 2, .next ⟨[0], [[]]⟩, .leave, .listOf 3 0, .each 4, .next ⟨[], []⟩, .drop 5, .leave, .gc 5, .listOf 3 1, .each 6,
      .next ⟨[], []⟩] = .crash := by
  refine ⟨?_, ?_⟩ <;> decide +kernel

/-- The thread is forgotten while its messages, or the replies to one of them, are gone through; the database is destroyed before a message; the object of a loop is destroyed in the loop. -/
theorem C78_order_counterexample :
    run State.init [.open false, .query 0, .searchThreads 1, .each 2, .next ⟨[0], [[]]⟩, .listOf 3 0, .drop 3, .each 4, .gc 3, .next ⟨[], []⟩] = .crash ∧
    run State.init [.open false, .query 0, .searchThreads 1, .each 2, .next ⟨[0], [[1], []]⟩, .listOf 3 1, .each 4, .next ⟨[], []⟩, .replies 5, .drop 3, .gc 3, .each 6, .next ⟨[], []⟩] = .crash ∧
    run State.init [.open false, .findMessage 0, .destroy 0, .call 1] = .crash ∧
    run State.init [.open false, .query 0, .searchMessages 1, .each 2, .destroy 2, .next ⟨[], []⟩] = .crash := by
  refine ⟨?_, ?_, ?_, ?_⟩ <;> decide +kernel

private def prog : List Event :=
  [.open false, .query 0, .searchThreads 1, .each 2, .next ⟨[0], [[1], []]⟩, .listOf 3 1, .each 4, .next ⟨[], []⟩, .replies 5, .each 6, .next ⟨[], []⟩, .call 7, .drop 4, .drop 7, .next ⟨[], []⟩,
   .gc 7, .leave, .gc 4, .drop 1, .drop 2, .leave, .gc 2, .gc 1, .drop 3, .gc 3, .call 5, .destroy 5, .call 5, .destroy 0, .drop 0, .drop 5, .drop 6, .gc 6]

/-- Nested loops over a thread, its messages and the replies, with collections in between, and objects used after what they no longer need is collected: it runs to its end and all is freed. -/
theorem C78_example : Careful State.init prog ∧ (match run State.init prog with | .ok s => s.objs.length == 8 && s.objs.all (fun o => !o.alive) && s.vals.all (fun v => v.data == none) | _ => false) = true := by
  refine ⟨careful_of _ _ (by decide +kernel), ?_⟩
  decide +kernel

end Notmuch.Props
