import Verif.Proofs.PyObjects3

/-! # C72: the objects of the Python bindings and the memory of the library -/

namespace Notmuch.Props

open Notmuch.Py

/-- A program without an exception in a `frozen` block. -/
theorem clean_of_no_rollback : ∀ (es : List Event) (w : World), (∀ x f, Event.rollback x f ∉ es) → AllClean w es
  | [], _, _ => trivial
  | e :: es, w, h => ⟨fun x f he => absurd (by rw [he]; exact List.mem_cons_self) (h x f), clean_of_no_rollback es _ (fun x f hm => h x f (List.mem_cons_of_mem _ hm))⟩

/-- **C72** (once): whatever a program does with the objects, in whatever order they are deleted, and whatever iterators it ends or leaves, no memory of the library is freed twice — unless a
`frozen` block ends with an exception while an object that came from its message still has memory (see `C72_rollback_twice`). -/
theorem C72_once (es : List Event) (e : Event) (h : AllClean .empty es) (he : Clean (run .empty es) e) : (step (run .empty es) e).2 ≠ .doubleFree :=
  (step_inv (run_inv empty_inv h) e he).2

/-- **C72** (alive): no method of an object whose `alive` is true uses memory that was freed. -/
theorem C72_alive (es : List Event) (e : Event) (x : Nat) (h : AllClean .empty es) (he : e.on = some x) (hx : x < (run .empty es).n) (ha : (run .empty es).alive x = true) :
    (step (run .empty es) e).2 ≠ .useAfterFree :=
  safe_ok (run_inv empty_inv h) (alive_safe (run_inv empty_inv h) _ x hx ha) e he

/-- **C72** (kept): so long as the program keeps an object and all it came from — the message, its iterator, the query, the database — none of its methods uses freed memory. -/
theorem C72_kept (es : List Event) (e : Event) (x : Nat) (h : AllClean .empty es) (he : e.on = some x) (hk : ∀ y, Anc (run .empty es) y x → Keeps (run .empty es) es y) :
    (step (run .empty es) e).2 ≠ .useAfterFree :=
  safe_ok (run_inv empty_inv h) (kept_safe h hk) e he

/-- **C72** (deleted): an object that is alive and has memory frees it when it is deleted, and all that came from that memory; the memory of everything else stays. -/
theorem C72_deleted (es : List Event) (x c : Nat) (h : AllClean .empty es) (hx : x < (run .empty es).n) (ha : (run .empty es).alive x = true)
    (hk : ((run .empty es).obj x).kind ≠ .owned) (hp : ((run .empty es).obj x).ptr = some (some c)) :
    ∀ d, (step (run .empty es) (.del x)).1.freed d = true ↔ (run .empty es).freed d = true ∨ CAnc (run .empty es).owner c d := by
  have hi := run_inv empty_inv h
  intro d
  have e : (step (run .empty es) (.del x)).1 = (((run .empty es).free c).setPtr x none) := by
    dsimp only [step]
    rw [if_pos hx]
    dsimp only
    unfold World.destroy
    have hv : ((run .empty es).obj x).kind ≠ .view := fun e => by rw [hi.viewed x e] at hp; cases hp
    split
    · rename_i e; exact absurd e hv
    · rename_i e; exact absurd e hk
    · rw [if_pos ha, hp]
  rw [e]
  exact free_freed hi c d

/-- **C72** (destroyed): once an object was deleted its methods raise `ObjectDestroyedError` and touch no memory. -/
theorem C72_destroyed (es : List Event) (x : Nat) (hk : ((run .empty es).obj x).kind ≠ .owned ∧ ((run .empty es).obj x).kind ≠ .view) :
    step (step (run .empty es) (.del x)).1 (.use x) = ((step (run .empty es) (.del x)).1, .raised) := by
  generalize run .empty es = w at *
  by_cases hx : x < w.n
  · have e : (step w (.del x)).1 = (w.destroy x).1 := by dsimp only [step]; rw [if_pos hx]
    obtain ⟨sk, _, _, sn, _, _⟩ := destroy_same w x
    have hp : ((w.destroy x).1.obj x).ptr = none := by
      unfold World.destroy
      split
      · rename_i e; exact absurd e hk.2
      · rename_i e; exact absurd e hk.1
      · split <;> (rw [setPtr_ptr, if_pos rfl])
    rw [e]
    dsimp only [step]
    rw [sn, if_pos hx]
    unfold World.call World.pointer
    rw [sk]
    split
    · rfl
    · rfl
    · rename_i h
      split at h
      · rename_i e; exact absurd e hk.2
      · rw [hp] at h; cases h
  · have e : (step w (.del x)).1 = w := by dsimp only [step]; rw [if_neg hx]
    rw [e]
    dsimp only [step]
    rw [if_neg hx]

/-- **C72** (nothing left): when every `Database` was destroyed, all the memory that the library gave was freed. -/
theorem C72_nothing_left (es : List Event) (h : AllClean .empty es) (hd : ∀ x, ((run .empty es).obj x).kind = .database → ((run .empty es).obj x).ptr = none) :
    ∀ c, c < (run .empty es).m → (run .empty es).freed c = true := by
  intro c hc
  exact all_freed (run_inv empty_inv h) (rooted_run empty_inv h (fun c h => absurd h (Nat.not_lt_zero _))) hd (c + 1) c (by omega) hc

/-! ## A program -/

/-- A query with a message, its tags, a thread and a message in it; then everything is deleted, the database first. -/
def sample : List Event :=
  [.open_, .query 0, .messages 1, .next 2 true, .view 3, .leaf 4, .next 5 true, .next 5 false, .threads 1, .next 6 true, .members 7 false, .next 8 true, .members 9 false, .use 9, .use 4]

theorem sample_clean : AllClean .empty sample := clean_of_no_rollback sample .empty (by intro x f h; simp [sample] at h)

theorem C72_sample :
    (run .empty sample).n = 11 ∧ (run .empty sample).m = 10 ∧ (step (run .empty sample) (.use 9)).2 = .ok none ∧ (step (run .empty sample) (.leaf 4)).2 = .ok (some 11) ∧ (step (run .empty sample) (.leaf 9)).2 = .ok (some 11) ∧
      (run .empty sample).alive 10 = true ∧ (run .empty (sample ++ [.del 0])).alive 10 = false ∧ (run .empty (sample ++ [.del 0])).freed 9 = true ∧
      (step (run .empty (sample ++ [.del 0])) (.del 7)).2 = .ok none ∧ (step (run .empty (sample ++ [.del 0, .del 7])) (.use 7)).2 = .raised := by
  refine ⟨?_, ?_, ?_, ?_, ?_, ?_, ?_, ?_, ?_, ?_⟩ <;> decide +kernel

/-- An exception in a `frozen` block, when nothing else came from the message. -/
theorem C72_sample_rollback : Clean (run .empty [.open_, .find 0]) (.rollback 1 true) ∧ (step (run .empty [.open_, .find 0]) (.rollback 1 true)).2 = .ok none ∧
    (run .empty [.open_, .find 0, .rollback 1 true]).freed 1 = true ∧ ((run .empty [.open_, .find 0, .rollback 1 true]).obj 1).ptr = some (some 2) := by
  refine ⟨?_, ?_, ?_, ?_⟩
  · intro x f e y ha hn
    injection e with e _
    subst e
    have hi := run_inv empty_inv (clean_of_no_rollback [.open_, .find 0] .empty (by intro x f h; simp at h))
    have := anc_le hi ha
    rw [hi.new y (by show 2 ≤ y; omega)]
  all_goals decide +kernel

/-! ## What goes wrong -/

/-- The messages that `list(db.messages(…))` keeps were freed with their iterator when it came to its end: using one uses freed memory, although no object was deleted. -/
theorem C72_ended_iterator : (step (run .empty [.open_, .query 0, .messages 1, .next 2 true, .next 2 false]) (.use 3)).2 = .useAfterFree ∧
    (run .empty [.open_, .query 0, .messages 1, .next 2 true, .next 2 false]).alive 3 = false := by
  constructor <;> decide +kernel

/-- The threads that `list(db.threads(…))` keeps may be used. -/
theorem C72_ended_threads : (step (run .empty [.open_, .query 0, .threads 1, .next 2 true, .next 2 false]) (.use 3)).2 = .ok none := by decide +kernel

/-- An iterator over the tags of a message, made before a `frozen` block of the message ends with an exception: its memory is freed with the message, it still says that it is alive, its use
uses freed memory and its deletion frees the memory a second time. -/
theorem C72_rollback_twice : (run .empty [.open_, .find 0, .view 1, .leaf 2, .rollback 1 true]).alive 3 = true ∧
    (step (run .empty [.open_, .find 0, .view 1, .leaf 2, .rollback 1 true]) (.next 3 true)).2 = .useAfterFree ∧
    (step (run .empty [.open_, .find 0, .view 1, .leaf 2, .rollback 1 true]) (.del 3)).2 = .doubleFree := by
  refine ⟨?_, ?_, ?_⟩ <;> decide +kernel

end Notmuch.Props
