import Verif.Proofs.ElParser4

/-!
# C75: Emacs gets the same results however the output of notmuch arrives

`IsLisp` (Spec/Sprinter) says which object a text is, independently of Emacs and of the parser: the reader of C40.  `run chunks` is the filter called with the pieces of the
output one after the other.
-/

namespace Notmuch.Props
open Notmuch.Sprinter (Lisp Val Call norm skipWs IsLisp isAtomChar isWs)
open Notmuch.ElParser

private theorem top_part {text u : Str} {l : List Lisp} (h : IsLisp (text ++ u) (.list l)) (hs : (skipWs (text ++ u)).head? = some 40) (hp : Plain l) :
    ∃ st, Top text st ∧ st.errs = [] ∧ st.out <+: l ∧ (u = [] → st.out = l ∧ st.phase = .fin ∧ st.rest = []) := by
  obtain ⟨body, e, d⟩ := top_lisp h hs hp
  cases hk : skipWs text with
  | nil =>
    refine ⟨.start, .inl ⟨hk, rfl⟩, rfl, List.nil_prefix, fun hu => ?_⟩
    subst hu
    rw [List.append_nil, hk] at e
    cases e
  | cons c r =>
    rw [skipWs_append_cons hk] at e
    injection e with e1 e2
    subst e1 e2
    obtain ⟨vs, r', b, d'⟩ := d.beginning r u rfl
    obtain ⟨k1, k2⟩ := d'.split d
    refine ⟨settled vs r' b, .inr ⟨r, vs, r', b, hk, d', rfl⟩, ?_, ?_, fun hu => ?_⟩
    · cases b <;> rfl
    · cases b with
      | false => obtain ⟨V', rfl, _⟩ := k1 rfl; exact List.prefix_append _ _
      | true => rw [(k2 rfl).1]; exact List.prefix_refl _
    · subst hu
      cases b with
      | true => exact ⟨(k2 rfl).1.symm, rfl, rfl⟩
      | false =>
        exfalso
        obtain ⟨V', _, D⟩ := k1 rfl
        rw [List.append_nil] at D
        rcases d'.left' with rfl | ⟨c, x, rfl, hc, h41⟩
        · exact drain_nil D
        · have hsk : skipWs (c :: x) = c :: x := Sprinter.skipWs_cons hc _
          cases D with
          | close h1 h2 => rw [hsk] at h1; injection h1 with h1 _; exact h41 h1
          | elem h1 h2 h3 =>
            rw [hsk] at h1; injection h1 with i1 i2; subst i1 i2
            rcases d'.left with h | h | ⟨w, h⟩
            · cases h
            · rw [h] at h3; cases h3
            · rw [h] at h3; cases h3

/-- **C75.** For every text that is the beginning of a list, and every way to cut it into pieces: nothing depends on the cuts, there is no error, and the results handed over are
elements of the list in their order, each once, none left out.  If the text is the whole list, then these are all, and nothing is left. -/
theorem C75_chunks {text u : Str} {l : List Lisp} (h : IsLisp (text ++ u) (.list l)) (hs : (skipWs (text ++ u)).head? = some 40)
    (hp : ∀ v ∈ l, v ≠ .sym (bs "retry") ∧ v ≠ .sym (bs "end")) (chunks : List Str) (hc : chunks.flatten = text) :
    run chunks = run [text] ∧ (run chunks).errs = [] ∧ (run chunks).out <+: l ∧ (u = [] → (run chunks).out = l ∧ (run chunks).phase = .fin ∧ (run chunks).rest = []) := by
  obtain ⟨st, h1, h2, h3, h4⟩ := top_part h hs hp
  have e1 : run chunks = st := run_eq (hc ▸ h1)
  have e2 : run [text] = st := run_eq (by simpa using h1)
  rw [e1, e2]
  exact ⟨rfl, h2, h3, h4⟩

private theorem head_append {text w : Str} (h : (skipWs text).head? = some 40) : (skipWs (text ++ w)).head? = some 40 ∧ ∃ r, skipWs text = 40 :: r := by
  cases e : skipWs text with
  | nil => rw [e] at h; cases h
  | cons c r =>
    rw [e] at h
    injection h with h
    subst h
    rw [skipWs_append_cons e]
    exact ⟨rfl, r, rfl⟩

/-- **C75.** A result is handed over as soon as it is known to be complete: if closing the list here would give a list of certain elements, then these are handed over when one
more character was read, unless that continues a symbol or number. -/
theorem C75_prompt {text u more : Str} {c : UInt8} {l m : List Lisp} (hl : IsLisp (text ++ [41]) (.list l)) (hm : IsLisp (text ++ c :: more ++ u) (.list m))
    (hs : (skipWs text).head? = some 40) (hpl : ∀ v ∈ l, v ≠ .sym (bs "retry") ∧ v ≠ .sym (bs "end")) (hpm : ∀ v ∈ m, v ≠ .sym (bs "retry") ∧ v ≠ .sym (bs "end"))
    (hc : isWs c = true ∨ c = 40 ∨ c = 41 ∨ c = 34) (chunks : List Str) (hf : chunks.flatten = text ++ c :: more) : l <+: (run chunks).out := by
  obtain ⟨a1, r, er⟩ := head_append (w := [41]) hs
  obtain ⟨b1, e1, d1⟩ := top_lisp hl a1 hpl
  rw [skipWs_append_cons er] at e1
  injection e1 with _ e1
  subst e1
  obtain ⟨st, h1, _⟩ := top_part (text := text ++ c :: more) hm (by rw [List.append_assoc]; exact (head_append hs).1) hpm
  have e : run chunks = st := run_eq (hf ▸ h1)
  rw [e]
  rcases h1 with ⟨h1, _⟩ | ⟨q, V, R, B, h1, D, rfl⟩
  · rw [skipWs_append_cons er] at h1; cases h1
  · rw [skipWs_append_cons er] at h1
    injection h1 with _ h1
    subst h1
    have hd : delim c = true := by unfold delim; rcases hc with h | h | h | h <;> simp [h]
    have := drain_prompt d1 hd D
    cases B <;> exact this

/-- **C75.** Behind a list or string no further character is needed. -/
theorem C75_prompt_now {text : Str} {l : List Lisp} (hl : IsLisp (text ++ [41]) (.list l)) (hs : (skipWs text).head? = some 40)
    (hp : ∀ v ∈ l, v ≠ .sym (bs "retry") ∧ v ≠ .sym (bs "end")) (ht : ∀ c, text.getLast? = some c → isAtomChar c = false)
    (chunks : List Str) (hf : chunks.flatten = text) : (run chunks).out = l := by
  obtain ⟨a1, r, er⟩ := head_append (w := [41]) hs
  obtain ⟨b1, e1, d1⟩ := top_lisp hl a1 hp
  rw [skipWs_append_cons er] at e1
  injection e1 with _ e1
  subst e1
  obtain ⟨p, hp'⟩ := skipWs_suffix text
  rw [er] at hp'
  obtain ⟨R, D⟩ := drain_now d1 (by
    intro c hc
    refine ht c ?_
    rw [← hp', List.getLast?_append, List.getLast?_cons, hc]
    rfl)
  have e : run chunks = settled l R false := run_eq (hf ▸ .inr ⟨r, l, R, false, er, D, rfl⟩)
  rw [e]
  rfl

/-- **C75.** What notmuch prints as S-expressions: whatever list of results is printed, with separators anywhere, and however the output is cut into pieces, Emacs gets these results. -/
theorem C75_printed (l : List Val) (hk : Val.KeysOkList l) (cs : List Call) (h : norm cs = (Val.list l).calls) :
    ∃ st, Sprinter.Sexp.run Sprinter.start cs = some st ∧
      ∀ chunks, List.flatten chunks = st.out → (run chunks).out = Val.lispList l ∧ (run chunks).errs = [] ∧ (run chunks).phase = .fin ∧ (run chunks).rest = [] := by
  obtain ⟨b, T, e, hT⟩ := printed_full l hk cs h
  refine ⟨_, e, fun chunks hc => ?_⟩
  have hL := elems_lisp (w := [10]) hT rfl
  obtain ⟨_, h2, _, h4⟩ := C75_chunks (text := 40 :: (T ++ [41, 10])) (u := []) (by rw [List.append_nil]; exact hL)
    (by rw [List.append_nil, Sprinter.skipWs_cons (by decide)]; rfl) (plain_printed l) chunks hc
  obtain ⟨h5, h6, h7⟩ := h4 rfl
  exact ⟨h5, h2, h6, h7⟩

/-- **C75.** And when some results were printed, the last of them a list, a map or a string, it has got these, before anything else is printed. -/
theorem C75_printed_prompt (l : List Val) (hk : Val.KeysOkList l) (cs : List Call) (h : norm cs = .beginList :: Val.callsList l) :
    ∃ st, Sprinter.Sexp.run Sprinter.start cs = some st ∧
      ((∀ c, st.out.getLast? = some c → isAtomChar c = false) → ∀ chunks, List.flatten chunks = st.out → (run chunks).out = Val.lispList l) := by
  obtain ⟨b, first, T, e, hT⟩ := printed_open l hk cs h
  refine ⟨_, e, fun hl chunks hc => ?_⟩
  exact C75_prompt_now (text := 40 :: T) (elems_lisp (w := []) hT rfl) (by rw [Sprinter.skipWs_cons (by decide)]; rfl) (plain_printed l) hl chunks hc

private theorem printed_last {l : List Val} {v : Val} {open_ : Call} {calls : List Call} {m : List Lisp} (hk : Val.KeysOkList (l ++ [v])) (hv : v.calls = open_ :: (calls ++ [.endAgg]))
    (ho : ∀ st, Sprinter.Sexp.step st open_ = some (Sprinter.Sexp.beginAggregate st)) (hm : Sprinter.Sexp.ElemsOk calls m) (cs : List Call)
    (h : norm cs = .beginList :: Val.callsList (l ++ [v])) :
    ∃ st, Sprinter.Sexp.run Sprinter.start cs = some st ∧ ∀ chunks, List.flatten chunks = st.out → (run chunks).out = Val.lispList (l ++ [v]) := by
  obtain ⟨st, e, hp⟩ := C75_printed_prompt (l ++ [v]) hk cs h
  obtain ⟨st', e', hl⟩ := printed_agg l (keysOk_append hk).1 ho hm cs (by
    rw [h, callsList_append, ← hv, Val.callsList, Val.callsList, List.append_nil]; rfl)
  have : st = st' := by rw [e] at e'; injection e'
  subst this
  refine ⟨st, e, hp ?_⟩
  intro c hc
  rw [hl] at hc
  injection hc with hc
  subst hc
  decide

/-- **C75.** For example when the last of them is a map, as the results of `notmuch search` are, or a list. -/
theorem C75_printed_map (l : List Val) (o : List (Str × Val)) (hk : Val.KeysOkList (l ++ [.obj o])) (cs : List Call) (h : norm cs = .beginList :: Val.callsList (l ++ [.obj o])) :
    ∃ st, Sprinter.Sexp.run Sprinter.start cs = some st ∧ ∀ chunks, List.flatten chunks = st.out → (run chunks).out = Val.lispList (l ++ [.obj o]) :=
  printed_last hk rfl (fun _ => rfl) (Sprinter.Sexp.obj_ok o (keysOk_append hk).2.1) cs h

theorem C75_printed_list (l m : List Val) (hk : Val.KeysOkList (l ++ [.list m])) (cs : List Call) (h : norm cs = .beginList :: Val.callsList (l ++ [.list m])) :
    ∃ st, Sprinter.Sexp.run Sprinter.start cs = some st ∧ ∀ chunks, List.flatten chunks = st.out → (run chunks).out = Val.lispList (l ++ [.list m]) :=
  printed_last hk rfl (fun _ => rfl) (Sprinter.Sexp.list_ok m (keysOk_append hk).2.1) cs h

/-- **C75.** Text behind the list is an error, and nothing is handed over for it. -/
theorem C75_garbage {text junk : Str} {l : List Lisp} (h : IsLisp text (.list l)) (hs : (skipWs text).head? = some 40)
    (hp : ∀ v ∈ l, v ≠ .sym (bs "retry") ∧ v ≠ .sym (bs "end")) (chunks : List Str) (hc : chunks.flatten = text) (hj : ∃ c ∈ junk, isWs c = false) :
    (feed (run chunks) junk).out = l ∧ (feed (run chunks) junk).errs = [.garbage] := by
  obtain ⟨body, e, d⟩ := top_lisp h hs hp
  have e1 : run chunks = settled l [] true := run_eq (hc ▸ .inr ⟨body, l, [], true, e, d, rfl⟩)
  rw [e1]
  have hne : skipWs junk ≠ [] := by
    obtain ⟨c, h1, h2⟩ := hj
    intro h3
    have : ∀ s : Str, skipWs s = [] → ∀ c ∈ s, isWs c = true := by
      intro s
      induction s with
      | nil => intro _ c hc; cases hc
      | cons x s ih =>
        intro hs c hc
        by_cases hx : isWs x = true
        · rw [Sprinter.skipWs_ws hx] at hs
          rw [List.mem_cons] at hc
          rcases hc with rfl | hc
          · exact hx
          · exact ih hs c hc
        · rw [Sprinter.skipWs_cons (by simpa using hx)] at hs; cases hs
    rw [this junk h3 c h1] at h2
    cases h2
  have hf : feed (settled l [] true) junk = ⟨skipWs junk, ⟨0, none, none⟩, .fin, l, [.garbage]⟩ := by
    show loop (junk.length + 3) ⟨junk, ⟨0, none, none⟩, .fin, l, []⟩ = _
    unfold loop
    dsimp only
    rw [if_pos hne]
    rfl
  rw [hf]
  exact ⟨rfl, rfl⟩

/-- **C75.** Text that is no list is an error at its first character, and nothing is handed over. -/
theorem C75_not_list {text r : Str} {c : UInt8} (h : skipWs text = c :: r) (hc : c ≠ 40) : (run [text]).out = [] ∧ (run [text]).errs = [.invalid] ∧ (run [text]).rest = r := by
  have : run [text] = ⟨r, .new, .begin, [], [.invalid]⟩ := by
    show loop (text.length + 3) ⟨text, .new, .begin, [], []⟩ = _
    unfold loop
    dsimp only
    have e : beginList .new text = (.error .invalid, .new, r) := by unfold beginList; rw [h]; dsimp only; rw [if_neg hc]
    rw [e]
    rfl
  rw [this]
  exact ⟨rfl, rfl, rfl⟩

/-! ## The symbols that are not told apart -/

/-- A result that is the symbol `retry` is taken for the want of more text: it is lost, and what is behind it waits for the next call, so that the cuts matter. -/
theorem C75_retry_counterexample : (run [bs "(retry 7)"]).out = [] ∧ (run [bs "(retry ", bs "7)"]).out = [.int 7] ∧ (run [bs "(retry 7)"]).errs = [] := by
  refine ⟨rfl, rfl, rfl⟩

/-- A result that is the symbol `end` is taken for the end of the list. -/
theorem C75_end_counterexample : (run [bs "(7 end 8)"]).out = [.int 7] ∧ (run [bs "(7 end 8)"]).errs = [.garbage] := by
  refine ⟨rfl, rfl⟩

/-! ## A concrete case -/

/-- Two results of `notmuch search`, cut inside a string, inside an escape, inside a symbol and behind a closing parenthesis that is in a string. -/
theorem C75_example :
    run [bs "((:thread \"1\" :subject \"a)", bs "\\", bs "\"b\" :tags (\"x\") :n", bs "il nil)", bs "\n (:thread \"2\" :total -1", bs "2))", bs "\n"] =
      ⟨[], ⟨0, none, none⟩, .fin,
        [.list [.sym (bs ":thread"), .str (bs "1"), .sym (bs ":subject"), .str (bs "a)\"b"), .sym (bs ":tags"), .list [.str (bs "x")], .sym (bs ":nil"), .list []],
         .list [.sym (bs ":thread"), .str (bs "2"), .sym (bs ":total"), .int (-12)]], []⟩ := rfl

/-- It meets what C75_printed asks for. -/
theorem C75_example_printed :
    Val.KeysOkList [.obj [(bs "thread", .str (bs "1")), (bs "total", .int (-12)), (bs "tags", .list [.str (bs "x")])]] ∧
      norm (.beginList :: .separator :: Val.callsList [.obj [(bs "thread", .str (bs "1")), (bs "total", .int (-12)), (bs "tags", .list [.str (bs "x")])]] ++ [.separator, .endAgg]) =
        (Val.list [.obj [(bs "thread", .str (bs "1")), (bs "total", .int (-12)), (bs "tags", .list [.str (bs "x")])]]).calls := by
  refine ⟨⟨⟨?_, trivial, ?_, trivial, ?_, ⟨trivial, trivial⟩, trivial⟩, trivial⟩, rfl⟩ <;> decide

end Notmuch.Props
