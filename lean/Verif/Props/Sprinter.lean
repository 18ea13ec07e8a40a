import Verif.Proofs.SprinterSexp

/-!
# C40: what is printed as JSON or as S-expressions reads back as what was meant

`IsJson` and `IsLisp` (Spec/Sprinter) are readers of JSON texts and Lisp objects written without regard to the printers.
-/

namespace Notmuch.Props
open Notmuch.Sprinter

private theorem json_scalar {v : Val} {c : Call} {text : Str} (hc : v.calls = [c])
    (hs : ∀ st, Json.step st c = some ((Json.beginValue st).put text)) (hr : Json.Reads text v) (cs : List Call) (h : norm cs = v.calls) :
    ∃ st, Json.run start cs = some st ∧ st.stack = [] ∧ IsJson st.out v := by
  rw [hc] at h
  obtain ⟨b, hb⟩ := Json.run_one cs c start h
  obtain ⟨b2, e3⟩ := hb _ (hs _)
  obtain ⟨N, hN⟩ := hr [] (by intro c h; cases h)
  refine ⟨_, e3, rfl, N, fun k hk => ⟨[], ?_, rfl⟩⟩
  have := hN k hk
  rw [List.append_nil] at this
  exact this

private theorem json_agg {v : Val} {c : Call} {op cl : UInt8} {calls : List Call} (hc : v.calls = c :: (calls ++ [.endAgg]))
    (hs : ∀ st, Json.step st c = some (Json.beginAggregate st op cl)) (hb : Json.BodyOk cl calls v op) (cs : List Call) (h : norm cs = v.calls) :
    ∃ st, Json.run start cs = some st ∧ st.stack = [] ∧ IsJson st.out v ∧ st.out.getLast? = some 10 := by
  rw [hc] at h
  obtain ⟨c1, c23, rfl, h1, h23⟩ := norm_append_inv cs [c] _ h
  obtain ⟨c2, c3, rfl, h2, h3⟩ := norm_append_inv c23 calls _ h23
  obtain ⟨b1, r1⟩ := Json.run_one c1 c start h1
  obtain ⟨b3, r1⟩ := r1 _ (hs _)
  obtain ⟨b4, first, body, r2, hr⟩ := hb c2 { Json.beginAggregate { start with sep := b1 } op cl with sep := b3 } [] h2 rfl
  obtain ⟨b5, r3⟩ := Json.run_one c3 .endAgg ⟨[⟨first, cl⟩], b4, { Json.beginAggregate { start with sep := b1 } op cl with sep := b3 }.out ++ body⟩ h3
  obtain ⟨b6, r3⟩ := r3 _ rfl
  obtain ⟨N, hN⟩ := hr [10] (by intro c h; injection h with h; subst h; decide)
  have ho : ({ Json.beginAggregate { start with sep := b1 } op cl with sep := b3 } : St).out = [op] := rfl
  refine ⟨⟨[], b6, [op] ++ body ++ [cl] ++ [10]⟩, ?_, rfl, ⟨N, fun k hk => ⟨[10], hN k hk, rfl⟩⟩, List.getLast?_concat⟩
  rw [Json.run_append, r1]
  simp only [Option.bind_some]
  rw [Json.run_append, r2]
  simp only [Option.bind_some]
  rw [r3, ho]
  simp

private theorem body_of_list (l : List Val) : Json.BodyOk 93 (Val.callsList l) (.list l) 91 := by
  cases l with
  | nil => exact Json.body_list_nil
  | cons v l => exact Json.body_list (Json.value_ok v) (Json.list_ok l)

private theorem body_of_obj (l : List (Str × Val)) : Json.BodyOk 125 (Val.callsObj l) (.obj l) 123 := by
  cases l with
  | nil => exact Json.body_obj_nil
  | cons v l => exact Json.body_obj (Json.value_ok v.2) (Json.obj_ok l)

/-- **C40.** Whatever value is printed with the calls of the JSON printer, with separators put in anywhere, strings given by pointer or by length,
and any bytes in strings and names: the printer does not fail, every bracket it opened it closed, and the output is a JSON text for that value. -/
theorem C40_json (v : Val) (cs : List Call) (h : norm cs = v.calls) :
    ∃ st, Json.run start cs = some st ∧ st.stack = [] ∧ IsJson st.out v := by
  match v, h with
  | .null, h => exact json_scalar (text := bs "null") rfl (fun _ => rfl) Json.reads_null.1 cs h
  | .bool b, h => exact json_scalar rfl (fun _ => rfl) (Json.reads_bool b).1 cs h
  | .int i, h => exact json_scalar rfl (fun _ => rfl) (Json.reads_int i).1 cs h
  | .str s, h => exact json_scalar rfl (fun _ => rfl) (Json.reads_str s).1 cs h
  | .list l, h =>
    obtain ⟨st, a, b, c, _⟩ := json_agg (v := .list l) rfl (fun _ => rfl) (body_of_list l) cs h
    exact ⟨st, a, b, c⟩
  | .obj l, h =>
    obtain ⟨st, a, b, c, _⟩ := json_agg (v := .obj l) rfl (fun _ => rfl) (body_of_obj l) cs h
    exact ⟨st, a, b, c⟩

/-- **C40.** A list or map printed at the outermost level ends with a newline. -/
theorem C40_json_newline (v : Val) (hv : (∃ l, v = .list l) ∨ ∃ l, v = .obj l) (cs : List Call) (h : norm cs = v.calls) :
    ∃ st, Json.run start cs = some st ∧ st.out.getLast? = some 10 := by
  rcases hv with ⟨l, rfl⟩ | ⟨l, rfl⟩
  · obtain ⟨st, a, _, _, c⟩ := json_agg (v := .list l) rfl (fun _ => rfl) (body_of_list l) cs h
    exact ⟨st, a, c⟩
  · obtain ⟨st, a, _, _, c⟩ := json_agg (v := .obj l) rfl (fun _ => rfl) (body_of_obj l) cs h
    exact ⟨st, a, c⟩

/-- **C40.** A text is a JSON text for at most one value. -/
theorem C40_json_unique (text : Str) (v w : Val) (h1 : IsJson text v) (h2 : IsJson text w) : v = w := by
  obtain ⟨N, h1⟩ := h1
  obtain ⟨M, h2⟩ := h2
  obtain ⟨_, a, _⟩ := h1 (N + M) (by omega)
  obtain ⟨_, b, _⟩ := h2 (N + M) (by omega)
  rw [a] at b
  injection b with b
  exact (Prod.mk.inj b).1

/-- **C40.** So different values are printed differently. -/
theorem C40_json_injective (v w : Val) (cs ds : List Call) (h1 : norm cs = v.calls) (h2 : norm ds = w.calls)
    (st st' : St) (e1 : Json.run start cs = some st) (e2 : Json.run start ds = some st') (he : st.out = st'.out) : v = w := by
  obtain ⟨_, a1, _, a3⟩ := C40_json v cs h1
  obtain ⟨_, b1, _, b3⟩ := C40_json w ds h2
  rw [e1, Option.some.injEq] at a1
  rw [e2, Option.some.injEq] at b1
  subst a1 b1
  exact C40_json_unique _ v w a3 (he ▸ b3)

private theorem sexp_scalar {v : Val} {c : Call} {text : Str} (hc : v.calls = [c])
    (hs : ∀ st, Sexp.step st c = some ((Sexp.beginValue st).put text)) (hr : Sexp.Reads text v.lisp) (cs : List Call) (h : norm cs = v.calls) :
    ∃ st, Sexp.run start cs = some st ∧ st.stack = [] ∧ IsLisp st.out v.lisp := by
  rw [hc] at h
  obtain ⟨b, hb⟩ := Sexp.run_one cs c start h
  obtain ⟨b2, e3⟩ := hb _ (hs _)
  obtain ⟨N, hN⟩ := hr [] (by intro c h; cases h)
  refine ⟨_, e3, rfl, N, fun k hk => ⟨[], ?_, rfl⟩⟩
  have := hN k hk
  rw [List.append_nil] at this
  exact this

private theorem sexp_agg {v : Val} {c : Call} {calls : List Call} {l : List Lisp} (hc : v.calls = c :: (calls ++ [.endAgg])) (hl : v.lisp = .list l)
    (hs : ∀ st, Sexp.step st c = some (Sexp.beginAggregate st)) (hb : Sexp.ElemsOk calls l) (cs : List Call) (h : norm cs = v.calls) :
    ∃ st, Sexp.run start cs = some st ∧ st.stack = [] ∧ IsLisp st.out v.lisp := by
  rw [hc] at h
  obtain ⟨c1, c23, rfl, h1, h23⟩ := norm_append_inv cs [c] _ h
  obtain ⟨c2, c3, rfl, h2, h3⟩ := norm_append_inv c23 calls _ h23
  obtain ⟨b1, r1⟩ := Sexp.run_one c1 c start h1
  obtain ⟨b3, r1⟩ := r1 _ (hs _)
  obtain ⟨b4, first, body, r2, hr, _⟩ := hb c2 { Sexp.beginAggregate { start with sep := b1 } with sep := b3 } ⟨true, 41⟩ [] h2 rfl
  obtain ⟨b5, r3⟩ := Sexp.run_one c3 .endAgg ⟨[⟨first, 41⟩], b4, { Sexp.beginAggregate { start with sep := b1 } with sep := b3 }.out ++ body⟩ h3
  obtain ⟨b6, r3⟩ := r3 _ rfl
  obtain ⟨N, hN⟩ := (Sexp.reads_list hr).1 [10] (by intro c h; injection h with h; subst h; decide)
  have ho : ({ Sexp.beginAggregate { start with sep := b1 } with sep := b3 } : St).out = [40] := rfl
  rw [hl]
  refine ⟨⟨[], b6, [40] ++ body ++ [41] ++ [10]⟩, ?_, rfl, ⟨N, fun k hk => ⟨[10], hN k hk, rfl⟩⟩⟩
  rw [Sexp.run_append, r1]
  simp only [Option.bind_some]
  rw [Sexp.run_append, r2]
  simp only [Option.bind_some]
  rw [r3, ho]
  simp

/-- **C40.** The same for S-expressions, for values whose names are made of letters, digits, `-` and `_`: the output reads as the value, with maps
as property lists and with false, null and what is empty all as `nil`. -/
theorem C40_sexp (v : Val) (hk : v.KeysOk) (cs : List Call) (h : norm cs = v.calls) :
    ∃ st, Sexp.run start cs = some st ∧ st.stack = [] ∧ IsLisp st.out v.lisp := by
  match v, hk, h with
  | .null, _, h => exact sexp_scalar (text := bs "nil") rfl (fun _ => rfl) Sexp.reads_nil.1 cs h
  | .bool b, _, h => exact sexp_scalar rfl (fun _ => rfl) (Sexp.reads_bool b).1 cs h
  | .int i, _, h => exact sexp_scalar rfl (fun _ => rfl) (Sexp.reads_int i).1 cs h
  | .str s, _, h => exact sexp_scalar rfl (fun _ => rfl) (Sexp.reads_str s).1 cs h
  | .list l, hk, h => exact sexp_agg (v := .list l) rfl rfl (fun _ => rfl) (Sexp.list_ok l hk) cs h
  | .obj l, hk, h => exact sexp_agg (v := .obj l) rfl rfl (fun _ => rfl) (Sexp.obj_ok l hk) cs h

/-- **C40.** A text reads as at most one Lisp object. -/
theorem C40_sexp_unique (text : Str) (v w : Lisp) (h1 : IsLisp text v) (h2 : IsLisp text w) : v = w := by
  obtain ⟨N, h1⟩ := h1
  obtain ⟨M, h2⟩ := h2
  obtain ⟨_, a, _⟩ := h1 (N + M) (by omega)
  obtain ⟨_, b, _⟩ := h2 (N + M) (by omega)
  rw [a] at b
  injection b with b
  exact (Prod.mk.inj b).1

/-- **C40.** A name with any other character ends the program instead of producing a broken S-expression. -/
theorem C40_sexp_bad_name (st : St) (k : Str) (c : UInt8) (hc : c ∈ cstr (some k)) (h : isAlnum c = false ∧ c ≠ 45 ∧ c ≠ 95) :
    Sexp.step st (.mapKey k) = none := by
  have : ((cstr (some k)).all (fun c => isAlnum c || c = 45 || c = 95)) = false := by
    rw [List.all_eq_false]
    exact ⟨c, hc, by simp [h.1, h.2.1, h.2.2]⟩
  simp only [Sexp.step, Sexp.keyword, this]
  rfl

/-- **C40.** A string never puts a raw control character into the output, in either format, so the text of a message cannot break a line-based reader. -/
theorem C40_no_control (s : Str) : (∀ c ∈ s.flatMap Json.escape, 32 ≤ c) ∧ ∀ c ∈ s.flatMap Sexp.escape, 32 ≤ c := by
  have hj : ∀ c : UInt8, ∀ d ∈ Json.escape c, 32 ≤ d := by apply forall_byte; decide +kernel
  have hs : ∀ c : UInt8, ∀ d ∈ Sexp.escape c, 32 ≤ d := by apply forall_byte; decide +kernel
  constructor
  · intro c hc
    obtain ⟨d, _, h⟩ := List.mem_flatMap.1 hc
    exact hj d c h
  · intro c hc
    obtain ⟨d, _, h⟩ := List.mem_flatMap.1 hc
    exact hs d c h

/-- **C40.** S-expressions do not tell false, null, the empty list and the empty map apart. -/
theorem C40_sexp_nil_remark : (Val.bool false).lisp = (Val.list []).lisp ∧ Val.null.lisp = (Val.list []).lisp ∧ (Val.obj []).lisp = (Val.list []).lisp :=
  ⟨rfl, rfl, rfl⟩

/-! ## A concrete case -/

/-- A map with a string that needs quoting, a list in a list, an empty map, and a separator. -/
def exVal : Val := .obj [(bs "id", .str [34, 92, 10, 1, 200]), (bs "l", .list [.int (-7), .list [], .null, .bool true]), (bs "e", .obj [])]

def exCalls : List Call := [.beginMap, .mapKey (bs "id"), .separator, .stringLen [34, 92, 10, 1, 200], .separator, .mapKey (bs "l"), .beginList, .integer (-7),
  .beginList, .endAgg, .null, .boolean true, .endAgg, .mapKey (bs "e"), .beginMap, .endAgg, .endAgg]

example : norm exCalls = exVal.calls := rfl
example : exVal.KeysOk := by simp [exVal, Val.KeysOk, Val.KeysOkObj, Val.KeysOkList, bs, isAlnum]; decide
example : (Json.run start exCalls).map (·.out) = some (bs "{\"id\": \"\\\"\\\\\\n\\u0001" ++ [200] ++ bs "\",\n\"l\": [-7, [], null, true], \"e\": {}}\n") := by decide +kernel
example : (Sexp.run start exCalls).map (·.out) = some (bs "(:id\n\"\\\"\\\\\\n\\001" ++ [200] ++ bs "\"\n:l (-7 () nil t) :e ())\n") := by decide +kernel
example : Sexp.run start [.beginMap, .mapKey (bs "a b")] = none := by decide +kernel

end Notmuch.Props
