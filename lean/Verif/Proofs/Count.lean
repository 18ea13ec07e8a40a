import Verif.Spec.Count
import Verif.Props.Query
import Verif.Props.Search
import Verif.Props.Args

namespace Notmuch.Count

open Notmuch.Query Notmuch.QuerySpec Notmuch.Cli Notmuch.Args
open Notmuch.Sprinter (printInt)

theorem countNames_eq (l : List Str) : ∀ n, n + l.length ≤ 2147483647 → countNames n l = some (n + l.length) := by
  induction l with
  | nil => intro n _; rfl
  | cons a l ih =>
    intro n h
    rw [List.length_cons] at h
    rw [countNames, if_neg (by omega), ih _ (by omega), List.length_cons]
    congr 1
    omega

theorem countMessagesFiles_eq (f : Doc → List Str) (ms : List (Doc × Bool)) : ∀ n, n + (ms.flatMap (fun m => f m.1)).length ≤ 2147483647 →
    countMessagesFiles f n ms = some (n + (ms.flatMap (fun m => f m.1)).length) := by
  induction ms with
  | nil => intro n _; rfl
  | cons m l ih =>
    intro n h
    rw [List.flatMap_cons, List.length_append] at h ⊢
    rw [countMessagesFiles, countNames_eq _ _ (by omega)]
    simp only
    rw [ih _ (by omega)]
    congr 1
    omega

theorem flatMap_filter_length {α β : Type} (f : α → List β) (p : α → Bool) (l : List α) : ((l.filter p).flatMap f).length ≤ (l.flatMap f).length := by
  induction l with
  | nil => exact Nat.le_refl _
  | cons a l ih =>
    rw [List.filter_cons]
    split <;> simp only [List.flatMap_cons, List.length_append] <;> omega

/-- The hits are the same in any order. -/
theorem hits_files {ord : SortOrder → List Doc → List Doc} (ho : Orders ord) (db : List Doc) (x : XQuery) (ex : List Str) (f : Doc → List Str) :
    ∃ n, n ≤ (db.flatMap f).length ∧ ∀ s, ((hits ord db (build x ex .yes s)).flatMap f).length = n := by
  have hperm : ∀ s, (hits ord db (build x ex .yes s)).Perm (db.filter (XQuery.andNot (.and (.term (typeTerm (bs "mail"))) x) (excludeTags (build x ex .yes .unsorted))).eval) := by
    intro s
    have h : (build x ex .yes s).omitExcluded = .yes := rfl
    have e : excludeTags (build x ex .yes s) = excludeTags (build x ex .yes .unsorted) := by unfold excludeTags; rw [build_excludeTerms, build_excludeTerms]
    unfold hits
    rw [h, if_pos (Or.inl rfl), e, build_xapian]
    exact ho.perm _ _
  refine ⟨_, flatMap_filter_length f _ db, fun s => ((hperm s).flatMap_right f).length_eq⟩

theorem window_all {α : Type} (l : List α) : Search.window 0 (-1) l = l := by simp [Search.window]

theorem zero_not_mem_cstr (s : Option Str) : (0 : UInt8) ∉ Sprinter.cstr s := by
  cases s with
  | none => simp [Sprinter.cstr]
  | some s =>
    show ¬0 ∈ s.takeWhile (fun x => decide (x ≠ 0))
    induction s with
    | nil => simp
    | cons c s ih =>
      rw [List.takeWhile_cons]
      split
      · rename_i hc
        rw [List.mem_cons, not_or]
        refine ⟨?_, ih⟩
        intro e
        simp [← e] at hc
      · simp

theorem queryLoop_false (l : List Str) : ∀ s, queryLoop false s l = s ++ l.flatMap (fun a => bs " " ++ a) := by
  induction l with
  | nil => intro s; simp [queryLoop]
  | cons a l ih => intro s; rw [queryLoop, ih]; simp [appendArg]

theorem intercalate_eq (sep : Str) (a : Str) (l : List Str) : sep.intercalate (a :: l) = a ++ l.flatMap (fun b => sep ++ b) := by
  induction l generalizing a with
  | nil => simp
  | cons b l ih => rw [List.intercalate_cons_cons, ih]; simp

theorem queryString_eq (l : List Str) : queryString l = (bs " ").intercalate l := by
  cases l with
  | nil => rfl
  | cons a l =>
    rw [intercalate_eq]
    show queryLoop false (appendArg true [] a) l = _
    rw [queryLoop_false]
    rfl

/-! ## Lines -/

open DumpRestore (splitLines) in
theorem splitLines_line (t : Str) (h : (10 : UInt8) ∉ t) (s : Str) : splitLines (t ++ 10 :: s) = (t ++ [10]) :: splitLines s := by
  induction t with
  | nil => simp [splitLines]
  | cons c t ih =>
    rw [List.mem_cons, not_or] at h
    rw [List.cons_append, splitLines, if_neg (fun e => h.1 e.symm), ih h.2]
    rfl

open DumpRestore (splitLines) in
theorem splitLines_last (t : Str) (h : (10 : UInt8) ∉ t) (hne : t ≠ []) : splitLines t = [t] := by
  induction t with
  | nil => exact absurd rfl hne
  | cons c t ih =>
    rw [List.mem_cons, not_or] at h
    rw [splitLines, if_neg (fun e => h.1 e.symm)]
    cases t with
    | nil => rfl
    | cons d t => rw [ih h.2 (by simp)]

theorem cstr_eq (t : Str) (h : (0 : UInt8) ∉ t) : TagUtil.cstr t = t := by
  unfold TagUtil.cstr
  induction t with
  | nil => rfl
  | cons c t ih =>
    rw [List.mem_cons, not_or] at h
    rw [List.takeWhile_cons, if_pos (by simpa using fun e => h.1 e.symm), ih h.2]

theorem lineText_line (t : Str) (h0 : (0 : UInt8) ∉ t) : lineText (t ++ [10]) = some t := by
  have hn : (0 : UInt8) ∉ t ++ [10] := by simp [h0]
  unfold lineText
  rw [if_neg, cstr_eq _ hn]
  · simp [TagUtil.chomp]
  · intro h
    exact hn (List.mem_of_mem_head? h)

theorem lineText_last (t : Str) (h0 : (0 : UInt8) ∉ t) (h10 : (10 : UInt8) ∉ t) : lineText t = some t := by
  unfold lineText
  rw [if_neg, cstr_eq _ h0]
  · unfold TagUtil.chomp
    rw [if_neg]
    intro h
    exact h10 (List.mem_of_getLast? h)
  · intro h
    exact h0 (List.mem_of_mem_head? h)

theorem lines_split {c : Str} {ts : List Str} (h : Lines c ts) : (DumpRestore.splitLines c).map lineText = ts.map some := by
  obtain ⟨hb, hc⟩ := h
  have key : ∀ (ts : List Str) (s : Str), (∀ t ∈ ts, (10 : UInt8) ∉ t ∧ (0 : UInt8) ∉ t) →
      (DumpRestore.splitLines (ts.flatMap (· ++ [10]) ++ s)).map lineText = ts.map some ++ (DumpRestore.splitLines s).map lineText := by
    intro ts s
    induction ts with
    | nil => intro _; simp
    | cons t ts ih =>
      intro hb
      rw [List.flatMap_cons]
      have : t ++ [10] ++ ts.flatMap (· ++ [10]) ++ s = t ++ 10 :: (ts.flatMap (· ++ [10]) ++ s) := by simp
      rw [this, splitLines_line t (hb t (by simp)).1, List.map_cons, lineText_line t (hb t (by simp)).2, ih (fun t ht => hb t (by simp [ht]))]
      rfl
  rcases hc with rfl | ⟨ts', t, rfl, hne, rfl⟩
  · have := key ts [] hb
    simpa [DumpRestore.splitLines] using this
  · rw [key ts' t (fun t ht => hb t (by simp [ht])), splitLines_last t (hb t (by simp)).1 hne]
    simp [lineText_last t (hb t (by simp)).2 (hb t (by simp)).1]

theorem countLines_eq (E : Env) (sexp : Bool) (ex : List Str) (out : Output) (lastmod : Bool) (ls ts : List Str) (h : ls.map lineText = ts.map some) :
    ended (countLines E sexp ex out lastmod ls) = oneAfterAnother (ts.map (fun t => ended (printCount E sexp ex out lastmod t))) := by
  induction ls generalizing ts with
  | nil =>
    cases ts with
    | nil => rfl
    | cons t ts => simp at h
  | cons l ls ih =>
    cases ts with
    | nil => simp at h
    | cons t ts =>
      simp only [List.map_cons, List.cons.injEq] at h
      rw [countLines, h.1, List.map_cons]
      simp only
      have := ih ts h.2
      cases hp : printCount E sexp ex out lastmod t with
      | none => rfl
      | some r =>
        obtain ⟨ok, s⟩ := r
        cases ok with
        | false => rfl
        | true =>
          show _ = oneAfterAnother (End.exit 0 s :: _)
          rw [oneAfterAnother, ← this]
          cases countLines E sexp ex out lastmod ls with
          | none => rfl
          | some r => rfl

theorem countLines_stdin (E : Env) (c : Str) (sexp : Bool) (ex : List Str) (out : Output) (lastmod : Bool) (ls : List Str) :
    countLines { E with stdin := c } sexp ex out lastmod ls = countLines E sexp ex out lastmod ls := by
  induction ls with
  | nil => rfl
  | cons l ls ih =>
    rw [countLines, countLines, ih]
    rfl

/-! ## Options -/

theorem takes_append {es : List Entry} {args r : List Str} {w : List Write} (h : Takes es args w r) (a : Str) (ha : bs "--" <+: a) (ext : List Str) :
    Takes es (args ++ a :: ext) w (r ++ a :: ext) := by
  cases h with
  | given h1 h2 h3 h4 h5 => exact .given h1 h2 h3 h4 h5
  | alone h1 h2 h3 h4 => exact .alone h1 h2 h3 h4
  | next h1 h2 h3 h4 h5 h6 => exact .next h1 h2 h3 h4 h5 h6
  | default h1 h2 h3 h4 h5 h6 =>
    refine .default h1 h2 h3 h4 h5 ?_
    intro v hv hnv
    cases hr : r with
    | nil =>
      rw [hr] at hv
      injection hv with hv
      exact absurd (hv ▸ ha) hnv
    | cons b r' =>
      rw [hr] at hv
      exact h6 v (by rw [hr]; exact hv) hnv

theorem parses_append {es : List Entry} {args r r' : List Str} {w w' : List Write} (h : Parses es [] args w r) (hr : r = []) (hd : bs "--" ∉ args) (a : Str)
    (ha : bs "--" <+: a) (ext : List Str) (he : Parses es [] (a :: ext) w' r') : Parses es [] (args ++ a :: ext) (w ++ w') r' := by
  generalize hps : ([] : List Entry) = ps at h
  induction h with
  | none => rw [← hps]; exact he
  | stop => exact absurd (by simp) hd
  | rest _ => cases hr
  | position => cases hps
  | option ht _ ih =>
    rw [List.append_assoc]
    refine .option (takes_append ht a ha ext) (ih hr ?_ hps)
    rcases takes_shape ht with ⟨b, h⟩ | ⟨b, v, h⟩
    · intro hm; exact hd (by rw [h]; simp [hm])
    · intro hm; exact hd (by rw [h]; simp [hm])

theorem good_count : Good (entries countOptions) := Props.C53_tables.1 countOptions (by simp [tables, soundTables])
theorem places_count : places countOptions = [] := Props.C53_tables.2.2 countOptions (by simp [tables, soundTables])

theorem parse_append {opts : List Str} {w w' : List Write} {r : List Str} (h : parse countOptions opts = (.rest [], w)) (hd : bs "--" ∉ opts) (a : Str)
    (ha : bs "--" <+: a) (ext : List Str) (he : parse countOptions (a :: ext) = (.rest r, w')) : parse countOptions (opts ++ a :: ext) = (.rest r, w ++ w') := by
  rw [parse_iff good_count, places_count] at *
  exact parses_append h rfl hd a ha ext he

theorem goesOn {X : Sys} {s : Shared} {uuid : Str} {name : Option Str} (h : GoesOn s uuid) : processShared X (some uuid) s name = none := by
  obtain ⟨h1, h2, h3⟩ := h
  unfold processShared
  rw [h1, h2]
  simp only [Bool.false_eq_true, if_false]
  cases hu : s.uuid with
  | none => rfl
  | some u => simp [h3 u hu]

end Notmuch.Count
