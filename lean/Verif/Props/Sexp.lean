import Verif.Proofs.SexpTotal

/-!
# C52: queries as s-expressions (lib/parse-sexp.cc)

`Means c π e sx S`, in `Verif/Spec/Sexp.lean`, says after the manual that the query `sx` stands for the set `S` of messages.
-/

namespace Notmuch.Props

open Notmuch Notmuch.Sexp

/-- **C52.** The query that is made finds what the expression means; and there is one for each expression that means something. -/
theorem C52_meaning (c : Ctx) (sx : Sexp) (S : Doc → Prop) :
    (∃ n q, query c n sx = some (.ok q) ∧ ∀ d, q.holds c d = true ↔ S d) ↔ Means c .top .nil sx S := by
  constructor
  · rintro ⟨n, q, h1, h2⟩
    exact means_congr (eval_sound n _ _ _ _ _ .top h1) h2
  · intro h
    exact eval_complete h none .top

/-- The meaning is only one, and is made in only one way. -/
theorem C52_one_meaning (c : Ctx) (sx : Sexp) : (∀ S S', Means c .top .nil sx S → Means c .top .nil sx S' → ∀ d, S d ↔ S' d) ∧
    ∀ n m r, query c n sx = some r → query c (n + m) sx = some r :=
  ⟨fun S S' h h' d => means_unique .top h h' d, fun n m r h => eval_mono (Nat.le_add_right n m) h⟩

/-- If no saved query uses itself, directly or through others, all queries are made or rejected in finite time. -/
theorem C52_terminates (c : Ctx) (h : Acyclic c) (sx : Sexp) : ∃ n r, query c n sx = some r := ends_of_acyclic h sx none

/-- Nothing crashes if the saved queries are in order, and `matching` and `of` are in fields. -/
theorem C52_no_crash (c : Ctx) (hn : ∀ s, c.parseInfix (c.named s) = .ok) (hs : ∀ n s, c.squery n = some (some s) → SavedSafe c s) (sx : Sexp)
    (h : safe c false sx = true) (n : Nat) : query c n sx ≠ some .crash := no_crash hn hs n none .nil sx trivial h

/-- So then a query is rejected if and only if it has no meaning. -/
theorem C52_answer (c : Ctx) (ha : Acyclic c) (hn : ∀ s, c.parseInfix (c.named s) = .ok) (hs : ∀ n s, c.squery n = some (some s) → SavedSafe c s) (sx : Sexp)
    (h : safe c false sx = true) : (∃ n s, query c n sx = some (.err s)) ↔ ¬ ∃ S, Means c .top .nil sx S := by
  constructor
  · rintro ⟨n, s, h1⟩ ⟨S, h2⟩
    obtain ⟨m, q, h3, _⟩ := eval_complete h2 none .top
    have g1 := eval_mono (Nat.le_add_right n m) h1
    have g2 := eval_mono (Nat.le_add_left m n) h3
    rw [g1] at g2
    cases g2
  · intro hno
    obtain ⟨n, r, hr⟩ := C52_terminates c ha sx
    cases r with
    | err s => exact ⟨n, s, hr⟩
    | crash => exact absurd hr (C52_no_crash c hn hs sx h n)
    | ok q => exact absurd ⟨_, (C52_meaning c sx _).1 ⟨n, q, hr, fun d => Iff.rfl⟩⟩ hno

/-- A parameter is a comma and a name, not in quotes; anything else is not.  (`Means` and `Text` say `param` for this.) -/
theorem C52_parameter (sx : Sexp) (n : Str) : param sx = some n ↔ sx = .atom false (bs "," ++ n) := by
  constructor
  · intro h
    unfold param at h
    split at h
    · injection h with h
      subst h
      rfl
    · cases h
  · intro h
    subst h
    rfl

/-- The use of a macro means what its body means with the arguments in place of the parameters. -/
theorem C52_macro (c : Ctx) (hc : ∀ n s, c.squery n = some (some s) → SavedPlain s) (q b : Bool) (n : Str) (names : List Str) (body : Sexp) (junk args : List Sexp)
    (hs : c.squery n = some (some (.list (.atom b (bs "macro") :: .list (names.map (.atom false)) :: body :: junk)))) (hl : names.length = args.length)
    (hp : ∀ x ∈ args, plain x = true) (S : Doc → Prop) :
    Means c .top .nil (.list (.atom q n :: args)) S ↔ Means c .top .nil (subst (argOf names args) body) S :=
  macro_subst hc ⟨none, .top⟩ hs hl hp S

/-- Numbers: the digits of `n`, most significant first, perhaps with white space and a sign before and anything that is no digit after. -/
theorem C52_number (sp ds rest : Str) (hsp : ∀ b ∈ sp, isSpace b = true) (hds : ∀ b ∈ ds, isDigit b = true) (hne : ds ≠ []) (hr : ∀ b, rest.head? = some b → isDigit b = false)
    (n : Nat) (hn : n < 2 ^ 63) (hval : Digits ds n) :
    stol (sp ++ ds ++ rest) = some (n : Int) ∧ stol (sp ++ bs "+" ++ ds ++ rest) = some (n : Int) ∧ stol (sp ++ bs "-" ++ ds ++ rest) = some (-(n : Int)) := by
  have hdrop : ∀ t : Str, (∀ b, t.head? = some b → isSpace b = false) → skipSpace (sp ++ t) = t := by
    intro t ht
    induction sp with
    | nil =>
      cases t with
      | nil => rfl
      | cons b t => unfold skipSpace; simp [ht b rfl]
    | cons a sp ih =>
      have := hsp a List.mem_cons_self
      have ih := ih (fun b hb => hsp b (List.mem_cons_of_mem _ hb))
      unfold skipSpace at ih ⊢
      simpa [this] using ih
  have htake : (ds ++ rest).takeWhile isDigit = ds := by
    rw [List.takeWhile_append_of_pos (fun b hb => hds b hb)]
    cases rest with
    | nil => simp
    | cons b r => simp [hr b rfl]
  have hdec : decimal ds = n := by
    have : ∀ (ds : Str) (n : Nat), Digits ds n → decimal ds = n := by
      intro ds n h
      induction h with
      | nil => rfl
      | @snoc s m d _ hd ih =>
        unfold decimal at ih ⊢
        rw [List.foldl_append, ih]
        show 10 * m + ((UInt8.ofNat (48 + d)).toNat - 48) = 10 * m + d
        rw [UInt8.toNat_ofNat']
        omega
    exact this ds n hval
  have hd0 : ∀ b, isDigit b = true → isSpace b = false ∧ b ≠ 45 ∧ b ≠ 43 := by
    apply forall_byte; decide +kernel
  obtain ⟨d, ds', rfl⟩ := List.exists_cons_of_ne_nil hne
  have hd := hd0 d (hds d List.mem_cons_self)
  refine ⟨?_, ?_, ?_⟩
  · unfold stol
    rw [List.append_assoc, hdrop _ (by intro b hb; simp at hb; rw [← hb]; exact hd.1)]
    simp only [List.cons_append] at htake ⊢
    simp [hd.2.1, hd.2.2, htake, hdec]
    omega
  · unfold stol
    rw [List.append_assoc, List.append_assoc, hdrop _ (by intro b hb; simp [show bs "+" = [43] from by decide +kernel] at hb; rw [← hb]; decide +kernel)]
    simp [show bs "+" = [43] from by decide +kernel, htake, hdec] 
    simp only [List.cons_append] at htake
    simp [htake, hdec]
    omega
  · unfold stol
    rw [List.append_assoc, List.append_assoc, hdrop _ (by intro b hb; simp [show bs "-" = [45] from by decide +kernel] at hb; rw [← hb]; decide +kernel)]
    simp [show bs "-" = [45] from by decide +kernel]
    simp only [List.cons_append] at htake
    simp [htake, hdec]
    omega

example : Digits (bs "120") 120 := by
  have : bs "120" = (([] ++ [49]) ++ [50]) ++ [48] := by decide +kernel
  rw [this]
  exact .snoc (d := 0) (.snoc (d := 2) (.snoc (d := 1) .nil (by decide)) (by decide)) (by decide)

/-! ## Examples -/

/-- An atom that is not quoted. -/
abbrev at' (s : Str) : Sexp := .atom false s

/-- A list. -/
abbrev li (name : Str) (args : List Sexp) : Sexp := .list (at' name :: args)

/-- Prefixes of terms. -/
def exPrefix (n : Str) : Str :=
  if n = bs "tag" ∨ n = bs "is" then bs "K" else if n = bs "thread" then bs "G" else if n = bs "body" then [] else bs "X" ++ n ++ bs ":"

/-- A database without saved queries. -/
def exCtx (docs : List Doc) : Ctx :=
  { docs := docs, termPrefix := exPrefix, squery := fun _ => none, user := fun _ => false, named := fun _ => [], isWord := fun s => s.all isAlnum, words := fun s => [s],
    lower := fun s => s.map toLower, stem := id, regex := fun p => some (fun s => s == p), parseInfix := fun s => if s = bs "(" then .exception else .ok,
    infixHolds := fun _ _ => true, date := fun s _ => stol s, revision := 100, reported := false }

def exDoc (terms : List Str) : Doc := ⟨terms, fun _ => false, 1000, 50, fun _ => []⟩

/-- The same with saved queries. -/
def exSaved (saved : Str → Option (Option Sexp)) (docs : List Doc) : Ctx := { exCtx docs with squery := saved }

/-- Whether a query finds a message. -/
def finds (c : Ctx) (n : Nat) (sx : Sexp) (d : Doc) : Option Bool :=
  match query c n sx with
  | some (.ok q) => some (q.holds c d)
  | _ => none

def exTagSubject : Str → Option (Option Sexp) := fun n =>
  if n = bs "Inner" then some (some (li (bs "macro") [li (bs "x") [], li (bs "subject") [at' (bs ",x")]]))
  else if n = bs "Outer" then some (some (li (bs "macro") [li (bs "x") [at' (bs "y")], li (bs "and") [li (bs "tag") [at' (bs ",x")], li (bs "Inner") [at' (bs ",y")]]]))
  else none

/-- The nested macros of the manual: `(Outer inbox maildir)`. -/
example : finds (exSaved exTagSubject []) 9 (li (bs "Outer") [at' (bs "inbox"), at' (bs "maildir")]) (exDoc [bs "Kinbox", bs "ZXsubject:maildir"]) = some true ∧
    finds (exSaved exTagSubject []) 9 (li (bs "Outer") [at' (bs "inbox"), at' (bs "maildir")]) (exDoc [bs "Kmaildir", bs "ZXsubject:inbox"]) = some false := by
  constructor <;> decide +kernel

/-- They do not use themselves, are in order, and have their parameters where they are looked at. -/
example : Acyclic (exSaved exTagSubject []) ∧ (∀ n s, exTagSubject n = some (some s) → SavedPlain s ∧ SavedSafe (exSaved exTagSubject []) s) := by
  refine ⟨⟨fun n => if n = bs "Outer" then 1 else 0, ?_⟩, ?_⟩
  · intro n s h
    have h : exTagSubject n = some (some s) := h
    unfold exTagSubject at h
    split at h
    · cases h
      intro m hm
      have : calls (li (bs "macro") [li (bs "x") [], li (bs "subject") [at' (bs ",x")]]) = [bs "subject"] := by decide +kernel
      rw [this] at hm
      simp only [List.mem_cons, List.not_mem_nil, or_false] at hm
      subst hm
      intro h
      exact absurd h (by decide +kernel)
    · split at h
      · rename_i _ hn
        cases h
        intro m hm
        have : calls (li (bs "macro") [li (bs "x") [at' (bs "y")], li (bs "and") [li (bs "tag") [at' (bs ",x")], li (bs "Inner") [at' (bs ",y")]]]) = [bs "and", bs "tag", bs "Inner"] := by
          decide +kernel
        rw [this] at hm
        simp only [List.mem_cons, List.not_mem_nil, or_false] at hm
        intro _
        rw [hn]
        rcases hm with rfl | rfl | rfl <;> decide +kernel
      · cases h
  · intro n s h
    unfold exTagSubject at h
    split at h
    · cases h
      refine ⟨?_, ?_⟩
      · rw [SavedPlain, if_pos rfl]
        intro p b j h
        cases h
        decide +kernel
      · rw [SavedSafe, if_pos rfl]
        intro p b j h
        cases h
        decide +kernel
    · split at h
      · cases h
        refine ⟨?_, ?_⟩
        · rw [SavedPlain, if_pos rfl]
          intro p b j h
          cases h
          decide +kernel
        · rw [SavedSafe, if_pos rfl]
          intro p b j h
          cases h
          decide +kernel
      · cases h

/-- Several kinds of queries. -/
example : finds (exCtx []) 9 (li (bs "and") [li (bs "tag") [at' (bs "inbox"), li (bs "not") [at' (bs "unread"), at' (bs "spam")]], li (bs "lastmod") [at' (bs "-60"), at' (bs "*")]])
    (exDoc [bs "Kinbox"]) = some true ∧
    finds (exCtx [exDoc [bs "Kinbox", bs "Gt1"]]) 9 (li (bs "thread") [li (bs "of") [li (bs "tag") [at' (bs "inbox")]]]) (exDoc [bs "Gt1"]) = some true ∧
    finds (exCtx [exDoc [bs "Kinbox", bs "Gt1"]]) 9 (li (bs "thread") [li (bs "of") [li (bs "tag") [at' (bs "inbox")]]]) (exDoc [bs "Gt2"]) = some false ∧
    finds (exCtx []) 9 (li (bs "subject") [li (bs "starts-with") [at' (bs "Prelim")]]) (exDoc [bs "Xsubject:preliminary"]) = some true := by
  refine ⟨?_, ?_, ?_, ?_⟩ <;> decide +kernel

/-! ## What goes wrong -/

/-- A saved query that uses itself is never done. -/
theorem C52_counterexample_recursion : ∃ (c : Ctx) (sx : Sexp), c.squery (bs "a") = some (some (li (bs "a") [])) ∧ ∀ n, query c n sx = none := by
  refine ⟨exSaved (fun n => if n = bs "a" then some (some (li (bs "a") [])) else none) [], li (bs "a") [], rfl, ?_⟩
  intro n
  unfold query
  induction n with
  | zero => rfl
  | succ n ih => exact ih

/-- `(matching inbox)` outside of fields, a saved query that is an atom or `()`, and `(query x)` with a saved query that cannot be parsed. -/
theorem C52_counterexample_crash : query (exCtx []) 9 (li (bs "matching") [at' (bs "inbox")]) = some .crash ∧
    query (exSaved (fun _ => some (some (at' (bs "inbox")))) []) 9 (li (bs "a") []) = some .crash ∧
    query (exSaved (fun _ => some (some (.list []))) []) 9 (li (bs "a") []) = some .crash ∧
    query { exCtx [] with named := fun _ => bs "(" } 9 (li (bs "query") [at' (bs "x")]) = some .crash := by
  refine ⟨?_, ?_, ?_, ?_⟩ <;> rfl

/-- `(tag (starts-with Foo))` does not find what has the tag Foo: the letters are made small. -/
theorem C52_counterexample_starts_with : finds (exCtx []) 9 (li (bs "tag") [li (bs "starts-with") [at' (bs "Foo")]]) (exDoc [bs "KFoo"]) = some false ∧
    finds (exCtx []) 9 (li (bs "tag") [at' (bs "Foo")]) (exDoc [bs "KFoo"]) = some true := by
  constructor <;> decide +kernel

/-- A quoted word outside of fields finds messages that have it as tag only. -/
theorem C52_counterexample_anywhere : finds (exCtx []) 9 (.atom true (bs "inbox")) (exDoc [bs "Kinbox"]) = some true ∧
    finds (exCtx []) 9 (at' (bs "inbox")) (exDoc [bs "Kinbox"]) = some false := by
  constructor <;> decide +kernel

/-- The manual's table has `or` for mimetype. -/
theorem C52_counterexample_mimetype : finds (exCtx []) 9 (li (bs "mimetype") [at' (bs "a"), at' (bs "b")]) (exDoc [bs "ZXmimetype:a"]) = some false := by decide +kernel

/-- The manual's `(thread (matching (from bob) (to bob)))`, "a thread containing a message from bob and a (possibly distinct) message to bob", is of one message. -/
theorem C52_counterexample_matching : finds (exCtx [exDoc [bs "ZXfrom:bob", bs "Gt1"], exDoc [bs "ZXto:bob", bs "Gt1"]]) 9
    (li (bs "thread") [li (bs "matching") [li (bs "from") [at' (bs "bob")], li (bs "to") [at' (bs "bob")]]]) (exDoc [bs "Gt1"]) = some false := by decide +kernel

/-- `(date * 2000)` does not find messages of the epoch, nor those without a date, while `(date 0 2000)` does. -/
theorem C52_counterexample_epoch : finds (exCtx []) 9 (li (bs "date") [at' (bs "*"), at' (bs "2000")]) { exDoc [] with timestamp := 0 } = some false ∧
    finds (exCtx []) 9 (li (bs "date") [at' (bs "0"), at' (bs "2000")]) { exDoc [] with timestamp := 0 } = some true := by
  constructor <;> decide +kernel

/-- A saved query that is no macro sees the parameters of a macro that uses it. -/
theorem C52_counterexample_scope : ∃ saved, finds (exSaved saved []) 9 (li (bs "b") [at' (bs "inbox")]) (exDoc [bs "Kinbox"]) = some true ∧
    saved (bs "b") = some (some (li (bs "macro") [li (bs "x") [], li (bs "a") []])) ∧ saved (bs "a") = some (some (li (bs "tag") [at' (bs ",x")])) ∧
    query (exSaved saved []) 9 (li (bs "a") []) = some (.err .badSyntax) := by
  refine ⟨fun n => if n = bs "a" then some (some (li (bs "tag") [at' (bs ",x")])) else if n = bs "b" then some (some (li (bs "macro") [li (bs "x") [], li (bs "a") []])) else none, ?_, ?_, ?_, ?_⟩
  · decide +kernel
  · rfl
  · rfl
  · rfl

/-- Parameters are not looked at in `matching`, `date` and others: a macro with them is rejected. -/
theorem C52_counterexample_parameters : ∃ saved, saved (bs "a") = some (some (li (bs "macro") [li (bs "x") [], li (bs "thread") [li (bs "of") [li (bs "tag") [at' (bs ",x")]]]])) ∧
    query (exSaved saved []) 9 (li (bs "a") [at' (bs "inbox")]) = some (.err .badSyntax) ∧
    (∃ q, query (exSaved saved []) 9 (li (bs "thread") [li (bs "of") [li (bs "tag") [at' (bs "inbox")]]]) = some (.ok q)) ∧
    saved (bs "b") = some (some (li (bs "macro") [li (bs "x") [], li (bs "date") [at' (bs ",x")]])) ∧
    query (exSaved saved []) 9 (li (bs "b") [at' (bs "5")]) = some (.err .badSyntax) := by
  refine ⟨fun n => if n = bs "a" then some (some (li (bs "macro") [li (bs "x") [], li (bs "thread") [li (bs "of") [li (bs "tag") [at' (bs ",x")]]]])) else
    if n = bs "b" then some (some (li (bs "macro") [li (bs "x") [], li (bs "date") [at' (bs ",x")]])) else none, ?_, ?_, ⟨_, rfl⟩, ?_, ?_⟩
  · rfl
  · rfl
  · rfl
  · rfl

/-- A text that the parser cannot read is an error the first time only. -/
theorem C52_counterexample_reported : query (exCtx []) 9 (li (bs "infix") [at' (bs "(")]) = some (.err .xapianException) ∧
    query { exCtx [] with reported := true } 9 (li (bs "infix") [at' (bs "(")]) = some (.ok .nothing) := ⟨rfl, rfl⟩

end Notmuch.Props
