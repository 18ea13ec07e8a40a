import Verif.Spec.Sexp

namespace Notmuch.Sexp

open Notmuch.StringUtil (stripTrailing)

/-! ## The table -/

def fields : List Str := phraseFields ++ termFields

/-- The entry of the table. -/
def fieldP (n : Str) : Prefix := (prefixes.find? (fun p => p.name = n)).getD ⟨[], .invalid, false, []⟩

theorem fieldP_facts : ∀ n ∈ fields, prefixes.find? (fun p => p.name = n) = some (fieldP n) ∧ (fieldP n).name = n ∧ (fieldP n).flags.contains .field = true ∧
    (fieldP n).flags.contains .range = false ∧ (fieldP n).flags.contains .orphan = false ∧ (fieldP n).flags.contains .single = false ∧
    (fieldP n).name ≠ bs "infix" ∧ (fieldP n).name ≠ bs "query" ∧ (fieldP n).op ≠ .wildcard ∧ (fieldP n).flags.contains .doRegex = false ∧
    (fieldP n).flags.contains .doExpand = false := by decide +kernel

theorem fieldP_op : ∀ n ∈ fields, (n ∈ orFields ∧ (fieldP n).op = .or ∧ (fieldP n).all = false) ∨ (n ∈ andFields ∧ (fieldP n).op = .and ∧ (fieldP n).all = true) := by
  decide +kernel

theorem or_facts : ∀ n ∈ orFields, n ∈ fields ∧ (fieldP n).op = .or ∧ (fieldP n).all = false := by decide +kernel

theorem and_facts : ∀ n ∈ andFields, n ∈ fields ∧ (fieldP n).op = .and ∧ (fieldP n).all = true := by decide +kernel

theorem fieldP_flags : ∀ n ∈ fields, ((fieldP n).flags.contains .wildcard = decide (n ∈ wildcardFields)) ∧ ((fieldP n).flags.contains .regex = decide (n ∈ regexFields)) ∧
    ((fieldP n).flags.contains .expand = decide (n ∈ expandFields)) ∧ ((fieldP n).flags.contains .boolean = decide (n ∈ termFields)) ∧
    ((fieldP n).flags.contains .pathname = decide (n = bs "folder" ∨ n = bs "path")) := by decide +kernel

theorem phrase_facts : ∀ n ∈ phraseFields, n ∈ fields ∧ n ∉ termFields ∧ ¬ (n = bs "folder" ∨ n = bs "path") := by decide +kernel

theorem term_facts : ∀ n ∈ termFields, n ∈ fields := by decide +kernel

theorem regexFields_facts : ∀ n ∈ regexFields, n ∈ fields := by decide +kernel

theorem expandFields_facts : ∀ n ∈ expandFields, n ∈ fields := by decide +kernel

/-- The names that are no fields. -/
def others : List Str :=
  [bs "and", bs "or", bs "not", bs "date", bs "lastmod", bs "infix", bs "query", bs "regex", bs "rx", bs "starts-with", bs "matching", bs "of"]

theorem names : ∀ p ∈ prefixes, p.name ∈ fields ∨ p.name ∈ others := by decide +kernel

theorem find_none {n : Str} (h1 : n ∉ fields) (h2 : n ∉ others) : prefixes.find? (fun p => p.name = n) = none := by
  rw [List.find?_eq_none]
  intro p hp he
  have he : p.name = n := by simpa using he
  rcases names p hp with h | h
  · exact h1 (he ▸ h)
  · exact h2 (he ▸ h)

section
variable (c : Ctx) (f : Option Prefix → Env → Sexp → Option Res) (parent : Option Prefix) (e : Env) (args : List Sexp)

theorem ep_field {n : Str} (hn : n ∈ fields) :
    evalPrefix c f parent e n args = if parent.isSome then some (.err .badSyntax) else combine (f (some (fieldP n)) e) (fieldP n).op (initial (fieldP n)) args := by
  obtain ⟨h1, _, h2, h3, h4, h5, h6, h7, h8, h9, h10⟩ := fieldP_facts n hn
  unfold evalPrefix
  rw [h1]
  simp only [h2, h3, h4, h5, h6, h7, h8, h9, h10, Bool.true_or, Bool.true_and, Option.isSome_some, if_true, Bool.false_and, Bool.and_false, Bool.false_eq_true, if_false]

theorem ep_none {n : Str} (h1 : n ∉ fields) (h2 : n ∉ others) : evalPrefix c f parent e n args = some (.err .badSyntax) := by
  unfold evalPrefix
  rw [find_none h1 h2]

theorem ep_and : evalPrefix c f parent e (bs "and") args = combine (f parent e) .and .all args := by
  unfold evalPrefix
  rw [show prefixes.find? (fun p => p.name = bs "and") = some ⟨bs "and", .and, true, []⟩ from by decide +kernel]
  simp [initial, show bs "and" ≠ bs "infix" from by decide +kernel, show bs "and" ≠ bs "query" from by decide +kernel]

theorem ep_or : evalPrefix c f parent e (bs "or") args = combine (f parent e) .or .nothing args := by
  unfold evalPrefix
  rw [show prefixes.find? (fun p => p.name = bs "or") = some ⟨bs "or", .or, false, []⟩ from by decide +kernel]
  simp [initial, show bs "or" ≠ bs "infix" from by decide +kernel, show bs "or" ≠ bs "query" from by decide +kernel]

theorem ep_not : evalPrefix c f parent e (bs "not") args = combine (f parent e) .andNot .all args := by
  unfold evalPrefix
  rw [show prefixes.find? (fun p => p.name = bs "not") = some ⟨bs "not", .andNot, true, []⟩ from by decide +kernel]
  simp [initial, show bs "not" ≠ bs "infix" from by decide +kernel, show bs "not" ≠ bs "query" from by decide +kernel]

theorem ep_date : evalPrefix c f parent e (bs "date") args =
    if parent.isSome then some (.err .badSyntax) else some (parseRange c ⟨bs "date", .invalid, true, [.range]⟩ args) := by
  unfold evalPrefix
  rw [show prefixes.find? (fun p => p.name = bs "date") = some ⟨bs "date", .invalid, true, [.range]⟩ from by decide +kernel]
  simp

theorem ep_lastmod : evalPrefix c f parent e (bs "lastmod") args =
    if parent.isSome then some (.err .badSyntax) else some (parseRange c ⟨bs "lastmod", .invalid, true, [.range]⟩ args) := by
  unfold evalPrefix
  rw [show prefixes.find? (fun p => p.name = bs "lastmod") = some ⟨bs "lastmod", .invalid, true, [.range]⟩ from by decide +kernel]
  simp

theorem ep_infix : evalPrefix c f parent e (bs "infix") args =
    if parent.isSome then some (.err .badSyntax) else if args.length == 1 && args.all isAtom then some (infixRes c (text (args.headD (.list [])))) else some (.err .badSyntax) := by
  unfold evalPrefix
  rw [show prefixes.find? (fun p => p.name = bs "infix") = some ⟨bs "infix", .invalid, true, [.single, .orphan]⟩ from by decide +kernel]
  generalize (args.length == 1 && args.all isAtom) = b
  cases b <;> cases parent <;> simp

theorem ep_query : evalPrefix c f parent e (bs "query") args =
    if parent.isSome then some (.err .badSyntax) else if args.length == 1 && args.all isAtom then some (namedRes c (text (args.headD (.list [])))) else some (.err .badSyntax) := by
  unfold evalPrefix
  rw [show prefixes.find? (fun p => p.name = bs "query") = some ⟨bs "query", .invalid, false, [.single, .orphan]⟩ from by decide +kernel]
  generalize (args.length == 1 && args.all isAtom) = b
  cases b <;> cases parent <;> simp [show bs "query" ≠ bs "infix" from by decide +kernel]

theorem ep_starts : evalPrefix c f parent e (bs "starts-with") args =
    if args.length == 1 && args.all isAtom then
      match expandTerm e (args.headD (.list [])) with
      | none => some (.err .badSyntax)
      | some s => some (parseWildcard c parent s)
    else some (.err .badSyntax) := by
  unfold evalPrefix
  rw [show prefixes.find? (fun p => p.name = bs "starts-with") = some ⟨bs "starts-with", .wildcard, true, [.single]⟩ from by decide +kernel]
  generalize (args.length == 1 && args.all isAtom) = b
  cases b <;> simp [show bs "starts-with" ≠ bs "infix" from by decide +kernel, show bs "starts-with" ≠ bs "query" from by decide +kernel]
  split <;> (rename_i h; rw [h])

theorem ep_rx {n : Str} (hn : n = bs "regex" ∨ n = bs "rx") : evalPrefix c f parent e n args =
    if args.length == 1 && args.all isAtom then some (parseRegex c parent e (args.headD (.list []))) else some (.err .badSyntax) := by
  unfold evalPrefix
  rcases hn with rfl | rfl
  · rw [show prefixes.find? (fun p => p.name = bs "regex") = some ⟨bs "regex", .invalid, true, [.single, .doRegex]⟩ from by decide +kernel]
    generalize (args.length == 1 && args.all isAtom) = b
    cases b <;> simp [show bs "regex" ≠ bs "infix" from by decide +kernel, show bs "regex" ≠ bs "query" from by decide +kernel]
  · rw [show prefixes.find? (fun p => p.name = bs "rx") = some ⟨bs "rx", .invalid, true, [.single, .doRegex]⟩ from by decide +kernel]
    generalize (args.length == 1 && args.all isAtom) = b
    cases b <;> simp [show bs "rx" ≠ bs "infix" from by decide +kernel, show bs "rx" ≠ bs "query" from by decide +kernel]

theorem ep_matching {n : Str} (hn : n = bs "matching" ∨ n = bs "of") : evalPrefix c f parent e n args =
    match parent with
    | none => some .crash
    | some pp =>
      if pp.flags.contains .expand then
        match combine (f none .nil) .and .all args with
        | some (.ok q) => some (.ok (queryExpand c pp.name q))
        | r => r
      else some (.err .badSyntax) := by
  unfold evalPrefix
  rcases hn with rfl | rfl
  · rw [show prefixes.find? (fun p => p.name = bs "matching") = some ⟨bs "matching", .and, true, [.doExpand]⟩ from by decide +kernel]
    cases parent <;> simp [initial, show bs "matching" ≠ bs "infix" from by decide +kernel, show bs "matching" ≠ bs "query" from by decide +kernel]
    split <;> rfl
  · rw [show prefixes.find? (fun p => p.name = bs "of") = some ⟨bs "of", .and, true, [.doExpand]⟩ from by decide +kernel]
    cases parent <;> simp [initial, show bs "of" ≠ bs "infix" from by decide +kernel, show bs "of" ≠ bs "query" from by decide +kernel]
    split <;> rfl

end

/-! ## Combining -/

/-- The query that `f` makes. -/
def qOf (f : Sexp → Option Res) (x : Sexp) : Query :=
  match f x with
  | some (.ok q) => q
  | _ => .nothing

theorem combine_iff (f : Sexp → Option Res) (op : Op) : ∀ (args : List Sexp) (left q : Query),
    combine f op left args = some (.ok q) ↔ (∀ x ∈ args, f x = some (.ok (qOf f x))) ∧ q = args.foldl (fun acc x => .comb op acc (qOf f x)) left
  | [], left, q => by simp [combine, eq_comm]
  | x :: l, left, q => by
    unfold combine
    rw [List.foldl_cons]
    split
    · rename_i q' hq'
      have : qOf f x = q' := by unfold qOf; rw [hq']
      rw [combine_iff f op l, this]
      simp [hq', this]
    · rename_i hno
      constructor
      · intro h
        exact absurd h (hno q)
      · rintro ⟨h, _⟩
        exact absurd (h x List.mem_cons_self) (hno _)

theorem holds_fold_and (c : Ctx) (g : Sexp → Query) (d : Doc) : ∀ (args : List Sexp) (left : Query),
    (args.foldl (fun acc x => Query.comb .and acc (g x)) left).holds c d = true ↔ left.holds c d = true ∧ ∀ x ∈ args, (g x).holds c d = true
  | [], left => by simp
  | x :: l, left => by
    rw [List.foldl_cons, holds_fold_and c g d l]
    simp [Query.holds, and_assoc]

theorem holds_fold_or (c : Ctx) (g : Sexp → Query) (d : Doc) : ∀ (args : List Sexp) (left : Query),
    (args.foldl (fun acc x => Query.comb .or acc (g x)) left).holds c d = true ↔ left.holds c d = true ∨ ∃ x ∈ args, (g x).holds c d = true
  | [], left => by simp
  | x :: l, left => by
    rw [List.foldl_cons, holds_fold_or c g d l]
    simp [Query.holds, or_assoc]

theorem holds_fold_not (c : Ctx) (g : Sexp → Query) (d : Doc) : ∀ (args : List Sexp) (left : Query),
    (args.foldl (fun acc x => Query.comb .andNot acc (g x)) left).holds c d = true ↔ left.holds c d = true ∧ ∀ x ∈ args, ¬ (g x).holds c d = true
  | [], left => by simp
  | x :: l, left => by
    rw [List.foldl_cons, holds_fold_not c g d l]
    simp [Query.holds, and_assoc]

theorem holds_fold_fields (c : Ctx) (g : Prefix → Query) (d : Doc) : ∀ (args : List Prefix) (left : Query),
    (args.foldl (fun acc x => Query.comb .or acc (g x)) left).holds c d = true ↔ left.holds c d = true ∨ ∃ x ∈ args, (g x).holds c d = true
  | [], left => by simp
  | x :: l, left => by
    rw [List.foldl_cons, holds_fold_fields c g d l]
    simp [Query.holds, or_assoc]

theorem combine_mono {f g : Sexp → Option Res} (h : ∀ x r, f x = some r → g x = some r) (op : Op) : ∀ (args : List Sexp) (left : Query) (r : Res),
    combine f op left args = some r → combine g op left args = some r
  | [], left, r => fun h => h
  | x :: l, left, r => by
    unfold combine
    intro hr
    cases hf : f x with
    | none => rw [hf] at hr; cases hr
    | some s =>
      rw [hf] at hr
      rw [h x s hf]
      cases s with
      | ok q => exact combine_mono h op l _ r hr
      | err s => exact hr
      | crash => exact hr

/-! ## Atoms -/

theorem prefixOf_iff {a b : Str} : a.isPrefixOf b = true ↔ a <+: b := List.isPrefixOf_iff_prefix

theorem oneTerm_holds (c : Ctx) (pre : Str) (q : Bool) (v : Str) (d : Doc) : (oneTerm c pre q v).holds c d = true ↔ HasText c pre q v d := by
  unfold oneTerm HasText
  by_cases h : q = false ∧ c.isWord v = true
  · rw [if_pos (by simp [h.1, h.2])]
    simp [Query.holds, h]
  · rw [if_neg (by cases q <;> simp_all)]
    simp only [h, not_false_eq_true, true_and]
    have h' : ¬ (q = false ∧ c.isWord v = true ∧ bs "Z" ++ pre ++ c.stem (c.lower v) ∈ d.terms) := fun hh => h ⟨hh.1, hh.2.1⟩
    simp only [h', false_or]
    generalize (c.words v).map (fun w => pre ++ c.lower w) = ts
    cases ts with
    | nil => simp [Query.holds, Phrase]
    | cons t ts =>
      cases ts with
      | nil => simp [Query.holds, Phrase]
      | cons u ts => simp [Query.holds, Phrase]

/-- A place and the parent that stands for it. -/
inductive Rel : Option Prefix → Place → Prop
  | top : Rel none .top
  | field {n : Str} : n ∈ fields → Rel (some (fieldP n)) (.field n)
  | user {n : Str} : Rel (some (userPrefix n)) (.user n)

theorem wildcard_holds {c : Ctx} {parent : Option Prefix} {π : Place} (hr : Rel parent π) (s : Str) (q : Query) :
    (parseWildcard c parent s = .ok q → π.wildcards ∧ ∀ d, q.holds c d = true ↔ StartsWith c π s d) ∧
    (π.wildcards → ∃ q, parseWildcard c parent s = .ok q) := by
  have key : ∀ pre d, (Query.wildcard pre).holds c d = true ↔ ∃ t ∈ d.terms, pre <+: t := by
    intro pre d
    simp [Query.holds, prefixOf_iff]
  unfold parseWildcard
  cases hr with
  | top =>
    refine ⟨fun h => ?_, fun _ => ⟨_, rfl⟩⟩
    cases h
    exact ⟨trivial, fun d => by rw [key]; rfl⟩
  | @field n hn =>
    obtain ⟨hw, _⟩ := fieldP_flags n hn
    have hname := (fieldP_facts n hn).2.1
    simp only [hw, hname]
    refine ⟨fun h => ?_, fun h => ⟨_, if_pos (by simpa using (show n ∈ wildcardFields from h))⟩⟩
    split at h
    · rename_i hh
      cases h
      exact ⟨show n ∈ wildcardFields from by simpa using hh, fun d => by rw [key]; rfl⟩
    · cases h
  | @user n =>
    refine ⟨fun h => ?_, fun _ => ⟨_, if_pos rfl⟩⟩
    have h : Res.ok (Query.wildcard (c.termPrefix n ++ c.lower s)) = .ok q := h
    cases h
    exact ⟨trivial, fun d => by rw [key]; rfl⟩

theorem expandParam_eq : ∀ (e : Env) (n : Str), expandParam e n = (resolve e n).bind (fun r => expandTerm r.2 r.1)
  | .nil, n => rfl
  | .bind m sx ctx next, n => by
    unfold expandParam resolve
    split
    · rfl
    · exact expandParam_eq next n

theorem expandTerm_eq (e : Env) (sx : Sexp) : expandTerm e sx =
    match param sx with
    | some n => (resolve e n).bind (fun r => expandTerm r.2 r.1)
    | none => atomText sx := by
  rw [expandTerm]
  cases param sx with
  | some n => exact expandParam_eq e n
  | none => rfl

theorem text_of_expand : ∀ (e : Env) (sx : Sexp) (s : Str), expandTerm e sx = some s → Text e sx s := by
  have key : ∀ (e : Env) (n : Str) (s : Str), expandParam e n = some s → ∃ sx e', resolve e n = some (sx, e') ∧ Text e' sx s := by
    intro e
    induction e with
    | nil => intro n s h; cases h
    | bind m sx ctx next ih1 ih2 =>
      intro n s h
      unfold expandParam at h
      unfold resolve
      split at h
      · rename_i hn
        rw [if_pos hn]
        refine ⟨sx, ctx, rfl, ?_⟩
        split at h
        · rename_i k hk
          obtain ⟨sx', e', h1, h2⟩ := ih1 k s h
          exact .param hk h1 h2
        · rename_i hk
          cases sx with
          | atom q v => cases h; exact .atom hk
          | list l => cases h
      · rename_i hn
        rw [if_neg hn]
        exact ih2 n s h
  intro e sx s h
  unfold expandTerm at h
  split at h
  · rename_i n hn
    obtain ⟨sx', e', h1, h2⟩ := key e n s h
    exact .param hn h1 h2
  · rename_i hn
    cases sx with
    | atom q v => cases h; exact .atom hn
    | list l => cases h

theorem expandTerm_text (e : Env) (sx : Sexp) (s : Str) : expandTerm e sx = some s ↔ Text e sx s := by
  refine ⟨text_of_expand e sx s, fun h => ?_⟩
  induction h with
  | atom hp => rw [expandTerm, hp]; rfl
  | @param e e' sx sx' n s hp hr _ ih =>
    rw [expandTerm_eq, hp]
    show (resolve e n).bind _ = _
    rw [hr]
    exact ih

end Notmuch.Sexp
