import Verif.Spec.Fields
import Verif.Proofs.SexpTotal
import Verif.Proofs.SexpSound
import Verif.Proofs.SexpComplete

namespace Notmuch.Fields

open Notmuch.Sexp

variable {c : Ctx} {p : Parser}

theorem says_congr {t : Tree} {S S' : Doc → Prop} (h : Says c p t S) (hs : ∀ d, S d ↔ S' d) : Says c p t S' := by
  have : S = S' := funext fun d => propext (hs d)
  exact this ▸ h

/-- The query makes these messages. -/
def Good (c : Ctx) (r : Option Res) (S : Doc → Prop) : Prop := ∃ q, r = some (.ok q) ∧ ∀ d, q.holds c d = true ↔ S d

/-! ## The fields one by one -/

theorem fq_plain {n : Nat} {f : Str → Option Res} {name : Str} (v : Str) (h : name ∈ plainFields) : fieldQuery c p n f name v = some (.ok (.term (c.termPrefix name ++ v))) := by
  simp only [plainFields, List.mem_cons, List.not_mem_nil, or_false] at h
  rcases h with rfl | rfl <;> rfl

theorem fq_regexp {n : Nat} {f : Str → Option Res} {name : Str} (v : Str) (h : name ∈ termFields ∨ name ∈ headerFields) :
    fieldQuery c p n f name v = some (regexpField c p name (headerFields.contains name) v) := by
  have h1 : ∀ a ∈ termFields ++ headerFields, ∃ x, table.find? (fun x => x.name = a) = some x ∧ x.flags.contains .processor = true ∧
      x.flags.contains .probabilistic = headerFields.contains a ∧ processorOf a = .regexp := by
    have : ∀ a ∈ termFields ++ headerFields, (match table.find? (fun x => x.name = a) with
        | some x => x.flags.contains .processor && (x.flags.contains .probabilistic == headerFields.contains a) && (match processorOf a with | .regexp => true | _ => false)
        | none => false) = true := by decide +kernel
    intro a ha
    have := this a ha
    cases hx : table.find? (fun x => x.name = a) with
    | none => rw [hx] at this; exact absurd this Bool.false_ne_true
    | some x =>
      rw [hx] at this
      simp only [Bool.and_eq_true, beq_iff_eq] at this
      refine ⟨x, rfl, this.1.1, this.1.2, ?_⟩
      revert this
      cases processorOf a <;> simp
  obtain ⟨x, h2, h3, h4, h5⟩ := h1 name (List.mem_append.2 h)
  unfold fieldQuery
  simp only [h2, h3, if_true, h5, h4]

theorem fq_thread {n : Nat} {f : Str → Option Res} (v : Str) (h : v ≠ []) (h2 : v.head? ≠ some 123) :
    fieldQuery c p n f (bs "thread") v = some (.ok (.term (c.termPrefix (bs "thread") ++ v))) := by
  cases v with
  | nil => exact absurd rfl h
  | cons x l =>
    have hx : x ≠ 123 := fun h' => h2 (by rw [h']; rfl)
    have : fieldQuery c p n f (bs "thread") (x :: l) = (match (x :: l : Str) with
        | [] => some .crash
        | 123 :: rest =>
          if rest.getLast? = some 125 then
            let sub := rest.dropLast
            (if sub = [] ∨ sub = bs "*" then some (.ok .all) else f sub).map (fun r => match r with
              | .ok q => .ok (queryExpand c (bs "thread") q)
              | r => rethrow r)
          else some thrown
        | str => some (.ok (.term (c.termPrefix (bs "thread") ++ str)))) := rfl
    rw [this]
    split
    · simp at *
    · rename_i h'; cases h'; exact absurd rfl hx
    · rfl

/-- `thread:{}` with the query that is in it. -/
def expandRes (c : Ctx) : Res → Res
  | .ok q => .ok (queryExpand c (bs "thread") q)
  | r => rethrow r

theorem fq_braces {n : Nat} {f : Str → Option Res} (s : Str) :
    fieldQuery c p n f (bs "thread") (bs "{" ++ s ++ bs "}") = (if s = [] ∨ s = bs "*" then some (.ok .all) else f s).map (expandRes c) := by
  have : fieldQuery c p n f (bs "thread") (123 :: (s ++ [125])) =
          if (s ++ [125] : Str).getLast? = some 125 then
            (if (s ++ [125] : Str).dropLast = [] ∨ (s ++ [125] : Str).dropLast = bs "*" then some (.ok .all) else f ((s ++ [125] : Str).dropLast)).map (expandRes c)
          else some thrown := by
    show (if (s ++ [125] : Str).getLast? = some 125 then
            (if (s ++ [125] : Str).dropLast = [] ∨ (s ++ [125] : Str).dropLast = bs "*" then some (.ok .all) else f ((s ++ [125] : Str).dropLast)).map (fun r => match r with
              | .ok q => .ok (queryExpand c (bs "thread") q)
              | r => rethrow r)
          else some thrown) = _
    congr 2
  have e : bs "{" ++ s ++ bs "}" = 123 :: (s ++ [125]) := rfl
  rw [e, this]
  simp

theorem fq_unclosed {n : Nat} {f : Str → Option Res} (s : Str) (h : s.getLast? ≠ some 125) : fieldQuery c p n f (bs "thread") (bs "{" ++ s) = some thrown := by
  show (if s.getLast? = some 125 then _ else some thrown) = _
  rw [if_neg h]

theorem fq_threadEmpty {n : Nat} {f : Str → Option Res} : fieldQuery c p n f (bs "thread") [] = some .crash := rfl
theorem fq_query {n : Nat} {f : Str → Option Res} (v : Str) : fieldQuery c p n f (bs "query") v = f (c.named v) := rfl
theorem fq_date {n : Nat} {f : Str → Option Res} (v : Str) : fieldQuery c p n f (bs "date") v = some (dateField c v) := rfl
theorem fq_sexp {n : Nat} {f : Str → Option Res} (v : Str) : fieldQuery c p n f (bs "sexp") v = match p.readSexp v with
    | none => some thrown
    | some sx => (Sexp.query c n sx).map rethrow := rfl

/-- The forms of a text. -/
theorem shape (v : Str) : v = [] ∨ (∃ w, v = bs "/" ++ w ++ bs "/") ∨ (∃ w, v = bs "/" ++ w ∧ w.getLast? ≠ some 47) ∨
    (∃ w, w ≠ [] ∧ v = w ++ bs "/" ∧ w.head? ≠ some 47) ∨ (v ≠ [] ∧ v.head? ≠ some 47 ∧ v.getLast? ≠ some 47) := by
  have e : bs "/" = [47] := rfl
  rw [e]
  cases v with
  | nil => exact Or.inl rfl
  | cons x l =>
    right
    by_cases hx : x = 47
    · subst hx
      by_cases hl : l.getLast? = some 47
      · left
        obtain ⟨w, rfl⟩ := List.getLast?_eq_some_iff.1 hl
        exact ⟨w, rfl⟩
      · right; left
        exact ⟨l, rfl, hl⟩
    · by_cases hl : (x :: l).getLast? = some 47
      · right; right; left
        obtain ⟨w, hw⟩ := List.getLast?_eq_some_iff.1 hl
        cases w with
        | nil => simp at hw; exact absurd hw.1 hx
        | cons y w' =>
          refine ⟨_, by simp, hw, ?_⟩
          simp at hw
          simp [← hw.1, hx]
      · right; right; right
        refine ⟨by simp, by simp [hx], hl⟩

theorem last_cons (x y : UInt8) (w : Str) : (x :: (w ++ [y])).getLast? = some y := by
  have : x :: (w ++ [y]) = (x :: w) ++ [y] := rfl
  rw [this, List.getLast?_concat]

theorem rf_regex (b : Bool) (n w : Str) : regexpField c p n b (bs "/" ++ w ++ bs "/") = rethrow (regexToQuery c n w) := by
  have e : bs "/" ++ w ++ bs "/" = 47 :: (w ++ [47]) := rfl
  unfold regexpField
  rw [e]
  simp [last_cons]

theorem rf_unmatched (b : Bool) (n w : Str) (h : w.getLast? ≠ some 47) : regexpField c p n b (bs "/" ++ w) = thrown := by
  have e : bs "/" ++ w = 47 :: w := rfl
  unfold regexpField
  rw [e]
  cases w with
  | nil => simp
  | cons x l =>
    rw [List.getLast?_cons_cons]
    simp [h]

theorem rf_slash (n w : Str) (h : w ≠ []) (h2 : w.head? ≠ some 47) : regexpField c p n false (w ++ bs "/") = .ok (.term (c.termPrefix n ++ w)) := by
  have e : bs "/" = [47] := rfl
  unfold regexpField
  rw [e]
  have h3 : (w ++ [47]).head? ≠ some 47 := by
    cases w with
    | nil => exact absurd rfl h
    | cons x l => simpa using h2
  have h4 : 1 < (w ++ [47]).length := by
    have := List.length_pos_iff.2 h
    simp; omega
  simp only [List.append_eq_nil_iff, h, false_and, if_false, h3, h4, List.getLast?_concat, and_self, if_true, List.dropLast_concat]
  rfl

theorem rf_term (n v : Str) (h2 : v.head? ≠ some 47) (h3 : v.getLast? ≠ some 47) : regexpField c p n false v = .ok (.term (c.termPrefix n ++ v)) := by
  unfold regexpField
  by_cases h : v = []
  · simp [h]
  · simp [h, h2, h3]

theorem rf_empty (n : Str) : regexpField c p n true [] = .ok (.comb .andNot .all (.wildcard (c.termPrefix n))) := rfl

theorem quoteText_iff (v : Str) : quoteText v = false ↔ Unquoted v := by
  have e1 : bs "(" = [40] := rfl
  have e2 : bs ")" = [41] := rfl
  have e3 : bs "*" = [42] := rfl
  have h1 : (∃ w, v = bs "(" ++ w ++ bs ")") ↔ v.head? = some 40 ∧ v.getLast? = some 41 := by
    rw [e1, e2]
    constructor
    · rintro ⟨w, rfl⟩; simp [last_cons]
    · rintro ⟨ha, hb⟩
      obtain ⟨w, rfl⟩ := List.getLast?_eq_some_iff.1 hb
      cases w with
      | nil => simp at ha
      | cons x l => simp at ha; exact ⟨l, by simp [ha]⟩
  have h2 : (∃ w, v = w ++ bs "*") ↔ v.getLast? = some 42 := by
    rw [e3, List.getLast?_eq_some_iff]
  unfold Unquoted quoteText
  rw [h1, h2]
  simp only [ne_eq, Bool.and_eq_false_iff, Bool.or_eq_false_iff, decide_eq_false_iff_not, Decidable.not_not]
  have : v.contains 32 = false ↔ 32 ∉ v := by simp
  rw [this]

theorem rf_words (n v : Str) (h : v ≠ []) (h2 : v.head? ≠ some 47) : ∃ s, ((Unquoted v ∧ s = v) ∨ (¬ Unquoted v ∧ s = bs "\"" ++ v ++ bs "\"")) ∧
    ((∃ q, p.parseIn (c.termPrefix n) s = some q ∧ regexpField c p n true v = .ok q) ∨ (p.parseIn (c.termPrefix n) s = none ∧ regexpField c p n true v = thrown)) := by
  unfold regexpField
  simp only [h, h2, if_false, if_true]
  by_cases hq : Unquoted v
  · refine ⟨v, Or.inl ⟨hq, rfl⟩, ?_⟩
    rw [(quoteText_iff v).2 hq]
    simp only [Bool.false_eq_true, if_false]
    cases p.parseIn (c.termPrefix n) v with
    | none => exact Or.inr ⟨rfl, rfl⟩
    | some q => exact Or.inl ⟨q, rfl, rfl⟩
  · refine ⟨_, Or.inr ⟨hq, rfl⟩, ?_⟩
    have : quoteText v = true := by
      cases h' : quoteText v
      · exact absurd ((quoteText_iff v).1 h') hq
      · rfl
    rw [this]
    simp only [if_true]
    show _ ∨ _
    have e : (34 :: v ++ [34] : Str) = bs "\"" ++ v ++ bs "\"" := rfl
    rw [e]
    cases p.parseIn (c.termPrefix n) (bs "\"" ++ v ++ bs "\"") with
    | none => exact Or.inr ⟨rfl, rfl⟩
    | some q => exact Or.inl ⟨q, rfl, rfl⟩

/-! ## Ranges -/

theorem dates_ok (a b : Str) : (Understood c a b ↔ ∃ q, dateRange c a b = .ok q) ∧ ∀ q, dateRange c a b = .ok q → ∀ d, q.holds c d = true ↔ Between c a b d.timestamp := by
  unfold dateRange Understood Between
  by_cases ha : a = []
  · simp only [ha, if_true, ne_eq, not_true_eq_false, and_false, if_false, false_implies, true_and, false_and, or_false]
    by_cases hb : b = []
    · simp only [hb, if_true, not_true_eq_false, false_implies, true_iff, true_or, and_true]
      refine ⟨⟨_, rfl⟩, ?_⟩
      intro q hq d
      cases hq
      simp [Query.holds]
      omega
    · simp only [hb, if_false, not_false_eq_true, true_implies, false_or, true_and]
      cases hd : c.date b true with
      | none => simp
      | some t =>
        refine ⟨by simp, ?_⟩
        intro q hq d
        cases hq
        simp [Query.holds]
        omega
  · simp only [ha, if_false, ne_eq, not_false_eq_true, and_true, true_implies, false_and, false_or, true_and]
    cases hda : c.date a false with
    | none => simp
    | some s =>
      by_cases hb : b = []
      · simp only [hb, if_true, not_true_eq_false, false_implies, true_or, and_true]
        refine ⟨by simp, ?_⟩
        intro q hq d
        cases hq
        simp [Query.holds]
      · simp only [hb, if_false, not_false_eq_true, true_implies, false_or, true_and]
        cases hd : c.date (if b = bs "!" then a else b) true with
        | none => simp
        | some t =>
          refine ⟨by simp, ?_⟩
          intro q hq d
          cases hq
          simp [Query.holds]

theorem revision_iff (a : Str) (r : Int) : Revision c a r ↔ ∃ n, stol a = some n ∧ r = relative c n := by
  unfold Revision relative
  constructor
  · rintro ⟨n, h, h2⟩
    refine ⟨n, h, ?_⟩
    split <;> omega
  · rintro ⟨n, h, h2⟩
    refine ⟨n, h, ?_⟩
    split at h2 <;> omega

theorem revisions_ok (a b : Str) : ((a ≠ [] → ∃ r, Revision c a r) ∧ (b ≠ [] → ∃ r, Revision c b r) ↔ ∃ q, lastmodRange c a b = .ok q) ∧
    ∀ q, lastmodRange c a b = .ok q → ∀ d, q.holds c d = true ↔ BetweenRevisions c a b d.lastMod := by
  unfold lastmodRange BetweenRevisions
  simp only [revision_iff]
  have r0 : relative c 0 = 0 := rfl
  by_cases ha : a = []
  · simp only [ha, if_true, ne_eq, not_true_eq_false, false_implies, true_and, false_and, or_false]
    by_cases hb : b = []
    · simp only [hb, if_true, not_true_eq_false, false_implies, true_iff, true_or, and_true]
      refine ⟨⟨_, rfl⟩, ?_⟩
      intro q hq d
      cases hq
      simp [Query.holds, r0]
    · simp only [hb, if_false, not_false_eq_true, true_implies, false_or, true_and]
      cases hd : stol b with
      | none => simp
      | some t =>
        refine ⟨by simp, ?_⟩
        intro q hq d
        cases hq
        simp [Query.holds, r0]
  · simp only [ha, if_false, ne_eq, not_false_eq_true, true_implies, false_and, false_or, true_and]
    cases hda : stol a with
    | none => simp
    | some s =>
      by_cases hb : b = []
      · simp only [hb, if_true, not_true_eq_false, false_implies, true_or, and_true]
        refine ⟨by simp, ?_⟩
        intro q hq d
        cases hq
        simp [Query.holds]
      · simp only [hb, if_false, not_false_eq_true, true_implies, false_or, true_and]
        cases hd : stol b with
        | none => simp
        | some t =>
          refine ⟨by simp, ?_⟩
          intro q hq d
          cases hq
          simp [Query.holds]

/-! ## Soundness -/

theorem rethrow_ok {r : Res} {q : Query} : rethrow r = .ok q ↔ r = .ok q := by cases r <;> simp [rethrow, thrown]

theorem known_field {n v : Str} (h : known (.field n v) = true) : n ∈ plainFields ∨ n ∈ termFields ∨ n ∈ headerFields ∨ n = bs "thread" ∨ n = bs "query" ∨ n = bs "sexp" ∨ n = bs "date" := by
  simp only [known, Bool.or_eq_true, List.contains_iff_mem, List.mem_cons, List.not_mem_nil, or_false] at h
  rcases h with ((h | h) | h) | h
  · exact Or.inl h
  · exact Or.inr (Or.inl h)
  · exact Or.inr (Or.inr (Or.inl h))
  · exact Or.inr (Or.inr (Or.inr h))

theorem not_slot {n : Str} (h : n ∈ termFields) (h2 : n ≠ bs "mid") : findSlot n = none := by
  have : ∀ n ∈ termFields, n ≠ bs "mid" → findSlot n = none := by
    intro n hn
    simp only [termFields, List.mem_cons, List.not_mem_nil, or_false] at hn
    rcases hn with rfl | rfl | rfl | rfl | rfl <;> decide +kernel
  exact this n h h2

theorem header_slot {n : Str} (h : n ∈ headerFields ∨ n = bs "mid") : ∃ slot, findSlot n = some slot := by
  simp only [headerFields, List.mem_cons, List.not_mem_nil, or_false] at h
  rcases h with (rfl | rfl) | rfl
  · exact ⟨.sender, rfl⟩
  · exact ⟨.subject, rfl⟩
  · exact ⟨.messageId, rfl⟩

theorem regex_sound {n w : Str} (hn : n ∈ termFields ∨ n ∈ headerFields) {q : Query} (h : regexToQuery c n w = .ok q) :
    Says c p (.field n (bs "/" ++ w ++ bs "/")) (fun d => q.holds c d = true) := by
  unfold regexToQuery at h
  cases hr : c.regex w with
  | none => rw [hr] at h; cases h
  | some f =>
    rw [hr] at h
    cases hs : findSlot n with
    | none =>
      rw [hs] at h
      cases h
      have h1 : n ∈ termFields := by
        rcases hn with hn | hn
        · exact hn
        · obtain ⟨s, h'⟩ := header_slot (Or.inl hn)
          rw [h'] at hs; cases hs
      have h2 : n ≠ bs "mid" := fun h' => by
        obtain ⟨s, h'⟩ := header_slot (Or.inr h')
        rw [h'] at hs; cases hs
      exact says_congr (Says.regexTerm h1 h2 hr) (fun d => (anyTerm_holds n f d).symm)
    | some slot =>
      rw [hs] at h
      cases h
      refine says_congr (Says.regexHeader ((findSlot_iff n slot).1 hs) hr) (fun d => ?_)
      simp [Query.holds, hr]

theorem field_sound {k : Nat} {f : Str → Option Res} (hf : ∀ s q, f s = some (.ok q) → ∃ t, p.parse s = some t ∧ Says c p t (fun d => q.holds c d = true)) {n v : Str} (hk : known (.field n v) = true)
    {q : Query} (h : fieldQuery c p k f n v = some (.ok q)) : Says c p (.field n v) (fun d => q.holds c d = true) := by
  rcases known_field hk with hn | hn | hn | rfl | rfl | rfl | rfl
  · rw [fq_plain v hn] at h
    cases h
    exact says_congr (Says.plain hn) (fun d => by simp [Query.holds])
  · have hp : headerFields.contains n = false := by
      have : ∀ n ∈ termFields, headerFields.contains n = false := by decide +kernel
      exact this n hn
    rw [fq_regexp v (Or.inl hn), hp] at h
    simp only [Option.some.injEq] at h
    rcases shape v with rfl | ⟨w, rfl⟩ | ⟨w, rfl, hw⟩ | ⟨w, hw, rfl, h2⟩ | ⟨h1, h2, h3⟩
    · rw [rf_term n [] (by simp) (by simp)] at h
      cases h
      exact says_congr (Says.term hn (by simp) (by simp)) (fun d => by simp [Query.holds])
    · rw [rf_regex, rethrow_ok] at h
      exact regex_sound (Or.inl hn) h
    · rw [rf_unmatched _ _ _ hw] at h; cases h
    · rw [rf_slash n w hw h2] at h
      cases h
      exact says_congr (Says.slash hn hw h2) (fun d => by simp [Query.holds])
    · rw [rf_term n v h2 h3] at h
      cases h
      exact says_congr (Says.term hn h2 h3) (fun d => by simp [Query.holds])
  · have hp : headerFields.contains n = true := List.contains_iff_mem.2 hn
    rw [fq_regexp v (Or.inr hn), hp] at h
    simp only [Option.some.injEq] at h
    have hwords : v ≠ [] → v.head? ≠ some 47 → Says c p (.field n v) (fun d => q.holds c d = true) := by
      intro h1 h2
      obtain ⟨s, hs, h'⟩ := rf_words (c := c) (p := p) n v h1 h2
      rcases h' with ⟨q', h3, h4⟩ | ⟨h3, h4⟩
      · rw [h4] at h
        cases h
        rcases hs with ⟨h5, rfl⟩ | ⟨h5, rfl⟩
        · exact Says.unquoted hn h1 h2 h5 h3
        · exact Says.quoted hn h1 h2 h5 h3
      · rw [h4] at h; cases h
    rcases shape v with rfl | ⟨w, rfl⟩ | ⟨w, rfl, hw⟩ | ⟨w, hw, rfl, h2⟩ | ⟨h1, h2, h3⟩
    · rw [rf_empty] at h
      cases h
      refine says_congr (Says.noHeader hn) (fun d => ?_)
      simp only [Query.holds, Bool.true_and, Bool.not_eq_true']
      rw [← Bool.not_eq_true, List.any_eq_true]
      simp only [pre_iff]
      constructor
      · rintro h ⟨t, h1, s, rfl⟩; exact h ⟨s, h1⟩
      · rintro h ⟨s, h1⟩; exact h ⟨_, h1, s, rfl⟩
    · rw [rf_regex, rethrow_ok] at h
      exact regex_sound (Or.inr hn) h
    · rw [rf_unmatched _ _ _ hw] at h; cases h
    · refine hwords (by simp [hw]) ?_
      cases w with
      | nil => exact absurd rfl hw
      | cons x l => simpa using h2
    · exact hwords h1 h2
  · by_cases h0 : v = []
    · rw [h0, fq_threadEmpty] at h; cases h
    by_cases h1 : v.head? = some 123
    · obtain ⟨s, rfl⟩ : ∃ s, v = bs "{" ++ s := by
        cases v with
        | nil => exact absurd rfl h0
        | cons x l =>
          simp only [List.head?_cons, Option.some.injEq] at h1
          rw [h1]
          exact ⟨l, rfl⟩
      by_cases h2 : s.getLast? = some 125
      · obtain ⟨w, rfl⟩ := List.getLast?_eq_some_iff.1 h2
        have e : bs "{" ++ (w ++ [125]) = bs "{" ++ w ++ bs "}" := rfl
        rw [e] at h ⊢
        rw [fq_braces] at h
        by_cases hw : w = [] ∨ w = bs "*"
        · rw [if_pos hw] at h
          cases h
          refine says_congr (Says.threadOfAll hw) (fun d => ?_)
          rw [expand_holds]
          simp [ThreadOf, Query.holds]
        · rw [if_neg hw] at h
          cases hfw : f w with
          | none => rw [hfw] at h; cases h
          | some r =>
            rw [hfw] at h
            cases r with
            | err s => cases h
            | crash => cases h
            | ok q' =>
              cases h
              obtain ⟨t, ht, hS⟩ := hf w q' hfw
              refine says_congr (Says.threadOf (fun h' => hw (Or.inl h')) (fun h' => hw (Or.inr h')) ht hS) (fun d => ?_)
              rw [expand_holds]
              exact Iff.rfl
      · rw [fq_unclosed s h2] at h; cases h
    · rw [fq_thread v h0 h1] at h
      cases h
      exact says_congr (Says.thread h0 h1) (fun d => by simp [Query.holds])
  · rw [fq_query] at h
    obtain ⟨t, ht, hS⟩ := hf _ q h
    exact Says.saved ht hS
  · rw [fq_sexp] at h
    cases hr : p.readSexp v with
    | none => rw [hr] at h; cases h
    | some sx =>
      rw [hr] at h
      simp only [Option.map_eq_some_iff, rethrow_ok] at h
      obtain ⟨r, h1, h2⟩ := h
      subst h2
      exact Says.sexp hr (eval_sound k _ _ _ _ _ .top h1)
  · rw [fq_date] at h
    simp only [Option.some.injEq] at h
    unfold dateField at h
    cases h1 : c.date v false with
    | none => rw [h1] at h; cases h
    | some lo =>
      cases h2 : c.date v true with
      | none => rw [h1, h2] at h; cases h
      | some hi =>
        rw [h1, h2] at h
        cases h
        exact says_congr (Says.date h1 h2) (fun d => by simp [Query.holds])

theorem range_sound {n a b : Str} {q : Query} (h : rangeField c n a b = .ok q) : Says c p (.range n a b) (fun d => q.holds c d = true) := by
  unfold rangeField at h
  split at h
  · rename_i hn
    subst hn
    rw [rethrow_ok] at h
    exact says_congr (Says.dates ((dates_ok a b).1.2 ⟨q, h⟩)) (fun d => ((dates_ok a b).2 q h d).symm)
  · split at h
    · rename_i hn
      subst hn
      rw [rethrow_ok] at h
      have := (revisions_ok (c := c) a b).1.2 ⟨q, h⟩
      exact says_congr (Says.revisions this.1 this.2) (fun d => ((revisions_ok a b).2 q h d).symm)
    · cases h

theorem both_ok {op : BinOp} {a b : Res} {q : Query} (h : both op a b = .ok q) : ∃ l r, a = .ok l ∧ b = .ok r ∧ q = combine op l r := by
  cases a <;> cases b <;> simp [both] at h
  exact ⟨_, _, rfl, rfl, h.symm⟩

theorem build_sound {k : Nat} {f : Str → Option Res} (hf : ∀ s q, f s = some (.ok q) → ∃ t, p.parse s = some t ∧ Says c p t (fun d => q.holds c d = true)) :
    ∀ (t : Tree) (q : Query), known t = true → build c p k f t = some (.ok q) → Says c p t (fun d => q.holds c d = true) := by
  intro t
  induction t with
  | words q' =>
    intro q _ h
    simp only [build, Option.some.injEq, Res.ok.injEq] at h
    subst h
    exact Says.words
  | field n v =>
    intro q hk h
    exact field_sound hf hk h
  | range n a b =>
    intro q _ h
    simp only [build, Option.some.injEq] at h
    exact range_sound h
  | comb op l r ihl ihr =>
    intro q hk h
    simp only [known, Bool.and_eq_true] at hk
    simp only [build, Option.bind_eq_some_iff, Option.map_eq_some_iff] at h
    obtain ⟨a, h1, b, h2, h3⟩ := h
    obtain ⟨ql, qr, rfl, rfl, rfl⟩ := both_ok h3
    have hl := ihl _ hk.1 h1
    have hr := ihr _ hk.2 h2
    cases op with
    | and => exact says_congr (Says.and hl hr) (fun d => by simp [combine, Query.holds])
    | or => exact says_congr (Says.or hl hr) (fun d => by simp [combine, Query.holds])
    | andNot => exact says_congr (Says.andNot hl hr) (fun d => by simp [combine, Query.holds])
    | xor => exact says_congr (Says.xor hl hr) (fun d => by simp [combine, Query.holds])
  | not t ih =>
    intro q hk h
    simp only [build, Option.map_eq_some_iff] at h
    obtain ⟨a, h1, h2⟩ := h
    cases a with
    | ok q' =>
      cases h2
      exact says_congr (Says.not (ih _ hk h1)) (fun d => by simp [Query.holds])
    | err s => cases h2
    | crash => cases h2

/-- The parser knows the fields of the query language only. -/
def KnownFields (p : Parser) : Prop := ∀ s t, p.parse s = some t → known t = true

theorem parse_sound (hp : KnownFields p) : ∀ (n : Nat) (s : Str) (q : Query), parseQuery c p n s = some (.ok q) → ∃ t, p.parse s = some t ∧ Says c p t (fun d => q.holds c d = true)
  | 0, s, q, h => by cases h
  | n + 1, s, q, h => by
    simp only [parseQuery] at h
    cases ht : p.parse s with
    | none => rw [ht] at h; cases h
    | some t =>
      rw [ht] at h
      exact ⟨t, rfl, build_sound (parse_sound hp n) t q (hp s t ht) h⟩

/-! ## More fuel -/

theorem field_mono {k m : Nat} (hkm : k ≤ m) {f g : Str → Option Res} (hfg : ∀ s r, f s = some r → g s = some r) {n v : Str} {r : Res}
    (h : fieldQuery c p k f n v = some r) : fieldQuery c p m g n v = some r := by
  unfold fieldQuery at h ⊢
  cases hx : table.find? (fun x => x.name = n) with
  | none => rw [hx] at h; exact h
  | some x =>
    rw [hx] at h
    dsimp only at h ⊢
    split at h
    · rename_i hc
      rw [if_pos hc]
      cases hpr : processorOf n with
      | date => rw [hpr] at h; exact h
      | regexp => rw [hpr] at h; exact h
      | query => rw [hpr] at h; exact hfg _ _ h
      | sexp =>
        rw [hpr] at h
        dsimp only at h ⊢
        cases hr : p.readSexp v with
        | none => rw [hr] at h; exact h
        | some sx =>
          rw [hr] at h
          dsimp only at h ⊢
          rw [Option.map_eq_some_iff] at h ⊢
          obtain ⟨r', h1, h2⟩ := h
          exact ⟨r', eval_mono hkm h1, h2⟩
      | thread =>
        rw [hpr] at h
        dsimp only at h ⊢
        split at h
        · exact h
        · split at h
          · rename_i hl
            rw [if_pos hl]
            rw [Option.map_eq_some_iff] at h ⊢
            obtain ⟨r', h1, h2⟩ := h
            refine ⟨r', ?_, h2⟩
            split at h1
            · rename_i hs
              rw [if_pos hs]; exact h1
            · rename_i hs
              rw [if_neg hs]; exact hfg _ _ h1
          · rename_i hl
            rw [if_neg hl]; exact h
        · exact h
    · rename_i hc
      rw [if_neg hc]; exact h

theorem build_mono {k m : Nat} (hkm : k ≤ m) {f g : Str → Option Res} (hfg : ∀ s r, f s = some r → g s = some r) :
    ∀ (t : Tree) (r : Res), build c p k f t = some r → build c p m g t = some r := by
  intro t
  induction t with
  | words q => intro r h; exact h
  | field n v => intro r h; exact field_mono hkm hfg h
  | range n a b => intro r h; exact h
  | comb op l r ihl ihr =>
    intro x h
    simp only [build, Option.bind_eq_some_iff, Option.map_eq_some_iff] at h ⊢
    obtain ⟨a, h1, b, h2, h3⟩ := h
    exact ⟨a, ihl _ h1, b, ihr _ h2, h3⟩
  | not t ih =>
    intro x h
    simp only [build, Option.map_eq_some_iff] at h ⊢
    obtain ⟨a, h1, h2⟩ := h
    exact ⟨a, ih _ h1, h2⟩

theorem parse_succ : ∀ (n : Nat) (s : Str) (r : Res), parseQuery c p n s = some r → parseQuery c p (n + 1) s = some r
  | 0, s, r, h => by cases h
  | n + 1, s, r, h => by
    simp only [parseQuery] at h
    show (match p.parse s with | none => some thrown | some t => build c p (n + 1) (parseQuery c p (n + 1)) t) = some r
    cases ht : p.parse s with
    | none => rw [ht] at h; exact h
    | some t =>
      rw [ht] at h
      exact build_mono (Nat.le_succ n) (parse_succ n) t r h

theorem parse_mono {n m : Nat} (h : n ≤ m) {s : Str} {r : Res} (hr : parseQuery c p n s = some r) : parseQuery c p m s = some r := by
  induction h with
  | refl => exact hr
  | step _ ih => exact parse_succ _ _ _ ih

theorem query_mono {n m : Nat} (h : n ≤ m) {s : Str} {r : Res} (hr : queryString c p n s = some r) : queryString c p m s = some r := by
  unfold queryString at hr ⊢
  split at hr
  · rename_i hs; rw [if_pos hs]; exact hr
  · rename_i hs; rw [if_neg hs]; exact parse_mono h hr

/-! ## Completeness -/

theorem regex_complete {n w : Str} {f : Str → Bool} (hr : c.regex w = some f) : ∃ q, regexToQuery c n w = .ok q := by
  unfold regexToQuery
  rw [hr]
  cases findSlot n with
  | none => exact ⟨_, rfl⟩
  | some s => exact ⟨_, rfl⟩

theorem build_complete {t : Tree} {S : Doc → Prop} (h : Says c p t S) : ∃ n, Good c (build c p n (parseQuery c p n) t) S := by
  have two : ∀ {l r : Tree} {L R : Doc → Prop} (op : BinOp), (∃ n, Good c (build c p n (parseQuery c p n) l) L) → (∃ n, Good c (build c p n (parseQuery c p n) r) R) →
      ∃ n ql qr, build c p n (parseQuery c p n) (.comb op l r) = some (.ok (combine op ql qr)) ∧ (∀ d, ql.holds c d = true ↔ L d) ∧ (∀ d, qr.holds c d = true ↔ R d) := by
    intro l r L R op hl hr
    obtain ⟨n, ql, h1, h2⟩ := hl
    obtain ⟨m, qr, h3, h4⟩ := hr
    refine ⟨n + m, ql, qr, ?_, h2, h4⟩
    have h1' := build_mono (c := c) (p := p) (Nat.le_add_right n m) (fun s r => parse_mono (Nat.le_add_right n m)) l _ h1
    have h3' := build_mono (c := c) (p := p) (Nat.le_add_left m n) (fun s r => parse_mono (Nat.le_add_left m n)) r _ h3
    simp only [build, h1', h3', Option.bind_some, Option.map_some, both]
  induction h with
  | words => exact ⟨0, _, rfl, fun d => Iff.rfl⟩
  | and _ _ ihl ihr =>
    obtain ⟨n, ql, qr, h1, h2, h3⟩ := two .and ihl ihr
    exact ⟨n, _, h1, fun d => by simp [combine, Query.holds, h2, h3]⟩
  | or _ _ ihl ihr =>
    obtain ⟨n, ql, qr, h1, h2, h3⟩ := two .or ihl ihr
    exact ⟨n, _, h1, fun d => by simp [combine, Query.holds, h2, h3]⟩
  | andNot _ _ ihl ihr =>
    obtain ⟨n, ql, qr, h1, h2, h3⟩ := two .andNot ihl ihr
    exact ⟨n, _, h1, fun d => by simp [combine, Query.holds, h2, ← h3]⟩
  | xor _ _ ihl ihr =>
    obtain ⟨n, ql, qr, h1, h2, h3⟩ := two .xor ihl ihr
    exact ⟨n, _, h1, fun d => by simp [combine, Query.holds, ← h2, ← h3]⟩
  | not _ ih =>
    obtain ⟨n, q, h1, h2⟩ := ih
    refine ⟨n, _, by simp only [build, h1, Option.map_some, negate]; rfl, fun d => ?_⟩
    simp [Query.holds, ← h2]
  | @plain n v hn => exact ⟨0, _, fq_plain v hn, fun d => by simp [Query.holds]⟩
  | @term n v hn h2 h3 =>
    have hp : headerFields.contains n = false := by
      have : ∀ n ∈ termFields, headerFields.contains n = false := by decide +kernel
      exact this n hn
    refine ⟨0, .term (c.termPrefix n ++ v), ?_, fun d => ?_⟩
    · show fieldQuery _ _ _ _ _ _ = _
      rw [fq_regexp v (Or.inl hn), hp, rf_term n v h2 h3]
    · simp [Query.holds]
  | @slash n w hn hw h2 =>
    have hp : headerFields.contains n = false := by
      have : ∀ n ∈ termFields, headerFields.contains n = false := by decide +kernel
      exact this n hn
    refine ⟨0, .term (c.termPrefix n ++ w), ?_, fun d => ?_⟩
    · show fieldQuery _ _ _ _ _ _ = _
      rw [fq_regexp _ (Or.inl hn), hp, rf_slash n w hw h2]
    · simp [Query.holds]
  | @regexTerm n w f hn h2 hr =>
    refine ⟨0, .anyTerm ((allTerms c (c.termPrefix n)).filter (fun t => f (t.drop (c.termPrefix n).length))), ?_, fun d => anyTerm_holds n f d⟩
    show fieldQuery _ _ _ _ _ _ = _
    rw [fq_regexp _ (Or.inl hn), rf_regex]
    simp only [regexToQuery, hr, not_slot hn h2, rethrow]
  | @regexHeader n w slot f hn hr =>
    refine ⟨0, .regexValue slot w, ?_, fun d => by simp [Query.holds, hr]⟩
    have hn' : n ∈ termFields ∨ n ∈ headerFields := by
      simp only [List.mem_cons, Prod.mk.injEq, List.not_mem_nil, or_false] at hn
      rcases hn with ⟨rfl, _⟩ | ⟨rfl, _⟩ | ⟨rfl, _⟩
      · exact Or.inr (by decide +kernel)
      · exact Or.inr (by decide +kernel)
      · exact Or.inl (by decide +kernel)
    show fieldQuery _ _ _ _ _ _ = _
    rw [fq_regexp _ hn', rf_regex]
    simp only [regexToQuery, hr, (findSlot_iff n slot).2 hn, rethrow]
  | @noHeader n hn =>
    have hp : headerFields.contains n = true := List.contains_iff_mem.2 hn
    refine ⟨0, .comb .andNot .all (.wildcard (c.termPrefix n)), ?_, fun d => ?_⟩
    · show fieldQuery _ _ _ _ _ _ = _
      rw [fq_regexp _ (Or.inr hn), hp, rf_empty]
    · simp only [Query.holds, Bool.true_and, Bool.not_eq_true']
      rw [← Bool.not_eq_true, List.any_eq_true]
      simp only [pre_iff]
      constructor
      · rintro h ⟨s, h1⟩; exact h ⟨_, h1, s, rfl⟩
      · rintro h ⟨t, h1, s, rfl⟩; exact h ⟨s, h1⟩
  | @unquoted n v q hn h1 h2 hq hpi =>
    have hp : headerFields.contains n = true := List.contains_iff_mem.2 hn
    refine ⟨0, q, ?_, fun d => Iff.rfl⟩
    show fieldQuery _ _ _ _ _ _ = _
    rw [fq_regexp _ (Or.inr hn), hp]
    obtain ⟨s, hs, h'⟩ := rf_words (c := c) (p := p) n v h1 h2
    rcases hs with ⟨h5, rfl⟩ | ⟨h5, rfl⟩
    · rcases h' with ⟨q', h3, h4⟩ | ⟨h3, h4⟩
      · rw [hpi] at h3; cases h3; rw [h4]
      · rw [hpi] at h3; cases h3
    · exact absurd hq h5
  | @quoted n v q hn h1 h2 hq hpi =>
    have hp : headerFields.contains n = true := List.contains_iff_mem.2 hn
    refine ⟨0, q, ?_, fun d => Iff.rfl⟩
    show fieldQuery _ _ _ _ _ _ = _
    rw [fq_regexp _ (Or.inr hn), hp]
    obtain ⟨s, hs, h'⟩ := rf_words (c := c) (p := p) n v h1 h2
    rcases hs with ⟨h5, rfl⟩ | ⟨h5, rfl⟩
    · exact absurd h5 hq
    · rcases h' with ⟨q', h3, h4⟩ | ⟨h3, h4⟩
      · rw [hpi] at h3; cases h3; rw [h4]
      · rw [hpi] at h3; cases h3
  | @thread v h0 h1 => exact ⟨0, _, fq_thread v h0 h1, fun d => by simp [Query.holds]⟩
  | @threadOf s t S h0 h1 ht _ ih =>
    obtain ⟨n, q, h2, h3⟩ := ih
    refine ⟨n + 1, queryExpand c (bs "thread") q, ?_, fun d => ?_⟩
    · show fieldQuery _ _ _ _ _ _ = _
      rw [fq_braces, if_neg (by simp [h0, h1])]
      simp only [parseQuery, ht, h2, Option.map_some, expandRes]
    · rw [expand_holds]
      simp only [h3]
      exact Iff.rfl
  | @threadOfAll s hs =>
    refine ⟨0, queryExpand c (bs "thread") .all, ?_, fun d => ?_⟩
    · show fieldQuery _ _ _ _ _ _ = _
      rw [fq_braces, if_pos hs]
      rfl
    · rw [expand_holds]
      simp [ThreadOf, Query.holds]
  | @saved v t S ht _ ih =>
    obtain ⟨n, q, h2, h3⟩ := ih
    refine ⟨n + 1, q, ?_, h3⟩
    show fieldQuery _ _ _ _ _ _ = _
    rw [fq_query]
    simp only [parseQuery, ht, h2]
  | @sexp v sx S hr hm =>
    obtain ⟨n, q, h1, h2⟩ := eval_complete hm none .top
    refine ⟨n, q, ?_, h2⟩
    show fieldQuery _ _ _ _ _ _ = _
    rw [fq_sexp, hr]
    simp only [Sexp.query, h1, Option.map_some, rethrow]
  | @date v l h h1 h2 =>
    refine ⟨0, .range .timestamp l (some h), ?_, fun d => by simp [Query.holds]⟩
    show fieldQuery _ _ _ _ _ _ = _
    rw [fq_date, dateField, h1, h2]
  | @dates a b hu =>
    obtain ⟨q, hq⟩ := (dates_ok (c := c) a b).1.1 hu
    refine ⟨0, q, ?_, (dates_ok a b).2 q hq⟩
    simp only [build, rangeField, if_true, hq, rethrow]
  | @revisions a b ha hb =>
    obtain ⟨q, hq⟩ := (revisions_ok (c := c) a b).1.1 ⟨ha, hb⟩
    refine ⟨0, q, ?_, (revisions_ok a b).2 q hq⟩
    have hne : bs "lastmod" ≠ bs "date" := by decide +kernel
    simp only [build, rangeField, if_neg hne, if_true, hq, rethrow]

/-! ## What a text finds -/

theorem query_finds (hp : KnownFields p) (s : Str) (S : Doc → Prop) : (∃ n, Good c (queryString c p n s) S) ↔ Finds c p s S := by
  unfold queryString Finds
  by_cases hs : s = [] ∨ s = bs "*"
  · simp only [hs, if_true, true_and]
    have hn : ¬ (s ≠ [] ∧ s ≠ bs "*" ∧ ∃ t, p.parse s = some t ∧ Says c p t S) := by
      rintro ⟨h1, h2, _⟩
      rcases hs with h | h
      · exact h1 h
      · exact h2 h
    simp only [hn, or_false]
    constructor
    · rintro ⟨n, q, h1, h2⟩ d
      cases h1
      exact (h2 d).1 rfl
    · intro h
      exact ⟨0, .all, rfl, fun d => by simp [Query.holds, h d]⟩
  · simp only [hs, if_false, false_and, false_or]
    have h1 : s ≠ [] := fun h => hs (Or.inl h)
    have h2 : s ≠ bs "*" := fun h => hs (Or.inr h)
    simp only [h1, h2, ne_eq, not_false_eq_true, true_and]
    constructor
    · rintro ⟨n, q, h3, h4⟩
      obtain ⟨t, h5, h6⟩ := parse_sound hp n s q h3
      exact ⟨t, h5, says_congr h6 h4⟩
    · rintro ⟨t, h3, h4⟩
      obtain ⟨n, q, h5, h6⟩ := build_complete h4
      exact ⟨n + 1, q, by simp only [parseQuery, h3, h5], h6⟩

end Notmuch.Fields
