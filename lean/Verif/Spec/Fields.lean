import Verif.Model.Fields
import Verif.Spec.Sexp

/-!
# Specification: the fields of infix queries (C57)

What a query that Xapian's parser has read means, rule by rule, after notmuch-search-terms(7): a set of messages.
-/

namespace Notmuch.Fields

open Notmuch.Sexp

/-- The fields whose text is that of a term. -/
def plainFields : List Str := [bs "id", bs "property"]
/-- The same, with regular expressions and a slash at the end. -/
def termFields : List Str := [bs "tag", bs "is", bs "mid", bs "path", bs "folder"]
/-- Words, with regular expressions. -/
def headerFields : List Str := [bs "from", bs "subject"]

/-- The text is taken as it is, instead of as a phrase: it is in parentheses, or a word with `*` at its end. -/
def Unquoted (v : Str) : Prop := (∃ w, v = bs "(" ++ w ++ bs ")") ∨ ((∃ w, v = w ++ bs "*") ∧ 32 ∉ v)

/-- The message has a thread in common with one of the messages. -/
def ThreadOf (c : Ctx) (S : Doc → Prop) (d : Doc) : Prop := ∃ t, c.termPrefix (bs "thread") ++ t ∈ d.terms ∧ ∃ d' ∈ c.docs, c.termPrefix (bs "thread") ++ t ∈ d'.terms ∧ S d'

/-- The time is between the two, where an empty text is no bound; without a lower bound the range begins after the epoch.  `date:X..!` is `date:X..X`. -/
def Between (c : Ctx) (a b : Str) (t : Int) : Prop :=
  (a = [] ∧ 0 < t ∨ a ≠ [] ∧ ∃ l, c.date a false = some l ∧ l ≤ t) ∧
  (b = [] ∨ b ≠ [] ∧ ∃ h, c.date (if b = bs "!" ∧ a ≠ [] then a else b) true = some h ∧ t ≤ h)

def Understood (c : Ctx) (a b : Str) : Prop :=
  (a ≠ [] → ∃ l, c.date a false = some l) ∧ (b ≠ [] → ∃ h, c.date (if b = bs "!" ∧ a ≠ [] then a else b) true = some h)

/-- The revision that a number stands for: negative ones count from the present one. -/
def Revision (c : Ctx) (a : Str) (r : Int) : Prop := ∃ n, stol a = some n ∧ (0 ≤ n ∧ r = n ∨ n < 0 ∧ r = c.revision + n)

def BetweenRevisions (c : Ctx) (a b : Str) (r : Int) : Prop :=
  (a = [] ∧ 0 ≤ r ∨ a ≠ [] ∧ ∃ l, Revision c a l ∧ l ≤ r) ∧ (b = [] ∨ b ≠ [] ∧ ∃ h, Revision c b h ∧ r ≤ h)

/-- What has been read means these messages. -/
inductive Says (c : Ctx) (p : Parser) : Tree → (Doc → Prop) → Prop
  | words {q : Query} : Says c p (.words q) (fun d => q.holds c d = true)
  | and {l r : Tree} {L R : Doc → Prop} : Says c p l L → Says c p r R → Says c p (.comb .and l r) (fun d => L d ∧ R d)
  | or {l r : Tree} {L R : Doc → Prop} : Says c p l L → Says c p r R → Says c p (.comb .or l r) (fun d => L d ∨ R d)
  | andNot {l r : Tree} {L R : Doc → Prop} : Says c p l L → Says c p r R → Says c p (.comb .andNot l r) (fun d => L d ∧ ¬ R d)
  | xor {l r : Tree} {L R : Doc → Prop} : Says c p l L → Says c p r R → Says c p (.comb .xor l r) (fun d => (L d ∧ ¬ R d) ∨ (R d ∧ ¬ L d))
  | not {t : Tree} {T : Doc → Prop} : Says c p t T → Says c p (.not t) (fun d => ¬ T d)
  /-- `id:x`, `property:x=y` -/
  | plain {n v : Str} : n ∈ plainFields → Says c p (.field n v) (fun d => c.termPrefix n ++ v ∈ d.terms)
  /-- `tag:x` -/
  | term {n v : Str} : n ∈ termFields → v.head? ≠ some 47 → v.getLast? ≠ some 47 → Says c p (.field n v) (fun d => c.termPrefix n ++ v ∈ d.terms)
  /-- `folder:x/` is `folder:x`, and so for the others -/
  | slash {n v : Str} : n ∈ termFields → v ≠ [] → v.head? ≠ some 47 → Says c p (.field n (v ++ bs "/")) (fun d => c.termPrefix n ++ v ∈ d.terms)
  /-- `tag:/x/`: a tag of the message matches -/
  | regexTerm {n v : Str} {f : Str → Bool} : n ∈ termFields → n ≠ bs "mid" → c.regex v = some f →
      Says c p (.field n (bs "/" ++ v ++ bs "/")) (fun d => ∃ t, c.termPrefix n ++ t ∈ d.terms ∧ f t = true ∧ ∃ d' ∈ c.docs, c.termPrefix n ++ t ∈ d'.terms)
  /-- `from:/x/`: the whole header matches -/
  | regexHeader {n v : Str} {slot : Slot} {f : Str → Bool} : (n, slot) ∈ [(bs "from", Slot.sender), (bs "subject", Slot.subject), (bs "mid", Slot.messageId)] → c.regex v = some f →
      Says c p (.field n (bs "/" ++ v ++ bs "/")) (fun d => d.value slot ≠ [] ∧ f (d.value slot) = true)
  /-- `from:""`: there is no such header, or nothing in it -/
  | noHeader {n : Str} : n ∈ headerFields → Says c p (.field n []) (fun d => ¬ ∃ t, c.termPrefix n ++ t ∈ d.terms)
  | unquoted {n v : Str} {q : Query} : n ∈ headerFields → v ≠ [] → v.head? ≠ some 47 → Unquoted v → p.parseIn (c.termPrefix n) v = some q →
      Says c p (.field n v) (fun d => q.holds c d = true)
  | quoted {n v : Str} {q : Query} : n ∈ headerFields → v ≠ [] → v.head? ≠ some 47 → ¬ Unquoted v → p.parseIn (c.termPrefix n) (bs "\"" ++ v ++ bs "\"") = some q →
      Says c p (.field n v) (fun d => q.holds c d = true)
  | thread {v : Str} : v ≠ [] → v.head? ≠ some 123 → Says c p (.field (bs "thread") v) (fun d => c.termPrefix (bs "thread") ++ v ∈ d.terms)
  /-- `thread:{Q}` -/
  | threadOf {s : Str} {t : Tree} {S : Doc → Prop} : s ≠ [] → s ≠ bs "*" → p.parse s = some t → Says c p t S → Says c p (.field (bs "thread") (bs "{" ++ s ++ bs "}")) (ThreadOf c S)
  | threadOfAll {s : Str} : s = [] ∨ s = bs "*" → Says c p (.field (bs "thread") (bs "{" ++ s ++ bs "}")) (ThreadOf c (fun _ => True))
  /-- `query:name` -/
  | saved {v : Str} {t : Tree} {S : Doc → Prop} : p.parse (c.named v) = some t → Says c p t S → Says c p (.field (bs "query") v) S
  | sexp {v : Str} {sx : Sexp} {S : Doc → Prop} : p.readSexp v = some sx → Means c .top .nil sx S → Says c p (.field (bs "sexp") v) S
  /-- `date:today`: from its beginning to its end -/
  | date {v : Str} {l h : Int} : c.date v false = some l → c.date v true = some h → Says c p (.field (bs "date") v) (fun d => l ≤ d.timestamp ∧ d.timestamp ≤ h)
  | dates {a b : Str} : Understood c a b → Says c p (.range (bs "date") a b) (fun d => Between c a b d.timestamp)
  | revisions {a b : Str} : (a ≠ [] → ∃ r, Revision c a r) → (b ≠ [] → ∃ r, Revision c b r) → Says c p (.range (bs "lastmod") a b) (fun d => BetweenRevisions c a b d.lastMod)

/-- What a text means. -/
def Finds (c : Ctx) (p : Parser) (s : Str) (S : Doc → Prop) : Prop :=
  ((s = [] ∨ s = bs "*") ∧ ∀ d, S d) ∨ (s ≠ [] ∧ s ≠ bs "*" ∧ ∃ t, p.parse s = some t ∧ Says c p t S)

/-- The texts that this asks for: saved queries, and those in `thread:{}`. -/
def uses (c : Ctx) : Tree → List Str
  | .field n v =>
    if n = bs "query" then [c.named v]
    else if n = bs "thread" ∧ v.head? = some 123 ∧ v.getLast? = some 125 then [v.tail.dropLast] else []
  | .comb _ l r => uses c l ++ uses c r
  | .not t => uses c t
  | _ => []

/-- There is no field that the query language does not have. -/
def known : Tree → Bool
  | .field n _ => plainFields.contains n || termFields.contains n || headerFields.contains n || [bs "thread", bs "query", bs "sexp", bs "date"].contains n
  | .range n _ _ => [bs "date", bs "lastmod"].contains n
  | .comb _ l r => known l && known r
  | .not t => known t
  | .words _ => true

/-- There is no `thread:""`, and no s-expression that crashes. -/
def Calm (c : Ctx) (p : Parser) : Tree → Prop
  | .field n v => (n = bs "thread" → v ≠ []) ∧ (n = bs "sexp" → ∀ sx, p.readSexp v = some sx → ∀ k, Sexp.query c k sx ≠ some .crash)
  | .comb _ l r => Calm c p l ∧ Calm c p r
  | .not t => Calm c p t
  | _ => True

/-! ## A source of matching messages, of which there is one for each regular expression on a header -/

inductive Call where
  | next
  | skipTo (did : Nat)
  | check (did : Nat)

def Call.does (re : Str → Bool) (s : Source) : Call → Source
  | .next => s.next re
  | .skipTo did => s.skipTo re did
  | .check did => (s.check re did).1

/-- The source after some calls. -/
def after (re : Str → Bool) (values : List (Nat × Str)) (calls : List Call) : Source := calls.foldl (Call.does re) (Source.init values)

/-- The first document that matches, and whose number is such. -/
def first (re : Str → Bool) (values : List (Nat × Str)) (ok : Nat → Bool) : Option Nat := ((values.filter (fun v => ok v.1 && re v.2)).map (·.1)).head?

end Notmuch.Fields
