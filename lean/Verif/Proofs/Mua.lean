import Verif.Spec.Mua

namespace Notmuch.Mua

theorem lexFrom_cons (m : Mode) (c : UInt8) (t : Str) : lexFrom m (c :: t) = match lexStep m c with
    | none => none
    | some (ts, m') => (lexFrom m' t).map (fun p => (ts ++ p.1, p.2)) := rfl

theorem lexFrom_append : ∀ (a b : Str) (m : Mode), lexFrom m (a ++ b) = match lexFrom m a with
    | none => none
    | some (ts, m') => (lexFrom m' b).map (fun p => (ts ++ p.1, p.2)) := by
  intro a
  induction a with
  | nil =>
    intro b m
    show lexFrom m b = (lexFrom m b).map (fun p => ([] ++ p.1, p.2))
    cases lexFrom m b with
    | none => rfl
    | some p => rfl
  | cons c a ih =>
    intro b m
    rw [List.cons_append, lexFrom_cons, lexFrom_cons]
    cases lexStep m c with
    | none => rfl
    | some p =>
      obtain ⟨ts, m'⟩ := p
      dsimp only
      rw [ih]
      cases lexFrom m' a with
      | none => rfl
      | some q =>
        obtain ⟨us, m''⟩ := q
        dsimp only [Option.map]
        cases lexFrom m'' b with
        | none => rfl
        | some r => dsimp only; rw [List.append_assoc]

/-- One after the other. -/
theorem lex_then {a b : Str} {m m' m'' : Mode} {ts us : List Tok} (h1 : lexFrom m a = some (ts, m')) (h2 : lexFrom m' b = some (us, m'')) :
    lexFrom m (a ++ b) = some (ts ++ us, m'') := by
  rw [lexFrom_append, h1]
  dsimp only
  rw [h2]; rfl

theorem escape_cons (c : UInt8) (s : Str) : escape (c :: s) = (if c = 92 then [92, 92] else if c = 34 then [92, 34] else [c]) ++ escape s := by
  unfold escape subst
  rw [List.flatMap_cons, List.flatMap_append]
  congr 1
  by_cases h : c = 92
  · subst h; rfl
  · rw [if_neg h, if_neg h]
    by_cases h2 : c = 34
    · subst h2; rfl
    · rw [if_neg h2]
      show (if c = 34 then _ else [c]) ++ [] = [c]
      rw [if_neg h2]; rfl

/-- Escaped text in a string is that text. -/
theorem lex_escape : ∀ (s acc : Str), lexFrom (.str acc) (escape s) = some ([], .str (acc ++ s)) := by
  intro s
  induction s with
  | nil => intro acc; rw [List.append_nil]; rfl
  | cons c s ih =>
    intro acc
    rw [escape_cons]
    have key : lexFrom (.str acc) (if c = 92 then [92, 92] else if c = 34 then [92, 34] else [c]) = some ([], .str (acc ++ [c])) := by
      by_cases h : c = 92
      · subst h; rfl
      · rw [if_neg h]
        by_cases h2 : c = 34
        · subst h2; rfl
        · rw [if_neg h2]
          unfold lexFrom lexStep
          dsimp only
          rw [if_neg h2, if_neg h]
          rfl
    have := lex_then key (ih (acc ++ [c]))
    rw [this]
    simp

/-- A call with a string. -/
theorem lex_call {pre : Str} {ts : List Tok} (hp : lexFrom .normal pre = some (ts, .str [])) (sep s post : Str) (hs : lexFrom (.str []) sep = some ([], .str sep)) (ts' : List Tok)
    (q : Str) (hq : ∀ acc, lexFrom (.str acc) q = some (.str (acc ++ post) :: ts', .normal)) :
    lexFrom .normal (pre ++ (sep ++ escape s) ++ q) = some (ts ++ (.str (sep ++ s ++ post) :: ts'), .normal) := by
  have h1 := lex_then hs (lex_escape s sep)
  have h2 := lex_then hp h1
  have h3 := lex_then h2 (hq (sep ++ s))
  rw [h3]; simp

/-- How a list of data is written. -/
def toksL (l : List Sexp) : List Tok := (l.map Sexp.toks).flatten

theorem toksL_append (a b : List Sexp) : toksL (a ++ b) = toksL a ++ toksL b := by
  unfold toksL; rw [List.map_append, List.flatten_append]

theorem formsFrom_append : ∀ (os : List Opt) (b : List Opt) (o : Opt), formsFrom b (os ++ [o]) = formsFrom b os ++ o.forms (b ++ os) := by
  intro os
  induction os with
  | nil => intro b o; show o.forms b ++ [] = [] ++ o.forms (b ++ []); simp
  | cons x os ih =>
    intro b o
    show x.forms b ++ formsFrom (b ++ [x]) (os ++ [o]) = (x.forms b ++ formsFrom (b ++ [x]) os) ++ _
    rw [ih]; simp

def isTo : Opt → Bool | .to _ => true | _ => false
def isCc : Opt → Bool | .cc _ => true | _ => false
def isBcc : Opt → Bool | .bcc _ => true | _ => false

/-- The variables of the script after these options. -/
structure Inv (st : St) (os : List Opt) : Prop where
  print : st.printOnly = os.contains .print
  noWindow : st.noWindow = os.contains .noWindow
  client : st.client = os.contains .client
  autoDaemon : st.autoDaemon = os.contains .autoDaemon
  createFrame : st.createFrame = (os.contains .createFrame || os.contains .autoDaemon)
  hello : st.hello = os.contains .hello
  mailto : st.mailto = []
  elisp : lexFrom .normal st.elisp = some (toksL (formsFrom [] os), .normal)
  empty : st.elisp.isEmpty = (formsFrom [] os).isEmpty
  toSep : st.toSep = if os.any isTo then bs ", " else []
  ccSep : st.ccSep = if os.any isCc then bs ", " else []
  bccSep : st.bccSep = if os.any isBcc then bs ", " else []

theorem inv_init : Inv {} [] := ⟨rfl, rfl, rfl, rfl, rfl, rfl, rfl, rfl, rfl, rfl, rfl, rfl⟩

theorem forms_to (os : List Opt) (a : Str) : Opt.forms os (.to a) = [call0 "message-goto-to", call1 "insert" ((if os.any isTo then bs ", " else []) ++ a)] := rfl
theorem forms_cc (os : List Opt) (a : Str) : Opt.forms os (.cc a) = [call0 "message-goto-cc", call1 "insert" ((if os.any isCc then bs ", " else []) ++ a)] := rfl
theorem forms_bcc (os : List Opt) (a : Str) : Opt.forms os (.bcc a) = [call0 "message-goto-bcc", call1 "insert" ((if os.any isBcc then bs ", " else []) ++ a)] := rfl

theorem toks_call0 (f : String) : (call0 f).toks = [.lpar, .sym (bs f), .rpar] := by simp [call0, Sexp.toks]
theorem toks_call1 (f : String) (s : Str) : (call1 f s).toks = [.lpar, .sym (bs f), .str s, .rpar] := by simp [call1, Sexp.toks]
theorem toksL_two (x y : Sexp) : toksL [x, y] = x.toks ++ y.toks := by simp [toksL]

private theorem contains_snoc (os : List Opt) (o x : Opt) : (os ++ [o]).contains x = (os.contains x || decide (x = o)) := by
  simp

theorem sep_lex (b : Bool) : lexFrom (.str []) (if b then bs ", " else []) = some ([], .str (if b then bs ", " else [])) := by
  cases b <;> decide +kernel

/-- Code is added. -/
theorem Inv.code {st st' : St} {os : List Opt} {o : Opt} (I : Inv st os) (piece : Str) (h1 : st'.elisp = st.elisp ++ piece) (hl : lexFrom .normal piece = some (toksL (o.forms os), .normal))
    (hp : piece ≠ []) (hf : o.forms os ≠ []) : lexFrom .normal st'.elisp = some (toksL (formsFrom [] (os ++ [o])), .normal) ∧ st'.elisp.isEmpty = (formsFrom [] (os ++ [o])).isEmpty := by
  rw [formsFrom_append, h1, toksL_append]
  refine ⟨lex_then I.elisp hl, ?_⟩
  show _ = (formsFrom [] os ++ o.forms os).isEmpty
  cases piece with
  | nil => exact absurd rfl hp
  | cons c p =>
    cases ho : o.forms os with
    | nil => exact absurd ho hf
    | cons f fs => cases st.elisp <;> cases formsFrom [] os <;> rfl

theorem flag_code {st : St} {os : List Opt} {o : Opt} (I : Inv st os) (hf : o.forms os = []) :
    lexFrom .normal st.elisp = some (toksL (formsFrom [] (os ++ [o])), .normal) ∧ st.elisp.isEmpty = (formsFrom [] (os ++ [o])).isEmpty := by
  rw [formsFrom_append]
  show _ = some (toksL (formsFrom [] os ++ o.forms os), _) ∧ _ = (formsFrom [] os ++ o.forms os).isEmpty
  rw [hf, List.append_nil]
  exact ⟨I.elisp, I.empty⟩

/-- The name by which the second `case` knows an option, and its argument. -/
def Names : Str → Str → Opt → Prop
  | n, a, .subject s => (n = bs "--subject" ∨ n = bs "s") ∧ a = s
  | n, a, .to s => n = bs "--to" ∧ a = s
  | n, a, .cc s => (n = bs "--cc" ∨ n = bs "c") ∧ a = s
  | n, a, .bcc s => (n = bs "--bcc" ∨ n = bs "b") ∧ a = s
  | n, a, .body s => (n = bs "--body" ∨ n = bs "i") ∧ a = s
  | n, _, .print => n = bs "--print"
  | n, _, .noWindow => n = bs "--no-window-system"
  | n, _, .client => n = bs "--client"
  | n, _, .autoDaemon => n = bs "--auto-daemon"
  | n, _, .createFrame => n = bs "--create-frame"
  | n, _, .hello => n = bs "--hello"

theorem post_close : ∀ acc, lexFrom (.str acc) (bs "\")") = some (.str (acc ++ []) :: [.rpar], .normal) := by
  intro acc; rw [List.append_nil]; rfl

theorem lex_piece {pre : String} {ts : List Tok} (hp : lexFrom .normal (bs pre) = some (ts, .str [])) (s : Str) :
    lexFrom .normal (bs pre ++ escape s ++ bs "\")") = some (ts ++ [.str s, .rpar], .normal) := by
  have := lex_call hp [] s [] rfl [.rpar] (bs "\")") post_close
  simpa using this

theorem lex_piece_sep {pre : String} {ts : List Tok} (hp : lexFrom .normal (bs pre) = some (ts, .str [])) (b : Bool) (s : Str) :
    lexFrom .normal (bs pre ++ ((if b then bs ", " else []) ++ escape s) ++ bs "\")") = some (ts ++ [.str ((if b then bs ", " else []) ++ s), .rpar], .normal) := by
  have := lex_call hp (if b then bs ", " else []) s [] (sep_lex b) [.rpar] (bs "\")") post_close
  simpa using this

private theorem ne_nil_bs {p : String} {a : Str} (h : bs p ≠ []) : bs p ++ a ≠ [] := by
  intro h'; exact h (List.append_eq_nil_iff.1 h').1

theorem handle_inv {st : St} {os : List Opt} {o : Opt} {name arg : Str} (I : Inv st os) (h : Names name arg o) : ∃ st', handle st name (escape arg) = some st' ∧ Inv st' (os ++ [o]) := by
  cases o with
  | subject s =>
    obtain ⟨hn, rfl⟩ := h
    let st' : St := { st with elisp := st.elisp ++ bs " (message-goto-subject) (insert \"" ++ escape arg ++ bs "\")" }
    have hh : handle st name (escape arg) = some st' := by rcases hn with rfl | rfl <;> rfl
    have hc := I.code (st' := st') (o := .subject arg) (bs " (message-goto-subject) (insert \"" ++ escape arg ++ bs "\")") (by simp [st'])
      (by rw [lex_piece (pre := " (message-goto-subject) (insert \"") (ts := [.lpar, .sym (bs "message-goto-subject"), .rpar, .lpar, .sym (bs "insert")]) (by decide +kernel) arg]; simp [toksL, Opt.forms, call0, call1, Sexp.toks])
      (by rw [List.append_assoc]; exact ne_nil_bs (by decide)) (by simp [Opt.forms])
    exact ⟨st', hh, by
      constructor <;> first | exact hc.1 | exact hc.2 | skip
      all_goals simp only [st', contains_snoc, List.any_append]
      · rw [I.print]; simp
      · rw [I.noWindow]; simp
      · rw [I.client]; simp
      · rw [I.autoDaemon]; simp
      · rw [I.createFrame]; simp
      · rw [I.hello]; simp
      · exact I.mailto
      · rw [I.toSep]; simp [isTo]
      · rw [I.ccSep]; simp [isCc]
      · rw [I.bccSep]; simp [isBcc]⟩
  | to s =>
    obtain ⟨hn, rfl⟩ := h
    let st' : St := { st with elisp := st.elisp ++ bs " (message-goto-to) (insert \"" ++ (st.toSep ++ escape arg) ++ bs "\")", toSep := bs ", " }
    have hh : handle st name (escape arg) = some st' := by rw [hn]; rfl
    have hc := I.code (st' := st') (o := .to arg) (bs " (message-goto-to) (insert \"" ++ (st.toSep ++ escape arg) ++ bs "\")") (by simp [st'])
      (by rw [I.toSep]; rw [lex_piece_sep (pre := " (message-goto-to) (insert \"") (ts := [.lpar, .sym (bs "message-goto-to"), .rpar, .lpar, .sym (bs "insert")]) (by decide +kernel) _ arg]; first | (rw [forms_to, toksL_two, toks_call0, toks_call1]; rfl) | (rw [forms_cc, toksL_two, toks_call0, toks_call1]; rfl) | (rw [forms_bcc, toksL_two, toks_call0, toks_call1]; rfl))
      (by rw [List.append_assoc]; exact ne_nil_bs (by decide)) (by simp [Opt.forms])
    exact ⟨st', hh, by
      constructor <;> first | exact hc.1 | exact hc.2 | skip
      all_goals simp only [st', contains_snoc, List.any_append]
      · rw [I.print]; simp
      · rw [I.noWindow]; simp
      · rw [I.client]; simp
      · rw [I.autoDaemon]; simp
      · rw [I.createFrame]; simp
      · rw [I.hello]; simp
      · exact I.mailto
      · simp [isTo]
      · rw [I.ccSep]; simp [isCc]
      · rw [I.bccSep]; simp [isBcc]⟩
  | cc s =>
    obtain ⟨hn, rfl⟩ := h
    let st' : St := { st with elisp := st.elisp ++ bs " (message-goto-cc) (insert \"" ++ (st.ccSep ++ escape arg) ++ bs "\")", ccSep := bs ", " }
    have hh : handle st name (escape arg) = some st' := by rcases hn with rfl | rfl <;> rfl
    have hc := I.code (st' := st') (o := .cc arg) (bs " (message-goto-cc) (insert \"" ++ (st.ccSep ++ escape arg) ++ bs "\")") (by simp [st'])
      (by rw [I.ccSep]; rw [lex_piece_sep (pre := " (message-goto-cc) (insert \"") (ts := [.lpar, .sym (bs "message-goto-cc"), .rpar, .lpar, .sym (bs "insert")]) (by decide +kernel) _ arg]; first | (rw [forms_to, toksL_two, toks_call0, toks_call1]; rfl) | (rw [forms_cc, toksL_two, toks_call0, toks_call1]; rfl) | (rw [forms_bcc, toksL_two, toks_call0, toks_call1]; rfl))
      (by rw [List.append_assoc]; exact ne_nil_bs (by decide)) (by simp [Opt.forms])
    exact ⟨st', hh, by
      constructor <;> first | exact hc.1 | exact hc.2 | skip
      all_goals simp only [st', contains_snoc, List.any_append]
      · rw [I.print]; simp
      · rw [I.noWindow]; simp
      · rw [I.client]; simp
      · rw [I.autoDaemon]; simp
      · rw [I.createFrame]; simp
      · rw [I.hello]; simp
      · exact I.mailto
      · rw [I.toSep]; simp [isTo]
      · simp [isCc]
      · rw [I.bccSep]; simp [isBcc]⟩
  | bcc s =>
    obtain ⟨hn, rfl⟩ := h
    let st' : St := { st with elisp := st.elisp ++ bs " (message-goto-bcc) (insert \"" ++ (st.bccSep ++ escape arg) ++ bs "\")", bccSep := bs ", " }
    have hh : handle st name (escape arg) = some st' := by rcases hn with rfl | rfl <;> rfl
    have hc := I.code (st' := st') (o := .bcc arg) (bs " (message-goto-bcc) (insert \"" ++ (st.bccSep ++ escape arg) ++ bs "\")") (by simp [st'])
      (by rw [I.bccSep]; rw [lex_piece_sep (pre := " (message-goto-bcc) (insert \"") (ts := [.lpar, .sym (bs "message-goto-bcc"), .rpar, .lpar, .sym (bs "insert")]) (by decide +kernel) _ arg]; first | (rw [forms_to, toksL_two, toks_call0, toks_call1]; rfl) | (rw [forms_cc, toksL_two, toks_call0, toks_call1]; rfl) | (rw [forms_bcc, toksL_two, toks_call0, toks_call1]; rfl))
      (by rw [List.append_assoc]; exact ne_nil_bs (by decide)) (by simp [Opt.forms])
    exact ⟨st', hh, by
      constructor <;> first | exact hc.1 | exact hc.2 | skip
      all_goals simp only [st', contains_snoc, List.any_append]
      · rw [I.print]; simp
      · rw [I.noWindow]; simp
      · rw [I.client]; simp
      · rw [I.autoDaemon]; simp
      · rw [I.createFrame]; simp
      · rw [I.hello]; simp
      · exact I.mailto
      · rw [I.toSep]; simp [isTo]
      · rw [I.ccSep]; simp [isCc]
      · simp [isBcc]⟩
  | body s =>
    obtain ⟨hn, rfl⟩ := h
    let st' : St := { st with elisp := st.elisp ++ bs " (message-goto-body) (insert-file \"" ++ escape arg ++ bs "\")" }
    have hh : handle st name (escape arg) = some st' := by rcases hn with rfl | rfl <;> rfl
    have hc := I.code (st' := st') (o := .body arg) (bs " (message-goto-body) (insert-file \"" ++ escape arg ++ bs "\")") (by simp [st'])
      (by rw [lex_piece (pre := " (message-goto-body) (insert-file \"") (ts := [.lpar, .sym (bs "message-goto-body"), .rpar, .lpar, .sym (bs "insert-file")]) (by decide +kernel) arg]; simp [toksL, Opt.forms, call0, call1, Sexp.toks])
      (by rw [List.append_assoc]; exact ne_nil_bs (by decide)) (by simp [Opt.forms])
    exact ⟨st', hh, by
      constructor <;> first | exact hc.1 | exact hc.2 | skip
      all_goals simp only [st', contains_snoc, List.any_append]
      · rw [I.print]; simp
      · rw [I.noWindow]; simp
      · rw [I.client]; simp
      · rw [I.autoDaemon]; simp
      · rw [I.createFrame]; simp
      · rw [I.hello]; simp
      · exact I.mailto
      · rw [I.toSep]; simp [isTo]
      · rw [I.ccSep]; simp [isCc]
      · rw [I.bccSep]; simp [isBcc]⟩
  | print =>
    have hc := flag_code (o := .print) I rfl
    refine ⟨{ st with printOnly := true }, by rw [show name = _ from h]; rfl, ?_⟩
    constructor <;> first | exact hc.1 | exact hc.2 | exact I.mailto | simp [contains_snoc, List.any_append, I.print, I.noWindow, I.client, I.autoDaemon, I.createFrame, I.hello, I.toSep, I.ccSep, I.bccSep, isTo, isCc, isBcc]
  | noWindow =>
    have hc := flag_code (o := .noWindow) I rfl
    refine ⟨{ st with noWindow := true }, by rw [show name = _ from h]; rfl, ?_⟩
    constructor <;> first | exact hc.1 | exact hc.2 | exact I.mailto | simp [contains_snoc, List.any_append, I.print, I.noWindow, I.client, I.autoDaemon, I.createFrame, I.hello, I.toSep, I.ccSep, I.bccSep, isTo, isCc, isBcc]
  | client =>
    have hc := flag_code (o := .client) I rfl
    refine ⟨{ st with client := true }, by rw [show name = _ from h]; rfl, ?_⟩
    constructor <;> first | exact hc.1 | exact hc.2 | exact I.mailto | simp [contains_snoc, List.any_append, I.print, I.noWindow, I.client, I.autoDaemon, I.createFrame, I.hello, I.toSep, I.ccSep, I.bccSep, isTo, isCc, isBcc]
  | autoDaemon =>
    have hc := flag_code (o := .autoDaemon) I rfl
    refine ⟨{ st with autoDaemon := true, createFrame := true }, by rw [show name = _ from h]; rfl, ?_⟩
    constructor <;> first | exact hc.1 | exact hc.2 | exact I.mailto | simp [contains_snoc, List.any_append, I.print, I.noWindow, I.client, I.autoDaemon, I.createFrame, I.hello, I.toSep, I.ccSep, I.bccSep, isTo, isCc, isBcc]
  | createFrame =>
    have hc := flag_code (o := .createFrame) I rfl
    refine ⟨{ st with createFrame := true }, by rw [show name = _ from h]; rfl, ?_⟩
    constructor <;> first | exact hc.1 | exact hc.2 | exact I.mailto | simp [contains_snoc, List.any_append, I.print, I.noWindow, I.client, I.autoDaemon, I.createFrame, I.hello, I.toSep, I.ccSep, I.bccSep, isTo, isCc, isBcc]
  | hello =>
    have hc := flag_code (o := .hello) I rfl
    refine ⟨{ st with hello := true }, by rw [show name = _ from h]; rfl, ?_⟩
    constructor <;> first | exact hc.1 | exact hc.2 | exact I.mailto | simp [contains_snoc, List.any_append, I.print, I.noWindow, I.client, I.autoDaemon, I.createFrame, I.hello, I.toSep, I.ccSep, I.bccSep, isTo, isCc, isBcc]

end Notmuch.Mua
