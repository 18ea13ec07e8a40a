import Verif.Spec.AddFile

/-! # The headers and the hash of a file -/

namespace Notmuch.AddFile

open Notmuch.StringUtil (strcaseEqual)

theorem case_iff (a b : Str) : strcaseEqual a b = true ↔ SameName a b := by unfold strcaseEqual SameName; exact beq_iff_eq
theorem case_eq (a b : Str) : strcaseEqual a b = decide (SameName a b) := by rw [Bool.eq_iff_iff, case_iff, decide_eq_true_iff]

theorem SameName.symm {a b : Str} (h : SameName a b) : SameName b a := Eq.symm h
theorem SameName.trans {a b c : Str} (h : SameName a b) (h' : SameName b c) : SameName a c := Eq.trans h h'
theorem SameName.congr {a b : Str} (h : SameName a b) (c : Str) : SameName a c ↔ SameName b c := ⟨fun k => h.symm.trans k, fun k => h.trans k⟩
theorem SameName.congr' {a b : Str} (h : SameName a b) (c : Str) : SameName c a ↔ SameName c b := ⟨fun k => k.trans h, fun k => k.trans h.symm⟩

theorem isMbox_iff (f : File) : isMbox f = true ↔ bs "From " <+: f.start := by
  unfold isMbox
  rw [beq_iff_eq, List.prefix_iff_eq_take, show (bs "From ").length = 5 by decide]
  exact eq_comm

theorem text_congr {dec : Str → Str} {p : Parsed} {a b : Str} (h : SameName a b) : text dec p a = text dec p b := by
  unfold text valuesOf
  simp only [h.congr, h.congr']

theorem parse_opened_mail {f : File} {p : Parsed} (h : IsMail f p) : parse (opened f) = (.success, ⟨f, some p, []⟩) := by
  unfold parse opened
  rcases h with ⟨h1, h2, h3⟩ | ⟨h1, h2⟩
  · simp only [(isMbox_iff f).2 h1, h2, h3]; rfl
  · have : isMbox f = false := by rw [Bool.eq_false_iff, ne_eq, isMbox_iff]; exact h1
    simp only [this, h2]; rfl

theorem parse_opened_none {f : File} (h : ∀ p, ¬ IsMail f p) : parse (opened f) = (.fileNotEmail, opened f) := by
  unfold parse opened
  simp only
  cases hb : isMbox f with
  | true =>
    cases hg : f.gmime true with
    | none => rfl
    | some p =>
      have : p.eos = false := by
        rw [Bool.eq_false_iff]; intro he
        exact h p (.inl ⟨(isMbox_iff f).1 hb, hg, he⟩)
      simp [this]
  | false =>
    cases hg : f.gmime false with
    | none => rfl
    | some p =>
      exfalso
      refine h p (.inr ⟨?_, hg⟩)
      rw [← isMbox_iff, hb]; simp

theorem foldl_extend {decode : Str → Option Str} {dec : Str → Str} (hd : ∀ v, decode v = some (dec v)) (name : Str) :
    ∀ (l : List (Str × Str)) (c : Option Str),
      (l.foldl (fun c h => if strcaseEqual h.1 name then extendHeader decode c h.2 else c) c) =
        (match c, (l.filter (fun h => SameName h.1 name)).map (fun h => dec h.2) with
          | c, [] => c
          | none, vs => some (spaced vs)
          | some s, vs => some (s ++ bs " " ++ spaced vs))
  | [], c => by cases c <;> rfl
  | h :: l, c => by
    rw [List.foldl_cons, case_eq]
    by_cases hn : SameName h.1 name
    · simp only [hn, decide_true, if_true, List.filter_cons, List.map_cons]
      rw [foldl_extend hd name l]
      unfold extendHeader
      rw [hd]
      cases c with
      | none =>
        simp only
        generalize (List.map (fun h => dec h.2) (List.filter (fun h => decide (SameName h.1 name)) l)) = vs
        cases vs <;> rfl
      | some s =>
        simp only
        generalize (List.map (fun h => dec h.2) (List.filter (fun h => decide (SameName h.1 name)) l)) = vs
        cases vs <;> simp [spaced]
    · simp only [hn, decide_false, Bool.false_eq_true, if_false, List.filter_cons]
      rw [foldl_extend hd name l]

theorem fresh_eq {decode : Str → Option Str} {dec : Str → Str} (hd : ∀ v, decode v = some (dec v)) (p : Parsed) (name : Str) :
    freshHeader decode p name = some (text dec p name) := by
  unfold freshHeader text
  simp only [case_eq]
  by_cases h : SameName name (bs "received") ∨ SameName name (bs "delivered-to")
  · rw [if_pos h, if_pos (by simpa using h)]
    unfold combinedHeader
    rw [foldl_extend hd]
    unfold valuesOf
    generalize (List.map (fun h => dec h.2) (List.filter (fun h => decide (SameName h.1 name)) p.headers)) = vs
    cases vs <;> simp [spaced]
  · rw [if_neg h, if_neg (by simpa using h)]
    unfold valuesOf
    rw [List.headD_eq_head?_getD, List.head?_map, List.head?_filter]
    cases hf : p.headers.find? (fun h => decide (SameName h.1 name)) with
    | none => rfl
    | some x => simp [hd]

/-- The state of a file that is mail. -/
structure Asked (dec : Str → Str) (f : File) (p : Parsed) (m : MsgFile) : Prop where
  file : m.file = f
  parsed : m.parsed = some p
  cache : ∀ e ∈ m.cache, e.2 = text dec p e.1

theorem asked_parse {dec : Str → Str} {f : File} {p : Parsed} {m : MsgFile} (h : Asked dec f p m) : parse m = (.success, m) := by
  unfold parse; rw [h.parsed]

theorem asked_getHeader {decode : Str → Option Str} {dec : Str → Str} (hd : ∀ v, decode v = some (dec v)) {f : File} {p : Parsed} {m : MsgFile}
    (h : Asked dec f p m) (name : Str) : (getHeader decode name m).1 = some (text dec p name) ∧ Asked dec f p (getHeader decode name m).2 := by
  unfold getHeader
  rw [asked_parse h]
  simp only
  cases hc : m.cache.find? (fun e => strcaseEqual e.1 name) with
  | some e =>
    refine ⟨?_, h⟩
    have h1 := List.find?_some hc
    have h2 := List.mem_of_find?_eq_some hc
    rw [case_iff] at h1
    simp only
    rw [h.cache e h2, text_congr h1]
  | none =>
    simp only [h.parsed, fresh_eq hd]
    refine ⟨trivial, h.file, rfl, ?_⟩
    intro e he
    rcases List.mem_cons.1 he with rfl | he
    · rfl
    · exact h.cache e he

theorem opened_getHeader {decode : Str → Option Str} {dec : Str → Str} (hd : ∀ v, decode v = some (dec v)) {f : File} {p : Parsed}
    (h : IsMail f p) (name : Str) : (getHeader decode name (opened f)).1 = some (text dec p name) ∧ Asked dec f p (getHeader decode name (opened f)).2 := by
  have ha : Asked dec f p ⟨f, some p, []⟩ := ⟨rfl, rfl, by simp⟩
  have := asked_getHeader hd ha name
  unfold getHeader at *
  rw [parse_opened_mail h]
  rw [asked_parse ha] at this
  exact this

theorem asked_ask {decode : Str → Option Str} {dec : Str → Str} (hd : ∀ v, decode v = some (dec v)) {f : File} {p : Parsed} :
    ∀ (ns : List Str) {m : MsgFile}, Asked dec f p m → Asked dec f p (ask decode ns m)
  | [], _, h => h
  | n :: ns, _, h => asked_ask hd ns (asked_getHeader hd h n).2

theorem ask_header {decode : Str → Option Str} {dec : Str → Str} (hd : ∀ v, decode v = some (dec v)) {f : File} {p : Parsed}
    (h : IsMail f p) (ns : List Str) (name : Str) : (getHeader decode name (ask decode ns (opened f))).1 = some (text dec p name) := by
  cases ns with
  | nil => exact (opened_getHeader hd h name).1
  | cons n ns => exact (asked_getHeader hd (asked_ask hd ns (opened_getHeader hd h n).2) name).1

theorem getHeader_none {decode : Str → Option Str} {f : File} (h : ∀ p, ¬ IsMail f p) (name : Str) :
    getHeader decode name (opened f) = (none, opened f) := by
  unfold getHeader; rw [parse_opened_none h]

theorem ask_none {decode : Str → Option Str} {f : File} (h : ∀ p, ¬ IsMail f p) (ns : List Str) : ask decode ns (opened f) = opened f := by
  induction ns with
  | nil => rfl
  | cons n ns ih => show ask decode ns (getHeader decode n (opened f)).2 = _; rw [getHeader_none h]; exact ih

theorem readAll_reads {rs : List Read} {s : Str} (h : Reads rs s) : readAll rs = some s := by
  induction h with
  | eof => rfl
  | @data b s rs h ih =>
    unfold readAll
    split
    · rename_i hb; rw [List.isEmpty_iff] at hb; rw [hb, ih]; rfl
    · rw [ih]; rfl
  | again h ih => unfold readAll; exact ih

theorem readAll_fails {rs : List Read} (h : Fails rs) : readAll rs = none := by
  induction h with
  | error => rfl
  | @data b rs h ih =>
    unfold readAll
    split
    · exact ih
    · rw [ih]; rfl
  | again h ih => unfold readAll; exact ih

theorem noText_some (s : Str) : noText (some s) = decide (s = []) := by
  unfold noText; rw [Bool.eq_iff_iff]; simp

theorem text_lower (dec : Str → Str) (p : Parsed) : text dec p (bs "from") = text dec p (bs "From") ∧ text dec p (bs "subject") = text dec p (bs "Subject") ∧
    text dec p (bs "to") = text dec p (bs "To") ∧ text dec p (bs "date") = text dec p (bs "Date") ∧ text dec p (bs "message-id") = text dec p (bs "Message-ID") ∧
    text dec p (bs "references") = text dec p (bs "References") ∧ text dec p (bs "in-reply-to") = text dec p (bs "In-Reply-To") := by
  refine ⟨?_, ?_, ?_, ?_, ?_, ?_, ?_⟩ <;> exact text_congr (by decide +kernel)

/-- The headers of a file that is mail. -/
theorem getHeaders_mail {decode : Str → Option Str} {dec : Str → Str} {digest : Str → Str} (hd : ∀ v, decode v = some (dec v)) {f : File} {p : Parsed} (h : IsMail f p) :
    ∃ m, Asked dec f p m ∧ getHeaders decode digest (opened f) =
      (if Addressed dec p then
        (match MessageId.messageId (some (text dec p (bs "Message-ID"))) (sha1OfFile digest f) with
        | none => none
        | some none => some (.fileError, none, m)
        | some (some id) => some (.success, some ⟨some (text dec p (bs "From")), some (text dec p (bs "Subject")), some (text dec p (bs "To")), some (text dec p (bs "Date")), id⟩, m))
      else some (.fileNotEmail, none, m)) := by
  obtain ⟨e1, e2, e3, e4, e5, _, _⟩ := text_lower dec p
  have a0 : Asked dec f p ⟨f, some p, []⟩ := ⟨rfl, rfl, by simp⟩
  obtain ⟨g1, a1⟩ := asked_getHeader hd a0 (bs "from")
  obtain ⟨g2, a2⟩ := asked_getHeader hd a1 (bs "subject")
  obtain ⟨g3, a3⟩ := asked_getHeader hd a2 (bs "to")
  obtain ⟨g4, a4⟩ := asked_getHeader hd a3 (bs "date")
  obtain ⟨g5, a5⟩ := asked_getHeader hd a4 (bs "message-id")
  have hA : Addressed dec p ↔ ¬ (text dec p (bs "From") = [] ∧ text dec p (bs "Subject") = [] ∧ text dec p (bs "To") = []) := by
    unfold Addressed
    simp only [List.mem_cons, List.not_mem_nil, or_false]
    constructor
    · rintro ⟨n, rfl | rfl | rfl, h⟩ ⟨h1, h2, h3⟩
      · exact h h1
      · exact h h2
      · exact h h3
    · intro h
      by_cases h1 : text dec p (bs "From") = []
      · by_cases h2 : text dec p (bs "Subject") = []
        · exact ⟨bs "To", by simp, fun h3 => h ⟨h1, h2, h3⟩⟩
        · exact ⟨bs "Subject", by simp, h2⟩
      · exact ⟨bs "From", by simp, h1⟩
  by_cases hadd : Addressed dec p
  · refine ⟨_, a5, ?_⟩
    unfold getHeaders
    rw [parse_opened_mail h]
    simp only [g1, g2, g3, g4, g5, a5.file]
    rw [e1, e2, e3, e4, e5, noText_some, noText_some, noText_some, if_pos hadd, if_neg (by rw [hA] at hadd; simpa [and_assoc] using hadd)]
    rcases MessageId.messageId _ _ with _ | _ | _ <;> rfl
  · refine ⟨_, a4, ?_⟩
    unfold getHeaders
    rw [parse_opened_mail h]
    simp only [g1, g2, g3, g4, g5, a5.file]
    rw [e1, e2, e3, e4, noText_some, noText_some, noText_some, if_neg hadd, if_pos (by rw [hA, Classical.not_not] at hadd; simpa [and_assoc] using hadd)]

end Notmuch.AddFile
