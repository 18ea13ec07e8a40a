import Verif.Proofs.MessageId

/-!
# C26: message ids in headers

Strings contain no NUL.
-/

namespace Notmuch.Props
open Notmuch.MessageId Notmuch.MessageIdSpec

/-- C26: parsing never reads or writes outside a string and ends; the rest of the text is shorter; an id found is made of
bytes of the text in order, is not empty, contains no `>` and starts with neither whitespace nor `(`. -/
theorem C26_parse_sane (t : Str) (h0 : 0 ∉ t) (ht : t ≠ []) :
    ∃ i next, parse (some t) = some (i, some next) ∧ next <:+ t ∧ next.length < t.length ∧
      ∀ v, i = some v → v.Sublist t ∧ v ≠ [] ∧ 62 ∉ v ∧ ∀ c, v.head? = some c → isSpace c = false ∧ c ≠ 40 := by
  obtain ⟨i, n, e, h1, h2, h3⟩ := parse_any t h0 ht
  refine ⟨i, n, e, h1, h2, fun v hv => ?_⟩
  obtain ⟨a, b, c, r, rfl, d, f⟩ := h3 v hv
  exact ⟨a, by simp, b, fun x hx => by obtain rfl : c = x := by simpa using hx
                                       exact ⟨d, f⟩⟩

/-- C26: the first id of a text is found exactly, after whitespace, comments and other text. -/
theorem C26_parse_exact (pre blank id rest : Str) (hp : Before pre) (hb : Blank blank) (hi : PlainId id) (hr : 0 ∉ rest) :
    parse (some (pre ++ [60] ++ blank ++ id ++ [62] ++ rest)) = some (some id, some rest) := by
  obtain ⟨h1, h2, h3⟩ := hi
  rw [parse_at pre blank id rest hp hb (fun c hc => ⟨(h2 c hc).1, (h2 c hc).2.1⟩) ?_ hr, if_pos h1, coll_plain]
  · intro c hc
    have := (h2 c hc).2.2
    constructor <;> rintro rfl <;> revert this <;> decide
  · intro c hc
    refine ⟨(h2 c (List.mem_of_mem_head? hc)).2.2, ?_⟩
    rintro rfl
    exact h3 hc

/-- C26: single blanks inside an id are dropped. -/
theorem C26_parse_blanks (pre blank id rest : Str) (hp : Before pre) (hb : Blank blank) (h2 : 2 ≤ id.length)
    (hi : ∀ c ∈ id, c ≠ 0 ∧ c ≠ 62) (hh : ∀ c, id.head? = some c → isSpace c = false ∧ c ≠ 40) (hs : SingleBlanks id) (hr : 0 ∉ rest) :
    parse (some (pre ++ [60] ++ blank ++ id ++ [62] ++ rest)) = some (some (id.filter (fun c => c ≠ 32 ∧ c ≠ 9)), some rest) := by
  rw [parse_at pre blank id rest hp hb hi hh hr, if_pos h2, coll_single _ _ (Nat.le_refl _) hs]

/-- C26: the references of a header are exactly its ids, in order and without the message's own; the last is returned. -/
theorem C26_references (mid : Str) (ids : List (Str × Str)) (tail : Str) (hids : ∀ p ∈ ids, Before p.1 ∧ PlainId p.2) (htail : Before tail) :
    ∃ refs, refs = ids.flatMap (fun p : Str × Str => p.1 ++ [60] ++ p.2 ++ [62]) ++ tail ∧
      parseReferences mid (some refs) [] =
        some ((ids.map (·.2)).filter (· ≠ mid), ((ids.map (·.2)).filter (· ≠ mid)).getLast?) := by
  refine ⟨_, rfl, ?_⟩
  have before0 : ∀ {p : Str}, Before p → 0 ∉ p := by
    rintro p ⟨b, o, rfl, hb, ho, _⟩
    simp only [List.mem_append, not_or]
    exact ⟨hb.no_nul, fun h => (ho 0 h).2 rfl⟩
  have htail0 := before0 htail
  have hno : ∀ (ids : List (Str × Str)), (∀ p ∈ ids, Before p.1 ∧ PlainId p.2) → 0 ∉ ids.flatMap (fun p : Str × Str => p.1 ++ [60] ++ p.2 ++ [62]) ++ tail := by
    intro ids hids
    simp only [List.mem_append, List.mem_flatMap, not_or]
    refine ⟨?_, htail0⟩
    rintro ⟨p, hp, h⟩
    have := hids p hp
    simp at h
    rcases h with h | h
    · exact before0 this.1 h
    · exact (this.2.2.1 0 h).1 rfl
  have hlast : ∀ (fuel : Nat) (h : List Str) (l : Option Str), tail.length < fuel → referencesLoop mid fuel tail h l = some (h, l) := by
    obtain ⟨b, o, rfl, hb, ho, hh⟩ := htail
    intro fuel h l hf
    obtain ⟨f, rfl⟩ : ∃ f, fuel = f + 1 := ⟨fuel - 1, by omega⟩
    by_cases hn : b ++ o = []
    · rw [hn]; simp [referencesLoop, deref]
    · have hd : deref (b ++ o) ≠ 0 := fun h => hn ((deref_zero htail0).1 h)
      have e1 := skip_blank hb o hh (fun h => (ho 0 h).2 rfl) ((b ++ o).length + 1) (by omega)
      have e2 : o.dropWhile (fun c => decide (c ≠ 0 ∧ c ≠ 60)) = [] := by
        apply dropWhile_all
        intro c hc
        have := ho c hc
        simp [this]
      have hp : parse (some (b ++ o)) = some (none, some []) := by
        unfold parse
        simp only [if_neg hd, e1]
        rw [e2]
        simp [deref]
      rw [referencesLoop, if_pos hd, hp]
      simp only [Option.getD_some]
      cases f with
      | zero =>
        have : (b ++ o).length = 0 := by omega
        exact absurd (List.length_eq_zero_iff.1 this) hn
      | succ f => simp [referencesLoop, deref]
  have main : ∀ (ids : List (Str × Str)), (∀ p ∈ ids, Before p.1 ∧ PlainId p.2) → ∀ (fuel : Nat) (h : List Str) (l : Option Str),
      (ids.flatMap (fun p : Str × Str => p.1 ++ [60] ++ p.2 ++ [62]) ++ tail).length < fuel →
      referencesLoop mid fuel (ids.flatMap (fun p : Str × Str => p.1 ++ [60] ++ p.2 ++ [62]) ++ tail) h l =
        some (h ++ (ids.map (·.2)).filter (· ≠ mid), ((ids.map (·.2)).filter (· ≠ mid)).getLast?.or l) := by
    intro ids
    induction ids with
    | nil => intro _ fuel h l hf; simpa using hlast fuel h l (by simpa using hf)
    | cons p ids ih =>
      intro hids fuel h l hf
      have h0 := hno (p :: ids) hids
      have h0' := hno ids (fun q hq => hids q (by simp [hq]))
      have hpp := hids p (by simp)
      obtain ⟨f, rfl⟩ : ∃ f, fuel = f + 1 := ⟨fuel - 1, by omega⟩
      have hne : (p :: ids).flatMap (fun p : Str × Str => p.1 ++ [60] ++ p.2 ++ [62]) ++ tail ≠ [] := by simp
      have hd : deref ((p :: ids).flatMap (fun p : Str × Str => p.1 ++ [60] ++ p.2 ++ [62]) ++ tail) ≠ 0 := fun h => hne ((deref_zero h0).1 h)
      have e : (p :: ids).flatMap (fun p : Str × Str => p.1 ++ [60] ++ p.2 ++ [62]) ++ tail =
          p.1 ++ [60] ++ [] ++ p.2 ++ [62] ++ (ids.flatMap (fun p : Str × Str => p.1 ++ [60] ++ p.2 ++ [62]) ++ tail) := by simp
      have hp := C26_parse_exact p.1 [] p.2 _ hpp.1 .nil hpp.2 h0'
      rw [← e] at hp
      have hf' : (ids.flatMap (fun p : Str × Str => p.1 ++ [60] ++ p.2 ++ [62]) ++ tail).length < f := by
        rw [e] at hf
        simp only [List.length_append, List.length_cons, List.length_nil] at hf ⊢
        omega
      rw [referencesLoop, if_pos hd, hp]
      simp only [Option.getD_some]
      by_cases hm : p.2 = mid
      · rw [if_neg (by simpa using hm), ih (fun q hq => hids q (by simp [hq])) f h l hf']
        simp [hm]
      · rw [if_pos hm, ih (fun q hq => hids q (by simp [hq])) f (h ++ [p.2]) (some p.2) hf']
        simp only [List.map_cons]
        rw [List.filter_cons_of_pos (by simpa using hm)]
        simp only [List.append_assoc, List.singleton_append, Option.some.injEq, Prod.mk.injEq, true_and]
        cases hx : (ids.map (·.2)).filter (· ≠ mid) with
        | nil => simp
        | cons x xs =>
          rw [List.getLast?_cons_cons]
          cases hg : (x :: xs).getLast? with
          | none => simp at hg
          | some y => rfl
  unfold parseReferences
  simp only
  have h0 := hno ids hids
  split
  · rename_i hd
    rw [deref_zero h0] at hd
    have : ids = [] := by
      cases ids with
      | nil => rfl
      | cons p ids => simp at hd
    subst this
    simp
  · rw [main ids hids _ [] none (by omega)]
    simp

/-- C26: whatever the headers are, parsing them ends without reading or writing outside a string, the message is not one of
its own references, and these are not empty and contain no `>`. -/
theorem C26_parents_total (mid : Str) (refs inReplyTo : Option Str) (h1 : ∀ t, refs = some t → 0 ∉ t) (h2 : ∀ t, inReplyTo = some t → 0 ∉ t) :
    ∃ hs parent, parents mid refs inReplyTo = some (hs, parent) ∧ mid ∉ hs ∧ ∀ v ∈ hs, v ≠ [] ∧ 62 ∉ v := by
  have key : ∀ (r : Option Str), (∀ t, r = some t → 0 ∉ t) → ∀ h, ∃ new last, parseReferences mid r h = some (h ++ new, last) ∧ mid ∉ new ∧ ∀ v ∈ new, v ≠ [] ∧ 62 ∉ v := by
    intro r hr h
    unfold parseReferences
    cases r with
    | none => exact ⟨[], none, by simp, by simp, by simp⟩
    | some t =>
      simp only
      split
      · exact ⟨[], none, by simp, by simp, by simp⟩
      · obtain ⟨new, a, b, c⟩ := referencesLoop_total mid t.length t (t.length + 1) h none (Nat.le_refl _) (hr t rfl) (by omega)
        refine ⟨new, _, a, b, fun v hv => ?_⟩
        obtain ⟨_, d, x, y, rfl, _⟩ := c v hv
        exact ⟨by simp, d⟩
  obtain ⟨n1, l1, a1, b1, c1⟩ := key refs h1 []
  obtain ⟨n2, l2, a2, b2, c2⟩ := key inReplyTo h2 ([] ++ n1)
  unfold parents
  rw [a1]
  simp only
  rw [a2]
  simp only
  refine ⟨_, _, rfl, ?_, ?_⟩
  · simp; exact ⟨b1, b2⟩
  · intro v hv
    simp at hv
    rcases hv with hv | hv
    · exact c1 v hv
    · exact c2 v hv

/-- C26: the strict form accepts one id in angle brackets with whitespace around it, and nothing else. -/
theorem C26_strict (t id : Str) (h0 : 0 ∉ t) :
    parseStrict (some t) = some id ↔ ∃ ws ws', t = ws ++ [60] ++ id ++ [62] ++ ws' ∧ (∀ c ∈ ws, isSpace c = true) ∧ (∀ c ∈ ws', isSpace c = true) ∧
      ∀ c ∈ id, c ≠ 62 ∧ isSpace c = false := by
  have hskip : ∀ (l : Str), ∃ ws, l = ws ++ skipSpace l ∧ ∀ c ∈ ws, isSpace c = true := by
    intro l
    exact ⟨l.takeWhile isSpace, List.takeWhile_append_dropWhile.symm, fun c hc => List.all_eq_true.1 List.all_takeWhile _ hc⟩
  constructor
  · intro h
    unfold parseStrict at h
    simp only at h
    split at h
    · simp at h
    by_cases hd : deref (skipSpace t) = 60
    case neg => rw [if_neg hd] at h; simp at h
    rw [if_pos hd] at h
    obtain ⟨ws, e1, hws⟩ := hskip t
    cases hs : skipSpace t with
    | nil => rw [hs] at hd; simp [deref] at hd
    | cons c s =>
      rw [hs] at hd h e1
      have hc : c = 60 := hd
      subst hc
      have hs0 : 0 ∉ s := fun hm => h0 (by rw [e1]; simp [hm])
      simp only [List.drop_succ_cons, List.drop_zero] at h
      split at h
      · simp at h
      rename_i hany
      split at h
      · simp at h
      rename_i h62
      split at h
      · simp at h
      rename_i hend
      simp only [ne_eq, Decidable.not_not] at h62 hend
      obtain rfl := Option.some.inj h
      generalize hin : s.takeWhile (fun c => decide (c ≠ 0 ∧ c ≠ 62)) = inner at *
      have hsplit : s = inner ++ s.drop inner.length := by
        have := List.takeWhile_append_dropWhile (p := fun c : UInt8 => decide (c ≠ 0 ∧ c ≠ 62)) (l := s)
        rw [hin] at this
        conv => lhs; rw [← this]
        congr 1
        conv => rhs; rw [← this]
        simp
      cases hdr : s.drop inner.length with
      | nil => rw [hdr] at h62; simp [deref] at h62
      | cons d rest =>
        rw [hdr] at h62 hend hsplit
        have hd62 : d = 62 := h62
        subst hd62
        simp only [List.drop_succ_cons, List.drop_zero] at hend
        obtain ⟨ws', e2, hws'⟩ := hskip rest
        have hr0 : 0 ∉ skipSpace rest := by
          intro hm
          apply hs0
          rw [hsplit, e2]
          simp [hm]
        rw [(deref_zero hr0).1 hend, List.append_nil] at e2
        refine ⟨ws, rest, ?_, hws, ?_, ?_⟩
        · rw [e1, hsplit]; simp
        · rw [e2]; exact hws'
        · intro c hc
          constructor
          · have := List.all_eq_true.1 (List.all_takeWhile (p := fun c : UInt8 => decide (c ≠ 0 ∧ c ≠ 62)) (l := s)) c (hin ▸ hc)
            simp at this
            exact this.2
          · simp at hany
            exact hany c hc
  · rintro ⟨ws, ws', rfl, h1, h2, h3⟩
    have hd : deref (ws ++ [60] ++ id ++ [62] ++ ws') ≠ 0 := by
      intro h
      rw [deref_zero h0] at h
      simp at h
    have hsk : skipSpace (ws ++ [60] ++ id ++ [62] ++ ws') = 60 :: (id ++ 62 :: ws') := by
      have : ws ++ [60] ++ id ++ [62] ++ ws' = ws ++ 60 :: (id ++ 62 :: ws') := by simp
      rw [this]
      unfold skipSpace
      rw [List.dropWhile_append_of_pos h1]
      have : isSpace 60 = false := by decide
      simp [this]
    have htw : (id ++ 62 :: ws').takeWhile (fun c => decide (c ≠ 0 ∧ c ≠ 62)) = id := by
      rw [List.takeWhile_append_of_pos]
      · simp
      · intro c hc
        have : c ≠ 0 := by
          rintro rfl
          exact h0 (by simp [hc])
        simp [this, (h3 c hc).1]
    have hsk2 : skipSpace ws' = [] := by
      unfold skipSpace
      exact dropWhile_all h2
    unfold parseStrict
    simp only [if_neg hd, hsk]
    rw [if_pos (show deref (60 :: (id ++ 62 :: ws')) = 60 from rfl)]
    simp only [List.drop_succ_cons, List.drop_zero]
    rw [htw, if_neg (by simp; exact fun c hc => (h3 c hc).2)]
    have hdr : (id ++ 62 :: ws').drop id.length = 62 :: ws' := by simp
    rw [hdr, if_neg (by simp [deref]), List.drop_succ_cons, List.drop_zero, hsk2, if_neg (by simp [deref])]

/-- C26: the parent recorded for a message. -/
theorem C26_parent (mid : Str) (refs inReplyTo : Option Str) (hs : List Str) (parent : Option Str) (h : parents mid refs inReplyTo = some (hs, parent)) :
    (∀ i, parseStrict inReplyTo = some i → parent = some i) ∧
    (parseStrict inReplyTo = none → ∀ r1 last, parseReferences mid refs [] = some (r1, some last) → parent = some last) ∧
    (parseStrict inReplyTo = none → ∀ r1 r2 last, parseReferences mid refs [] = some (r1, none) → parseReferences mid inReplyTo r1 = some (r2, last) → parent = last) := by
  unfold parents at h
  cases e1 : parseReferences mid refs [] with
  | none => rw [e1] at h; simp at h
  | some p =>
    obtain ⟨r1, l1⟩ := p
    rw [e1] at h
    simp only at h
    cases e2 : parseReferences mid inReplyTo r1 with
    | none => rw [e2] at h; simp at h
    | some q =>
      obtain ⟨r2, l2⟩ := q
      rw [e2] at h
      simp only [Option.some.injEq, Prod.mk.injEq] at h
      obtain ⟨rfl, rfl⟩ := h
      refine ⟨?_, ?_, ?_⟩
      · intro i hi; simp [hi]
      · intro hn r last hr
        simp only [Option.some.injEq, Prod.mk.injEq] at hr
        simp [hn, hr.2]
      · intro hn r r' last hr hr'
        simp only [Option.some.injEq, Prod.mk.injEq] at hr
        obtain ⟨rfl, rfl⟩ := hr
        rw [e2] at hr'
        simp only [Option.some.injEq, Prod.mk.injEq] at hr'
        simp [hn, hr'.2]

/-- C26: every message gets an id that is not empty. -/
theorem C26_message_id (header sha1 : Option Str) (h0 : ∀ t, header = some t → 0 ∉ t) :
    ∃ i, messageId header sha1 = some i ∧ (sha1 ≠ none → ∃ v, i = some v) ∧ ∀ v, i = some v → v ≠ [] := by
  have hsha : ∀ v, sha1.map (fun s => bs "notmuch-sha1-" ++ s) = some v → v ≠ [] := by
    intro v hv
    cases sha1 with
    | none => simp at hv
    | some s => simp at hv; rw [← hv]; simp [bs]
  have hsha2 : sha1 ≠ none → ∃ v, sha1.map (fun s => bs "notmuch-sha1-" ++ s) = some v := by
    intro h
    cases sha1 with
    | none => simp at h
    | some s => exact ⟨_, rfl⟩
  unfold messageId
  cases header with
  | none => exact ⟨_, rfl, hsha2, hsha⟩
  | some t =>
    simp only
    by_cases hd : deref t ≠ 0
    · rw [if_pos hd]
      have ht : t ≠ [] := by rintro rfl; simp [deref] at hd
      obtain ⟨i, n, e, _, _, h3⟩ := C26_parse_sane t (h0 t rfl) ht
      rw [e]
      cases i with
      | none => exact ⟨some t, rfl, fun _ => ⟨t, rfl⟩, fun v hv => by obtain rfl := Option.some.inj hv; exact ht⟩
      | some v => exact ⟨some v, rfl, fun _ => ⟨v, rfl⟩, fun u hu => (h3 u hu).2.1⟩
    · rw [if_neg hd]
      exact ⟨_, rfl, hsha2, hsha⟩

/-- A message can be recorded as its own parent. -/
theorem C26_own_parent_counterexample : parents (bs "a@b") none (some (bs "<a@b>")) = some ([], some (bs "a@b")) := by decide +kernel

/-- Ids of one byte are not found among the references, yet are taken as the parent; and such a message has another id. -/
theorem C26_one_byte_counterexample :
    parents (bs "x@y") (some (bs "<a>")) (some (bs "<a>")) = some ([], some (bs "a")) ∧ messageId (some (bs "<a>")) none = some (some (bs "<a>")) := by
  decide +kernel

/-- Of two blanks next to each other only one is dropped. -/
theorem C26_blanks_counterexample : parse (some (bs "<a  b>")) = some (some (bs "a b"), some []) := by decide +kernel

/-- With several ids in In-Reply-To and no references, the parent is the last of them (lib/add-message.cc:250 says the first). -/
theorem C26_in_reply_to_counterexample :
    parents (bs "x@y") none (some (bs "<a@b> <c@d>")) = some ([bs "a@b", bs "c@d"], some (bs "c@d")) := by decide +kernel

example : PlainId (bs "a@b") := by unfold PlainId; decide +kernel
example : Before (bs " (a (b\\) c)) x") :=
  ⟨bs " (a (b\\) c)) ", bs "x", rfl,
   .space (by decide) (.comment (s := bs "a (b\\) c)") (t := bs " ")
     (.plain (by decide) (by decide) (by decide) (by decide) (.plain (by decide) (by decide) (by decide) (by decide)
       (.nested (s := bs "b\\) c") (t := []) (.plain (by decide) (by decide) (by decide) (by decide) (.escaped (by decide)
         (.plain (by decide) (by decide) (by decide) (by decide) (.plain (by decide) (by decide) (by decide) (by decide) .nil)))) .nil)))
     (.space (by decide) .nil)), by decide +kernel, by decide +kernel⟩
example : parse (some (bs " (a (b\\) c)) x<a@b>, <c@d>")) = some (some (bs "a@b"), some (bs ", <c@d>")) := by decide +kernel

end Notmuch.Props
