import Verif.Proofs.ReindexMessage
import Verif.Props.Message

/-!
# C63: reindexing

After `notmuch_message_reindex` the document of a message is what its files say now, with the tags and properties of the user, whatever it was before; doing it again changes
nothing.  `notmuch reindex` does it for all messages of a search or for none.
-/

namespace Notmuch.Props

open Notmuch.Reindex
open Notmuch.Message (World Msg Handle Call Result Holds Conform FileNames nameOf)
open Notmuch.TermList (Sorted valuesWith mem_valuesWith sorted_ext)

/-- The message is still writable. -/
theorem conform_writable {W : World} : ∀ (cs : List Call) (m m' : Msg) (rs : List Result), Conform W m cs rs m' → m'.writable = m.writable := by
  intro cs
  induction cs with
  | nil =>
    intro m m' rs hcf
    cases rs with
    | nil => have : m' = m := hcf
             rw [this]
    | cons r rs => exact absurd hcf id
  | cons c cs ih =>
    intro m m' rs hcf
    cases rs with
    | nil => exact absurd hcf id
    | cons r rs =>
      obtain ⟨m1, h1, h2⟩ := hcf
      rw [ih m1 m' rs h2]
      cases c <;> simp only [Message.Step] at h1 <;> grind

/-- Reindexing the object of a message, whatever was called on it before, when all of its files that can be opened are mails: the message is deleted if and only if no file could be
indexed; otherwise its document has exactly the terms that are wanted, its header values are those of the first file that was indexed, the status is that of the last file,
and the document is stored. -/
theorem C63_terms {W : World} (hW : W.Ok) {T : List Str} {m : Msg} (hm : Holds W T m) (v : Nat) (hw : m.writable = true) (hf : m.frozen = 0) (cs : List Call) (hc : ∀ c ∈ cs, c.Ok W) :
    ∃ h rs m', Message.run W (Message.create true v T m.data) cs = some (h, rs) ∧ Conform W m cs rs m' ∧
      ∀ (files : Str → Option Mail) (noDecrypt : Bool) (l : List Str), FileNames W m' l → (∀ o ∈ opened files l, o.2.Ok W ∧ o.2.Good) →
        ∃ d, reindex W files noDecrypt h = some d ∧
          (d.deleted = true ↔ ∀ o ∈ opened files l, o.2.indexStatus ≠ .success) ∧
          (d.deleted = true → d.ret = .success) ∧
          (d.deleted = false →
            Sorted d.h.terms ∧ (∀ x, x ∈ d.h.terms ↔ Wanted W noDecrypt m' (opened files l) x) ∧
            (∀ o, (opened files l).find? (fun o => o.2.indexStatus = .success) = some o → d.values = some o.1) ∧
            ∀ o, (opened files l).getLast? = some o → d.ret = o.2.indexStatus ∧ (Saved o.2 → d.h.stored = d.h.terms)) := by
  obtain ⟨h, rs, m', e, hcf, i⟩ := Message.Inv.run hW cs (Message.Inv.create true v hm hw hf) hc
  refine ⟨h, rs, m', e, hcf, ?_⟩
  intro files nd l hl hok
  obtain ⟨d, e1, h1, h2, h3⟩ := reindex_spec hW i ((conform_writable cs m m' rs hcf).trans hw) files nd hl hok
  refine ⟨d, e1, h1, h3, ?_⟩
  intro hd
  obtain ⟨o, h4, h5⟩ := h2 hd
  exact ⟨o.sorted, o.mem, h5, h4⟩

/-- What a program reads after it: every sequence of calls on a new object gives what the reindexed message says, and the names of its files are those that can be opened. -/
theorem C63_message {W : World} (hW : W.Ok) {T : List Str} {m : Msg} (hm : Holds W T m) (v : Nat) (hw : m.writable = true) (hf : m.frozen = 0) (cs : List Call) (hc : ∀ c ∈ cs, c.Ok W) :
    ∃ h rs m', Message.run W (Message.create true v T m.data) cs = some (h, rs) ∧ Conform W m cs rs m' ∧
      ∀ (files : Str → Option Mail) (noDecrypt : Bool) (l : List Str) (thread : Str), FileNames W m' l →
        (∀ o ∈ opened files l, o.2.Ok W ∧ o.2.Good ∧ o.2.Plain ∧ Saved o.2 ∧ nameOf W o.2.entry o.1 ∧ o.2.thread.getD m'.thread = thread) →
        (∃ o ∈ opened files l, o.2.indexStatus = .success) →
        ∃ d, reindex W files noDecrypt h = some d ∧ d.deleted = false ∧
          Holds W d.h.stored (after noDecrypt m' (opened files l) thread) ∧
          (∀ l', FileNames W (after noDecrypt m' (opened files l) thread) l' → ∀ f, f ∈ l' ↔ f ∈ l ∧ files f ≠ none) ∧
          ∀ (v' : Nat) (cs' : List Call), (∀ c ∈ cs', c.Ok W) → ∃ h' rs' m'', Message.run W (Message.create true v' d.h.stored m'.data) cs' = some (h', rs') ∧
            Conform W { after noDecrypt m' (opened files l) thread with frozen := 0 } cs' rs' m'' := by
  obtain ⟨h, rs, m', e, hcf, i⟩ := Message.Inv.run hW cs (Message.Inv.create true v hm hw hf) hc
  refine ⟨h, rs, m', e, hcf, ?_⟩
  intro files nd l t hl hok hs
  have hw' := (conform_writable cs m m' rs hcf).trans hw
  obtain ⟨d, e1, h1, h2, _⟩ := reindex_spec hW i hw' files nd hl (fun o h => ⟨(hok o h).1, (hok o h).2.1⟩)
  obtain ⟨o1, ho1, hs1⟩ := hs
  have hne : opened files l ≠ [] := by intro h; rw [h] at ho1; cases ho1
  have hd : d.deleted = false := by
    cases hd : d.deleted with
    | false => rfl
    | true => exact absurd hs1 (h1.1 hd o1 ho1)
  obtain ⟨ob, h4, _⟩ := h2 hd
  have hst : d.h.stored = d.h.terms := by
    have hl' := List.getLast?_eq_some_getLast hne
    exact (h4 _ hl').2 (hok _ (List.getLast_mem hne)).2.2.2.1
  have hh : Holds W d.h.stored (after nd m' (opened files l) t) := by
    rw [hst]
    exact wanted_holds hW i.holds (fun o h => (hok o h).1) (fun o h => (hok o h).2.2.1) (fun o h => (hok o h).2.2.2.2.2) hne ob.sorted ob.mem
  refine ⟨d, e1, hd, hh, ?_, ?_⟩
  · intro l' hl' f
    rw [fileNames_after (fun o h => (hok o h).2.2.2.2.1) hne hl']
    unfold opened
    simp only [List.mem_filterMap, Option.map_eq_some_iff]
    constructor
    · rintro ⟨o, ⟨g, hg, mm, hmm, rfl⟩, rfl⟩; exact ⟨hg, by rw [hmm]; simp⟩
    · rintro ⟨hf, hn⟩
      cases hff : files f with
      | none => exact absurd hff hn
      | some mm => exact ⟨(f, mm), ⟨f, hf, mm, hff, rfl⟩, rfl⟩
  · intro v' cs' hc'
    have hh0 : Holds W d.h.stored { after nd m' (opened files l) t with frozen := 0 } := ⟨hh.1, hh.2, hh.3, hh.4, hh.5, hh.6, hh.7, hh.8, hh.9, hh.10⟩
    obtain ⟨h', rs', m'', e', c', _⟩ := Message.Inv.run hW cs' (Message.Inv.create true v' hh0 hw' rfl) hc'
    exact ⟨h', rs', m'', e', c'⟩

/-- Reindexing again changes nothing. -/
theorem C63_twice {W : World} (hW : W.Ok) {T : List Str} {m : Msg} (hm : Holds W T m) (v v' : Nat) (hw : m.writable = true) (hf : m.frozen = 0) (files : Str → Option Mail) (noDecrypt : Bool)
    (l : List Str) (thread : Str) (hl : FileNames W m l)
    (hok : ∀ o ∈ opened files l, o.2.Ok W ∧ o.2.Good ∧ o.2.Plain ∧ Saved o.2 ∧ nameOf W o.2.entry o.1 ∧ o.2.thread.getD m.thread = thread)
    (hs : ∃ o ∈ opened files l, o.2.indexStatus = .success) :
    ∃ d d', reindex W files noDecrypt (Message.create true v T m.data) = some d ∧ d.deleted = false ∧
      reindex W files noDecrypt (Message.create true v' d.h.stored m.data) = some d' ∧ d'.deleted = false ∧ d'.h.stored = d.h.stored := by
  obtain ⟨o1, ho1, hs1⟩ := hs
  have hne : ∀ {l : List (Str × Mail)} {o : Str × Mail}, o ∈ l → l ≠ [] := by intro l o ho h; rw [h] at ho; cases ho
  obtain ⟨d, e1, h1, h2, _⟩ := reindex_spec hW (Message.Inv.create true v hm hw hf) hw files noDecrypt hl (fun o h => ⟨(hok o h).1, (hok o h).2.1⟩)
  have hd : d.deleted = false := by
    cases hd : d.deleted with
    | false => rfl
    | true => exact absurd hs1 (h1.1 hd o1 ho1)
  obtain ⟨ob, h4, _⟩ := h2 hd
  have hst : d.h.stored = d.h.terms := (h4 _ (List.getLast?_eq_some_getLast (hne ho1))).2 (hok _ (List.getLast_mem (hne ho1))).2.2.2.1
  have hh : Holds W d.h.stored (after noDecrypt m (opened files l) thread) := by
    rw [hst]
    exact wanted_holds hW hm (fun o h => (hok o h).1) (fun o h => (hok o h).2.2.1) (fun o h => (hok o h).2.2.2.2.2) (hne ho1) ob.sorted ob.mem
  have hi := Message.Inv.create true v' hh hw hf
  obtain ⟨_, l', _, _, _, hl', _⟩ := hi.getFilenames hW
  have hfn := fileNames_after (fun o h => (hok o h).2.2.2.2.1) (hne ho1) hl'
  have hos : ∀ o, o ∈ opened files l' ↔ o ∈ opened files l := by
    intro o
    have hmem : ∀ l, o ∈ opened files l ↔ o.1 ∈ l ∧ files o.1 = some o.2 := by
      intro l
      unfold opened
      simp only [List.mem_filterMap, Option.map_eq_some_iff]
      constructor
      · rintro ⟨g, hg, mm, hmm, rfl⟩; exact ⟨hg, hmm⟩
      · rintro ⟨hg, hmm⟩; exact ⟨o.1, hg, o.2, hmm, rfl⟩
    constructor
    · intro ho
      obtain ⟨o', ho', he⟩ := (hfn o.1).1 ((hmem l').1 ho).1
      refine (hmem l).2 ⟨?_, ((hmem l').1 ho).2⟩
      rw [← he]
      unfold opened at ho'
      simp only [List.mem_filterMap, Option.map_eq_some_iff] at ho'
      obtain ⟨g, hg, mm, hmm, rfl⟩ := ho'
      exact hg
    · intro ho
      exact (hmem l').2 ⟨(hfn o.1).2 ⟨o, ho, rfl⟩, ((hmem l).1 ho).2⟩
  obtain ⟨d', e1', h1', h2', _⟩ := reindex_spec hW hi hw files noDecrypt hl' (fun o h => ⟨(hok o ((hos o).1 h)).1, (hok o ((hos o).1 h)).2.1⟩)
  have ho1' := (hos o1).2 ho1
  have hd' : d'.deleted = false := by
    cases hd : d'.deleted with
    | false => rfl
    | true => exact absurd hs1 (h1'.1 hd o1 ho1')
  obtain ⟨ob', h4', _⟩ := h2' hd'
  have hst' : d'.h.stored = d'.h.terms := (h4' _ (List.getLast?_eq_some_getLast (hne ho1'))).2 (hok _ ((hos _).1 (List.getLast_mem (hne ho1')))).2.2.2.1
  refine ⟨d, d', e1, hd, e1', hd', ?_⟩
  rw [hst', hst]
  refine sorted_ext ob'.sorted ob.sorted (fun x => ?_)
  rw [ob'.mem, ob.mem]
  exact wanted_again (fun o h => (hok o h).1) (fun o h => (hok o h).2.2.2.2.2) hos x

/-- A read-only database: the document stays. -/
theorem C63_readonly {W : World} (hW : W.Ok) {T : List Str} {m : Msg} (hm : Holds W T m) (v : Nat) (hw : m.writable = false) (hf : m.frozen = 0) (files : Str → Option Mail) (noDecrypt : Bool) :
    ∃ d, reindex W files noDecrypt (Message.create false v T m.data) = some d ∧ d.ret = .readOnly ∧ d.deleted = false ∧ d.h.stored = T := by
  obtain ⟨h1, e1, i1⟩ := (Message.Inv.create false v hm hw hf).getThreadId hW
  have hw1 : h1.writable = false := i1.writable.trans hw
  exact ⟨⟨h1, none, false, .readOnly⟩, by unfold reindex; simp only [e1, hw1, if_true], rfl, rfl, (i1.readOnly hw1).2⟩

/-! ## The command -/

/-- The database after the first `n` messages. -/
def reindexed {D : Type} (step : Nat → D → D × Bool) : Nat → D → D
  | 0, d => d
  | n + 1, d => (step n (reindexed step n d)).1

theorem cmdLoop_from {D : Type} (step : Nat → D → D × Bool) (interrupted : Nat → Bool) (d : D) : ∀ (n i : Nat) (ok : Bool),
    ∃ k ≤ n, (∀ j, i ≤ j → j < i + k → interrupted j = false ∧ (step j (reindexed step j d)).2 = true) ∧
      ((cmdLoop step interrupted ok i n (reindexed step i d) = (reindexed step (i + k) d, if k = 0 then ok else true) ∧ (k = n ∨ interrupted (i + k) = true)) ∨
       (k < n ∧ interrupted (i + k) = false ∧ (step (i + k) (reindexed step (i + k) d)).2 = false ∧ (cmdLoop step interrupted ok i n (reindexed step i d)).2 = false))
  | 0, i, ok => ⟨0, Nat.le_refl _, fun j h1 h2 => by omega, .inl ⟨rfl, .inl rfl⟩⟩
  | n + 1, i, ok => by
    cases hi : interrupted i with
    | true => exact ⟨0, by omega, fun j h1 h2 => by omega, .inl ⟨by simp [cmdLoop, hi], .inr hi⟩⟩
    | false =>
      cases hs : (step i (reindexed step i d)).2 with
      | false => exact ⟨0, by omega, fun j h1 h2 => by omega, .inr ⟨by omega, hi, hs, by simp [cmdLoop, hi, hs]⟩⟩
      | true =>
        obtain ⟨k, hk, hb, hc⟩ := cmdLoop_from step interrupted d n (i + 1) true
        have e : cmdLoop step interrupted ok i (n + 1) (reindexed step i d) = cmdLoop step interrupted true (i + 1) n (reindexed step (i + 1) d) := by
          show (if interrupted i = true then _ else _) = _
          rw [if_neg (by simp [hi]), if_pos hs]; rfl
        have ei : i + 1 + k = i + (k + 1) := by omega
        rw [ei] at hb hc
        refine ⟨k + 1, by omega, ?_, ?_⟩
        · intro j h1 h2
          by_cases hj : j = i
          · subst hj; exact ⟨hi, hs⟩
          · exact hb j (by omega) h2
        · rw [e]
          rcases hc with ⟨h1, h2⟩ | ⟨h1, h2, h3, h4⟩
          · left
            refine ⟨by rw [h1]; simp, ?_⟩
            rcases h2 with h2 | h2
            · left; omega
            · right; exact h2
          · right; exact ⟨by omega, h2, h3, h4⟩

/-- The exit status 0 means that each message of the search was reindexed and that all of it is in the database. -/
theorem C63_command_success {D : Type} (step : Nat → D → D × Bool) (interrupted : Nat → Bool) (begin ending stop : Bool) (n : Nat) (d : D) (hstop : ∀ i, interrupted i = true → stop = true)
    (h : (reindexQuery step interrupted begin ending stop n d).2 = true) :
    (reindexQuery step interrupted begin ending stop n d).1 = reindexed step n d ∧ ∀ i < n, (step i (reindexed step i d)).2 = true := by
  obtain ⟨k, hk, hb, hc⟩ := cmdLoop_from step interrupted d n 0 begin
  simp only [Nat.zero_add] at hb hc
  unfold reindexQuery at h ⊢
  simp only [show reindexed step 0 d = d from rfl] at h hc ⊢
  rcases hc with ⟨h1, h2⟩ | ⟨_, _, _, h4⟩
  · rw [h1] at h ⊢
    simp only at h ⊢
    by_cases hr : (if k = 0 then begin else true) = true
    · rw [if_pos hr] at h ⊢
      cases begin with
      | false => simp at h
      | true =>
        simp only [if_true, Bool.and_eq_true, Bool.not_eq_true'] at h ⊢
        rcases h2 with h2 | h2
        · subst h2
          exact ⟨by simp [h.1], fun i hi => (hb i (by omega) hi).2⟩
        · rw [hstop k h2] at h; simp at h
    · rw [if_neg hr] at h; simp at h
  · rw [h4] at h; simp at h

/-- If the atomic section could be begun and one message could not be reindexed, or the section could not be ended, the database stays as it was. -/
theorem C63_command_failure {D : Type} (step : Nat → D → D × Bool) (interrupted : Nat → Bool) (ending stop : Bool) (n : Nat) (d : D)
    (h : ending = false ∨ ∃ i < n, (step i (reindexed step i d)).2 = false ∧ ∀ j ≤ i, interrupted j = false) :
    reindexQuery step interrupted true ending stop n d = (d, false) := by
  obtain ⟨k, hk, hb, hc⟩ := cmdLoop_from step interrupted d n 0 true
  simp only [Nat.zero_add, show reindexed step 0 d = d from rfl] at hb hc
  unfold reindexQuery
  simp only [if_true]
  rcases h with rfl | ⟨i, hi, hf, hni⟩
  · split
    · simp
    · rfl
  · have hki : k ≤ i := by
      apply Classical.byContradiction
      intro h
      have := (hb i (by omega) (by omega)).2
      rw [hf] at this; cases this
    rcases hc with ⟨h1, h2⟩ | ⟨_, _, _, h4⟩
    · rcases h2 with h2 | h2
      · omega
      · rw [hni k hki] at h2; cases h2
    · rw [h4]; simp

/-- If there was a SIGINT and all messages before it were reindexed, these stay reindexed, and the exit status is not 0. -/
theorem C63_command_interrupted {D : Type} (step : Nat → D → D × Bool) (interrupted : Nat → Bool) (n : Nat) (d : D) (k : Nat) (hk : k < n) (hint : interrupted k = true)
    (hbefore : ∀ j < k, interrupted j = false ∧ (step j (reindexed step j d)).2 = true) :
    reindexQuery step interrupted true true true n d = (reindexed step k d, false) := by
  obtain ⟨k', hk', hb, hc⟩ := cmdLoop_from step interrupted d n 0 true
  simp only [Nat.zero_add, show reindexed step 0 d = d from rfl] at hb hc
  have hle : k' ≤ k := by
    apply Classical.byContradiction
    intro h
    have := (hb k (by omega) (by omega)).1
    rw [hint] at this; cases this
  have hge : k ≤ k' := by
    apply Classical.byContradiction
    intro h
    have hk'' := hbefore k' (by omega)
    rcases hc with ⟨_, h2 | h2⟩ | ⟨_, _, h3, _⟩
    · omega
    · rw [hk''.1] at h2; cases h2
    · rw [hk''.2] at h3; cases h3
  have hkk : k' = k := by omega
  subst hkk
  unfold reindexQuery
  rcases hc with ⟨h1, _⟩ | ⟨_, h2, _, _⟩
  · simp [h1]
  · rw [hint] at h2; cases h2

/-! ## A message -/

/-- A mail with an attachment, a reference and a part that was decrypted; the words before the property and the tag after it. -/
def exMail : Mail where
  headers := .success
  entry := bs "2:f:2,S"
  links := [(bs "reference", bs "r@x")]
  linkStatus := .success
  thread := none
  index := [.text (bs "hello"), .text (bs "world"), .prop (bs "index.decryption") (bs "success"), .term (bs "tag") (bs "attachment")]
  indexStatus := .success

/-- The file system. -/
def exFiles (f : Str) : Option Mail := if f = bs "/m/a/cur/f:2,S" then some exMail else none

theorem exFileNames : FileNames exMsgWorld exMsg [bs "/m/a/cur/f:2,S"] := by
  refine ⟨[bs "2:f:2,S"], List.pairwise_singleton _ _, fun e => by simp [exMsg], .inr ⟨by simp, rfl, ?_⟩⟩
  intro i e f h1 h2
  cases i with
  | zero =>
    simp only [List.getElem?_cons_zero, Option.some.injEq] at h1 h2
    subst h1; subst h2
    exact ⟨2, bs "f:2,S", bs "a/cur", by decide +kernel, by decide +kernel, by decide +kernel⟩
  | succ i => simp at h1

theorem exMail_name : nameOf exMsgWorld exMail.entry (bs "/m/a/cur/f:2,S") := ⟨2, bs "f:2,S", bs "a/cur", by decide +kernel, by decide +kernel, by decide +kernel⟩

theorem exMail_ok : exMail.Ok exMsgWorld where
  entry := by decide +kernel
  dir := ⟨_, exMail_name⟩
  thread := by intro t h; cases h
  terms := by
    intro n v h
    simp only [exMail, List.mem_cons, List.not_mem_nil, or_false, reduceCtorEq, false_or, Add.term.injEq] at h
    obtain ⟨rfl, rfl⟩ := h
    decide +kernel
  props := by
    intro n v h
    simp only [exMail, List.mem_cons, List.not_mem_nil, or_false, reduceCtorEq, false_or, Add.prop.injEq] at h
    obtain ⟨rfl, rfl⟩ := h
    decide +kernel

theorem exMail_good : exMail.Good := ⟨rfl, rfl, .inl rfl⟩

theorem exMail_plain : exMail.Plain where
  links := by
    intro l hl p hp
    simp only [exMail, List.mem_singleton] at hl
    subst hl
    have : ∀ p ∈ reserved, p.isPrefixOf (Message.prefixOf (bs "reference") ++ bs "r@x") = false := by decide +kernel
    intro h
    have h2 := this p hp
    rw [List.isPrefixOf_iff_prefix.2 h] at h2; cases h2
  index := by
    intro a ha
    simp only [exMail, List.mem_cons, List.not_mem_nil, or_false] at ha
    rcases ha with rfl | rfl | rfl | rfl
    · refine ⟨by decide +kernel, fun p hp h => ?_⟩
      have : ∀ p ∈ reserved, p.isPrefixOf (bs "hello") = false := by decide +kernel
      have h2 := this p hp
      rw [List.isPrefixOf_iff_prefix.2 h] at h2; cases h2
    · refine ⟨by decide +kernel, fun p hp h => ?_⟩
      have : ∀ p ∈ reserved, p.isPrefixOf (bs "world") = false := by decide +kernel
      have h2 := this p hp
      rw [List.isPrefixOf_iff_prefix.2 h] at h2; cases h2
    · trivial
    · exact .inl rfl

theorem exMail_saved : Saved exMail := by
  rintro ⟨w, h⟩
  simp [exMail] at h

theorem exOpened : opened exFiles [bs "/m/a/cur/f:2,S"] = [(bs "/m/a/cur/f:2,S", exMail)] := by
  unfold opened exFiles
  simp

/-- The hypotheses of `C63_terms`, `C63_message` and `C63_twice` can be met. -/
example : ∃ d d', reindex exMsgWorld exFiles true (Message.create true 3 exMsgTerms exMsg.data) = some d ∧ d.deleted = false ∧
    reindex exMsgWorld exFiles true (Message.create true 3 d.h.stored exMsg.data) = some d' ∧ d'.deleted = false ∧ d'.h.stored = d.h.stored := by
  refine C63_twice exMsgWorld_ok exMsg_holds 3 3 rfl rfl exFiles true _ (bs "t1") exFileNames ?_ ?_
  · intro o ho
    rw [exOpened, List.mem_singleton] at ho
    subst ho
    exact ⟨exMail_ok, exMail_good, exMail_plain, exMail_saved, exMail_name, rfl⟩
  · exact ⟨_, by rw [exOpened]; exact List.mem_singleton_self _, rfl⟩

/-- What is stored in the example. -/
example : (reindex exMsgWorld exFiles true (Message.create true 3 exMsgTerms exMsg.data)).map (·.h.stored) =
    some [bs "Gt1", bs "Kattachment", bs "Kinbox", bs "Kunread", bs "Pa/cur", bs "Qid@x", bs "Tmail", bs "XFDIRENTRY2:f:2,S", bs "XFOLDER:a/cur",
      bs "XPROPERTYindex.decryption=success", bs "XPROPERTYk=v", bs "XPROPERTYk=w", bs "XREFERENCEr@x", bs "hello", bs "world"] := by decide +kernel

/-- The command: three messages, of which the third fails. -/
example : reindexQuery (fun i (d : List Nat) => (i :: d, i ≠ 2)) (fun _ => false) true true false 3 [] = ([], false) ∧
    reindexQuery (fun i (d : List Nat) => (i :: d, i ≠ 2)) (fun _ => false) true true false 2 [] = ([1, 0], true) ∧
    reindexQuery (fun i (d : List Nat) => (i :: d, i ≠ 2)) (fun i => i = 1) true true true 3 [] = ([0], false) := by decide

/-! ## What does not hold -/

/-- Words that are found after a property is set are not stored if nothing after them marks the message: `notmuch_message_add_property` writes the document, and
`_notmuch_message_gen_terms` does not mark it. -/
theorem C63_words_lost :
    (reindex exMsgWorld (fun f => (exFiles f).map (fun m => { m with index := [.prop (bs "index.decryption") (bs "success"), .text (bs "footer")] })) true
      (Message.create true 3 exMsgTerms exMsg.data)).map (fun d => (d.ret, d.deleted, decide (bs "footer" ∈ d.h.terms), decide (bs "footer" ∈ d.h.stored))) = some (.success, false, true, false) := by
  decide +kernel

/-- If the headers of a file cannot be read, the document that is stored has no file and no thread. -/
theorem C63_headers_fail :
    (reindex exMsgWorld (fun f => (exFiles f).map (fun m => { m with headers := .fileNotEmail })) true (Message.create true 3 exMsgTerms exMsg.data)).map
      (fun d => (d.ret, d.deleted, valuesWith (bs "XFDIRENTRY") d.h.stored, valuesWith (bs "G") d.h.stored)) = some (.fileNotEmail, false, [], []) := by decide +kernel

/-- If two files of a message belong to two threads, the message has two threads. -/
theorem C63_two_threads :
    (reindex exMsgWorld (fun f => if f = bs "/m/f" then some { exMail with entry := bs "1:f", thread := some (bs "t2") } else if f = bs "/m/x/g" then some { exMail with entry := bs "3:g" } else none)
      false (Message.create true 3 [bs "Gt1", bs "Qid@x", bs "Tmail", bs "XFDIRENTRY1:f", bs "XFDIRENTRY3:g"] [])).map
      (fun d => (d.ret, valuesWith (bs "G") d.h.stored)) = some (.success, [bs "t1", bs "t2"]) := by decide +kernel

/-- The status is that of the last file: it can be an error although the message was reindexed and stored, and then `notmuch reindex` gives up all. -/
theorem C63_last_status :
    (reindex exMsgWorld (fun f => if f = bs "/m/f" then some { exMail with entry := bs "1:f" } else if f = bs "/m/x/g" then some { exMail with entry := bs "3:g", indexStatus := .fileError } else none)
      false (Message.create true 3 [bs "Gt1", bs "Qid@x", bs "Tmail", bs "XFDIRENTRY1:f", bs "XFDIRENTRY3:g"] [])).map
      (fun d => (d.ret, d.deleted, d.values, decide (bs "hello" ∈ d.h.stored))) = some (.fileError, false, some (bs "/m/f"), true) := by decide +kernel

/-- If the names of the files cannot be read, the message is deleted, although its file could be read. -/
theorem C63_exception_deletes :
    (reindex exMsgWorld (fun _ => some exMail) false (Message.create true 3 [bs "Gt1", bs "Kinbox", bs "Qid@x", bs "Tmail", bs "XFDIRENTRY9:f"] [])).map (fun d => (d.ret, d.deleted)) =
      some (.success, true) := by decide +kernel

/-- The object itself still has the automatic tag that the document lost. -/
theorem C63_stale_tag :
    (reindex exMsgWorld (fun f => (exFiles f).map (fun m => { m with index := [] })) false
      (Message.create true 3 [bs "Gt1", bs "Ksigned", bs "Qid@x", bs "Tmail", bs "XFDIRENTRY2:f:2,S"] [])).bind
      (fun d => (Message.getTags exMsgWorld d.h).map (fun r => (r.2, valuesWith (bs "K") d.h.stored))) = some ([bs "signed"], []) := by decide +kernel

/-- If the atomic section cannot be begun, that is forgotten, and a failure leaves the messages before it changed. -/
theorem C63_begin_forgotten : reindexQuery (fun i (d : List Nat) => (i :: d, i ≠ 1)) (fun _ => false) false true false 3 [] = ([1, 0], false) := by decide

end Notmuch.Props
