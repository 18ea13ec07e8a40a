import Verif.Proofs.MessageCalls
import Verif.Proofs.MessageQuiet

/-!
# C62: what a program reads through a message object

The object of a message remembers what it read.  Whatever a program calls, in whatever order, and however often the database is reopened, each call answers what the message
is: what it was when the object was made, with the changes that were made through the object since.
-/

namespace Notmuch.Props

open Notmuch.Message
open Notmuch.TermList (Sorted SortsTags valuesWith mem_valuesWith)
open Notmuch.StringMap (Pair Map cmppair)

/-- Every sequence of calls on the object of a message gives what the message says; in the end the document of the object says what the message says, nothing but what was
asked for was changed, it is stored unless the object is frozen, and nothing is stored if the database is read-only. -/
theorem C62_reads {W : Message.World} (hW : W.Ok) {T : List Str} {m : Msg} (hm : Holds W T m) (w : Bool) (v : Nat) (hw : m.writable = w) (hf : m.frozen = 0) (cs : List Call)
    (hc : ∀ c ∈ cs, c.Ok W) :
    ∃ h rs m', Message.run W (Message.create w v T m.data) cs = some (h, rs) ∧ Conform W m cs rs m' ∧ Holds W h.terms m' ∧
      (m'.frozen = 0 → h.stored = h.terms) ∧ (w = false → h.stored = T) ∧
      ∀ x, (∀ p ∈ [bs "K", bs "XPROPERTY", bs "XFDIRENTRY", bs "XFOLDER:", bs "P"], ¬ p <+: x) → (x ∈ h.terms ↔ x ∈ T) := by
  obtain ⟨h, rs, m', e, hcf, i⟩ := Inv.run hW cs (Inv.create w v hm hw hf) hc
  refine ⟨h, rs, m', e, hcf, i.holds, ?_, ?_, i.other⟩
  · intro h0; exact i.thawed (i.frozen.trans h0)
  · rintro rfl
    have : ∀ (cs : List Call) (m m' : Msg) (rs : List Result), Conform W m cs rs m' → m'.writable = m.writable := by
      intro cs
      induction cs with
      | nil =>
        intro m m' rs hcf
        cases rs with
        | nil => have : m' = m := hcf
                 rw [this]
        | cons r rs => exact absurd hcf id
      | cons c cs ih =>
        intro m m' rs hcf
        cases rs with
        | nil => exact absurd hcf id
        | cons r rs =>
          obtain ⟨m1, h1, h2⟩ := hcf
          rw [ih m1 m' rs h2]
          cases c <;> simp only [Step] at h1 <;> grind
    exact (i.readOnly (i.writable.trans ((this cs m m' rs hcf).trans hw))).2

/-- As long as an object is frozen nothing is stored, except that a file that was renamed is. -/
theorem C62_frozen (W : Message.World) : ∀ (cs : List Call) (h h' : Handle) (rs : List Result), h.frozen ≠ 0 → (∀ c ∈ cs, c ≠ .thaw ∧ ∀ o n, c ≠ .moveFile o n) →
    Message.run W h cs = some (h', rs) → h'.stored = h.stored
  | [], h, h', rs, _, _, e => by cases e; rfl
  | c :: cs, h, h', rs, hf, hc, e => by
    unfold Message.run at e
    split at e
    · cases e
    · rename_i h1 r e1
      split at e
      · cases e
      · rename_i h2 rs' e2
        cases e
        have := hc c (by simp)
        obtain ⟨q1, q2⟩ := quiet_call hf (by cases c <;> simp_all) e1
        exact (C62_frozen W cs h1 _ rs' q2 (fun c h => hc c (by simp [h])) e2).trans q1

/-! ## A message -/

/-- `_notmuch_string_list_sort` for the examples. -/
def exSortTags (l : List Str) : List Str := (exSort (l.map (fun t => (t, [])))).map (·.1)

/-- The hypothesis on the sorting of tags can be met. -/
theorem exSortTags_sorts : SortsTags exSortTags where
  perm := by
    intro l
    have := (exSort_qsort.perm (l.map (fun t => (t, [])))).map (·.1)
    rw [List.map_map] at this
    simpa [exSortTags, Function.comp_def] using this
  sorted := by
    intro l
    unfold exSortTags
    rw [List.pairwise_map]
    refine (exSort_qsort.sorted _).imp ?_
    intro a b h h'
    apply h
    unfold StringMap.cmppair
    rw [h']

/-- A maildir below `/m` and another directory. -/
def exMsgWorld : Message.World where
  sortTags := exSortTags
  qs := exSort
  root := bs "/m"
  dir := fun i => if i = 1 then some [] else if i = 2 then some (bs "a/cur") else if i = 3 then some (bs "x") else none
  folder := id
  paths := fun d => [d]

theorem exMsgWorld_ok : exMsgWorld.Ok where
  sortTags := exSortTags_sorts
  qs := exSort_qsort
  folder := by
    intro i d h
    simp only [exMsgWorld] at h ⊢
    split at h
    · cases h; decide
    · split at h
      · cases h; decide +kernel
      · split at h
        · cases h; decide +kernel
        · cases h
  paths := by
    intro i d h p hp
    simp only [exMsgWorld, List.mem_singleton] at h hp
    subst hp
    split at h
    · cases h; decide
    · split at h
      · cases h; decide +kernel
      · split at h
        · cases h; decide +kernel
        · cases h

/-- The document of a message with two tags, two properties and a file with the flag `S`. -/
def exMsgTerms : List Str :=
  [bs "Gt1", bs "Kinbox", bs "Kunread", bs "Pa/cur", bs "Qid@x", bs "Tmail", bs "XFDIRENTRY2:f:2,S", bs "XFOLDER:a/cur", bs "XPROPERTYk=v", bs "XPROPERTYk=w", bs "hello"]

/-- The message. -/
def exMsg : Msg where
  id := bs "id@x"
  thread := bs "t1"
  data := []
  ghost := false
  tags := fun t => t ∈ [bs "inbox", bs "unread"]
  props := fun k v => k = bs "k" ∧ v ∈ [bs "v", bs "w"]
  files := fun e => e = bs "2:f:2,S"
  writable := true
  frozen := 0

theorem exMsg_holds : Holds exMsgWorld exMsgTerms exMsg where
  sorted := by unfold TermList.Sorted; decide +kernel
  short := by decide +kernel
  id := by decide +kernel
  thread := by decide +kernel
  type := by decide +kernel
  tags := by
    intro t
    rw [← mem_valuesWith, show valuesWith (bs "K") exMsgTerms = [bs "inbox", bs "unread"] by decide +kernel]
    exact Iff.rfl
  propKeys := by
    rintro k v ⟨rfl, _⟩; decide +kernel
  props := by
    intro s
    rw [← mem_valuesWith, show valuesWith (bs "XPROPERTY") exMsgTerms = [bs "k=v", bs "k=w"] by decide +kernel]
    simp only [exMsg, List.mem_cons, List.not_mem_nil, or_false]
    constructor
    · rintro (rfl | rfl)
      · exact ⟨_, _, ⟨rfl, .inl rfl⟩, by decide +kernel⟩
      · exact ⟨_, _, ⟨rfl, .inr rfl⟩, by decide +kernel⟩
    · rintro ⟨k, v, ⟨rfl, rfl | rfl⟩, rfl⟩
      · left; decide +kernel
      · right; decide +kernel
  files := by
    intro e
    rw [← mem_valuesWith, show valuesWith (bs "XFDIRENTRY") exMsgTerms = [bs "2:f:2,S"] by decide +kernel, List.mem_singleton]
    exact Iff.rfl
  dirs := by
    rintro e rfl
    exact ⟨_, 2, bs "f:2,S", bs "a/cur", by decide +kernel, rfl, rfl⟩

/-- A program. -/
def exMsgCalls : List Call :=
  [.tags, .property (bs "k"), .freeze, .addTag (bs "new"), .tags, .removeProperty (bs "k") (bs "v"), .property (bs "k"), .flagsToTags, .tags, .thaw,
   .moveFile (bs "2:f:2,S") (bs "2:f:2,SF"), .filename, .reopen, .maildirFlag 70, .flagsToTags, .tags, .countFiles]

/-- The hypotheses hold of it. -/
example : ∀ c ∈ exMsgCalls, c.Ok exMsgWorld := by
  intro c hc
  simp only [exMsgCalls, List.mem_cons, List.not_mem_nil, or_false] at hc
  rcases hc with rfl | rfl | rfl | rfl | rfl | rfl | rfl | rfl | rfl | rfl | rfl | rfl | rfl | rfl | rfl | rfl | rfl <;> try exact trivial
  · show _ ≤ _; decide +kernel
  · exact ⟨by decide +kernel, by decide +kernel, _, 2, bs "f:2,SF", bs "a/cur", by decide +kernel, rfl, rfl⟩

/-- What it reads. -/
def exMsgRead : List Result → List (List Str)
  | [] => []
  | .texts l :: rs => l :: exMsgRead rs
  | .text s :: rs => [s] :: exMsgRead rs
  | .value v :: rs => v.toList :: exMsgRead rs
  | .bool b :: rs => [if b then bs "yes" else bs "no"] :: exMsgRead rs
  | .number n :: rs => [dec n] :: exMsgRead rs
  | _ :: rs => exMsgRead rs

example : (Message.run exMsgWorld (Message.create true 1 exMsgTerms []) exMsgCalls).map (fun r => exMsgRead r.2) =
    some [[bs "inbox", bs "unread"], [bs "v"], [bs "inbox", bs "new", bs "unread"], [bs "w"], [bs "inbox", bs "new"], [bs "/m/a/cur/f:2,SF"], [bs "yes"],
      [bs "flagged", bs "inbox", bs "new"], [bs "1"]] := by decide +kernel

/-! ## What does not hold -/

/-- A message whose second file is in a directory that cannot be read. -/
def exMsgLost : List Str := [bs "Gt1", bs "Qid@x", bs "Tmail", bs "XFDIRENTRY2:f", bs "XFDIRENTRY4:g"]

/-- If the directory of a file cannot be read, the first attempt to read the files fails, and the next one says that the files before it are all. -/
theorem C62_partial_files_counterexample :
    (Message.run exMsgWorld (Message.create false 1 exMsgLost []) [.countFiles, .countFiles, .filenames]).map (·.2) =
      some [.null, .number 1, .texts [bs "/m/a/cur/f"]] := by rfl

/-- If it is the directory of the only file, the first attempt fails and the second one ends the process. -/
theorem C62_partial_files_abort_counterexample :
    (Message.run exMsgWorld (Message.create false 1 [bs "Gt1", bs "Qid@x", bs "Tmail", bs "XFDIRENTRY4:g"] []) [.filename]).map (·.2) = some [.null] ∧
    (Message.run exMsgWorld (Message.create false 1 [bs "Gt1", bs "Qid@x", bs "Tmail", bs "XFDIRENTRY4:g"] []) [.filename, .filename]) = none := by
  refine ⟨rfl, rfl⟩

/-- A flag that was read stays after the file was moved out of the maildir. -/
theorem C62_stale_flag_counterexample :
    (Message.run exMsgWorld (Message.create true 1 exMsgTerms []) [.maildirFlag 83, .moveFile (bs "2:f:2,S") (bs "3:f"), .filename, .maildirFlag 83]).map (fun r => exMsgRead r.2) =
      some [[bs "yes"], [bs "/m/x/f"], [bs "yes"]] ∧
    (Message.run exMsgWorld (Message.create true 1 exMsgTerms []) [.moveFile (bs "2:f:2,S") (bs "3:f"), .filename, .maildirFlag 83]).map (fun r => exMsgRead r.2) =
      some [[bs "/m/x/f"], [bs "no"]] := by refine ⟨?_, ?_⟩ <;> decide +kernel

/-- Two objects of one message: what is changed through the first is lost when something is changed through the second. -/
theorem C62_two_objects_counterexample :
    ∃ h1 h2, (Message.run exMsgWorld (Message.create true 1 exMsgTerms []) [.addTag (bs "one")]).map (·.1) = some h1 ∧ bs "Kone" ∈ h1.stored ∧
      (Message.run exMsgWorld { Message.create true 1 exMsgTerms [] with stored := h1.stored } [.addTag (bs "two"), .tags]).map (·.1) = some h2 ∧ bs "Kone" ∉ h2.stored := by
  refine ⟨_, _, rfl, ?_, rfl, ?_⟩ <;> decide +kernel

/-- Renaming a file stores all that was changed, although the object is frozen. -/
theorem C62_move_frozen_counterexample :
    ∃ h, (Message.run exMsgWorld (Message.create true 1 exMsgTerms []) [.freeze, .addTag (bs "one"), .moveFile (bs "2:f:2,S") (bs "2:f:2,")]).map (·.1) = some h ∧
      h.frozen = 1 ∧ bs "Kone" ∈ h.stored := by
  refine ⟨_, rfl, rfl, ?_⟩; decide +kernel

end Notmuch.Props
