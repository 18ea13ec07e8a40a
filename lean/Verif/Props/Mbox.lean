import Verif.Proofs.Mbox

/-! # C45: reading lines, and `notmuch show --format=mbox` -/

namespace Notmuch.Props

open Notmuch.Mbox
open Notmuch.DumpRestore (splitLines)

/-- **C45 (lines).**  For every text without zero bytes, the lines that are read from a file with it, through a buffer of whatever size (at least 2), are the
lines of the text: nothing is lost, joined or cut, however long a line is. -/
theorem C45_lines (len : Option Nat) (hlen : ∀ n, len = some n → 2 ≤ n) (s : Str) (h0 : 0 ∉ s) (fuel : Nat) (hf : s.length < fuel) :
    allLines false fuel len s = some (splitLines s) ∧ (splitLines s).flatten = s :=
  ⟨allLines_spec fuel len s hlen h0 hf, splitLines_flatten s⟩

/-- **C45 (mbox).**  For every list of messages whose files can be read and have no zero bytes, whatever their text, `notmuch show --format=mbox` ends, and
from its output an mboxrd reader gets exactly these messages: the same number, in the same order, each with the line `From sender date` before it
and with the bytes of its file; lines of the text that look like `From ` lines separate nothing. -/
theorem C45_mbox (ms : List Mail) (h : ∀ m ∈ ms, Ok m) (fuel : Nat) (hf : ∀ m ∈ ms, m.file.rest.length < fuel) :
    ∃ s, mbox fuel ms = some s ∧ readMbox s = ms.map (fun m => (fromLine m, m.file.rest)) := by
  obtain ⟨s, e, _, hr⟩ := mbox_spec fuel ms (fun m hm => ⟨h m hm, hf m hm⟩)
  exact ⟨s, e, hr⟩

/-- **C45 (injective).**  Two lists of such messages with the same output have the same texts. -/
theorem C45_injective (ms ms' : List Mail) (h : ∀ m ∈ ms, Ok m) (h' : ∀ m ∈ ms', Ok m) (fuel fuel' : Nat)
    (hf : ∀ m ∈ ms, m.file.rest.length < fuel) (hf' : ∀ m ∈ ms', m.file.rest.length < fuel') (e : mbox fuel ms = mbox fuel' ms') :
    ms.map (fun m => m.file.rest) = ms'.map (fun m => m.file.rest) := by
  obtain ⟨s, e1, r1⟩ := C45_mbox ms h fuel hf
  obtain ⟨s', e2, r2⟩ := C45_mbox ms' h' fuel' hf'
  have : s = s' := Option.some.inj (e1.symm.trans (e.trans e2))
  subst this
  have := congrArg (List.map Prod.snd) (r1.symm.trans r2)
  simpa [List.map_map, Function.comp_def] using this

/-- **C45 (damaged files), a counterexample.**  When reading a message's file fails, however far into it, the command never ends: no number of steps
suffices. -/
theorem C45_counterexample_damaged (m : Mail) (h : m.file.bad = true) (fuel : Nat) : formatMbox fuel m = none := by
  unfold formatMbox
  rw [h, mboxLoop_bad fuel none [] m.file.rest (fun n hn => by cases hn)]
  rfl

/-- **C45 (zero bytes), counterexamples.**  With a zero byte the rest of its line is lost and the next line joined to it; if it is the first byte, the byte before
the buffer is read. -/
theorem C45_counterexample_zero :
    allLines false 20 none ([97, 0, 98, 10] ++ [99, 10]) = some [[97, 99, 10]] ∧ getline 20 none ⟨[0, 97, 10], false⟩ = some .undefined := by
  refine ⟨?_, ?_⟩ <;> decide +kernel

/-- Messages with lines that look like separators, and without a newline at the end. -/
def exMails : List Mail := [⟨bs "a@b", bs "Thu Jan  1 00:00:00 1970\n", ⟨bs "Subject: x\n\nFrom me\n>From you\n>>From", false⟩⟩,
  ⟨bs "c@d", bs "Fri Jan  2 00:00:00 1970\n", ⟨bs "From x", false⟩⟩]

theorem C45_example : (∀ m ∈ exMails, Ok m) ∧
    mbox 50 exMails = some (bs "From a@b Thu Jan  1 00:00:00 1970\nSubject: x\n\n>From me\n>>From you\n>>From\nFrom c@d Fri Jan  2 00:00:00 1970\n>From x\n") ∧
    allLines false 20 (some 2) (bs "abcdef\n\ng") = some [bs "abcdef\n", bs "\n", bs "g"] := by
  refine ⟨?_, ?_, ?_⟩
  · intro m hm
    rcases List.mem_cons.mp hm with rfl | hm
    · exact ⟨rfl, by decide +kernel, by decide +kernel, bs "Thu Jan  1 00:00:00 1970", by decide +kernel, by decide +kernel⟩
    · rcases List.mem_cons.mp hm with rfl | hm
      · exact ⟨rfl, by decide +kernel, by decide +kernel, bs "Fri Jan  2 00:00:00 1970", by decide +kernel, by decide +kernel⟩
      · cases hm
  · decide +kernel
  · decide +kernel

end Notmuch.Props
