import Verif.Proofs.Fcc2
import Verif.Model.Maildir

/-!
# C77: saving a sent message from Emacs in a maildir
-/

namespace Notmuch.Props
open Notmuch.Fcc

/-- **C77** (names): the name chosen is not in use in tmp/, however many are; two names that one Emacs makes differ, whatever the clock does; and in a name, whatever the
name of the host, there is no slash and no colon, so that it is a file name and what follows it are the flags. -/
theorem C77_name (E : Env) (fs : Fs) (dest : Str) (count : Nat) :
    (fs.exists (dest ++ bs "/tmp/" ++ E.name (uniq E fs dest (fs.dirs.length + fs.files.length) count)) = false ∧
      count < uniq E fs dest (fs.dirs.length + fs.files.length) count) ∧
    (∀ c d, E.name c = E.name d → c = d) ∧
    ∀ n, 47 ∉ E.name n ∧ 58 ∉ E.name n := by
  refine ⟨⟨uniq_free E fs dest count, uniq_gt E fs dest _ count⟩, fun c d h => name_inj E h, fun n => ⟨fun h => ?_, fun h => ?_⟩⟩
  · exact (name_clean E n _ h).1 rfl
  · exact (name_clean E n _ h).2 rfl

/-- **C77**: in a maildir the message is saved: complete, under one new name in cur/ marked seen (or in new/), and nothing else has changed; in particular nothing is left in tmp/. -/
theorem C77_saved (E : Env) (fs : Fs) (count : Nat) (dest msg : Str) (seen : Bool) (hm : ∀ sub ∈ [bs "/cur", bs "/new", bs "/tmp"], dest ++ sub ∈ fs.dirs)
    (hf : ∀ c, fs.exists (dest ++ bs (if seen then "/cur/" else "/new/") ++ E.name c ++ bs (if seen then ":2,S" else ":2,")) = false) :
    ∃ c, count < c ∧ (writeBuffer E fs count dest msg seen .none).fin = .done ∧
      (final fs (writeBuffer E fs count dest msg seen .none).trace).dirs = fs.dirs ∧
      ∀ p, (final fs (writeBuffer E fs count dest msg seen .none).trace).get p =
        if p = dest ++ bs (if seen then "/cur/" else "/new/") ++ E.name c ++ bs (if seen then ":2,S" else ":2,") then some msg else fs.get p := by
  have ht : ∀ n, target dest n seen = dest ++ bs (if seen then "/cur/" else "/new/") ++ n ++ bs (if seen then ":2,S" else ":2,") := by
    intro n
    cases seen
    · rfl
    · exact target_seen dest n
  have hm' : isMaildir fs dest = true := by
    unfold isMaildir
    simp only [Bool.and_eq_true, List.contains_iff_mem]
    exact ⟨⟨hm _ (by simp), hm _ (by simp)⟩, hm _ (by simp)⟩
  obtain ⟨h1, _, h3, h4⟩ := write_saved E fs count dest msg seen hm' (by rw [ht]; exact hf _)
  refine ⟨next E fs dest count, uniq_gt _ _ _ _ _, h1, h3, fun p => ?_⟩
  rw [h4 p, ht]

/-- **C77** (crash): wherever Emacs stops or fails, of the files outside tmp/ none is changed or partly written: a file is as it was, or it is new and has the whole message.
The temporary file was not there before. -/
theorem C77_crash (E : Env) (fs : Fs) (count : Nat) (dest msg : Str) (seen : Bool) (fault : Fault) :
    ∃ tmp n, tmp = dest ++ bs "/tmp/" ++ n ∧ fs.get tmp = none ∧ ∀ s ∈ (writeBuffer E fs count dest msg seen fault).trace,
      s.dirs = fs.dirs ∧ ∀ p, p ≠ tmp → s.get p = fs.get p ∨ (fs.get p = none ∧ s.get p = some msg) := by
  refine ⟨_, _, rfl, (get_none_of (uniq_free E fs dest count)).1, fun s hs => ?_⟩
  have h := write_safe E fs count dest msg seen fault s hs
  exact ⟨h.dirs, fun p hp => (h.file p hp).imp id (fun h => h.2)⟩

/-- **C77** (all Fcc headers): the values of all Fcc headers, in whatever case, are used, and no such header is left in what is saved; the others are. -/
theorem C77_headers (hs : List (Str × Str)) :
    takeFcc hs.length hs [] = (((hs.filter (fun h => isFcc h.1)).map Prod.snd).reverse, hs.filter (fun h => !isFcc h.1)) := by
  rw [takeFcc_spec _ _ _ (Nat.le_refl _), List.append_nil]

/-- **C77** (no loss): if saving ends without an error and the user did not choose to ignore a folder, there are as many new files as Fcc headers, each in a maildir, marked seen, with the
whole message. -/
theorem C77_all (E : Env) (msg : Str) (fs : Fs) (count : Nat) (jobs : List (Str × List Answer × Fault))
    (hd : (handleAll E msg fs count jobs).fin = .done) (hi : ∀ j ∈ jobs, .ignore ∉ j.2.1)
    (hn : NoDir E fs) (ht : ∀ s ∈ (handleAll E msg fs count jobs).trace, NoDir E s)
    (hf : ∀ dir c, count < c → fs.get (dir ++ bs "/cur/" ++ E.name c ++ bs ":2,S") = none) :
    ∃ ps : List Str, ps.length = jobs.length ∧ ps.Nodup ∧
      ∀ p ∈ ps, Saved E msg fs (final fs (handleAll E msg fs count jobs).trace) p :=
  all_done E msg jobs fs count hd hi hn ht (fun dir c hc => by rw [target_seen]; exact hf dir c hc)

/-- **C77** (nothing is lost): whatever the user answers and whatever fails, every file and directory that was there is there, with its content, at all times. -/
theorem C77_keeps (E : Env) (msg : Str) (fs : Fs) (count : Nat) (jobs : List (Str × List Answer × Fault)) :
    ∀ s ∈ (handleAll E msg fs count jobs).trace, Keeps fs s :=
  all_keeps E msg jobs fs count

/-- **C77** (errors): a fault is reported, unless the folder is ignored or the name is taken. -/
theorem C77_fault (E : Env) (fs : Fs) (count : Nat) (dest msg : Str) (seen : Bool) (fault : Fault) (h : fault ≠ .none)
    (hf : ∀ c, fs.exists (target dest (E.name c) seen) = false) : (writeBuffer E fs count dest msg seen fault).fin = .error := by
  cases he : (writeBuffer E fs count dest msg seen fault).fin with
  | error => rfl
  | asking => exact absurd he (write_not_asking _ _ _ _ _ _ _)
  | done => exact absurd (write_done E fs count dest msg seen fault he (hf _)).1 h

/-- **C77** (ignore): if the user chooses to ignore a folder that is no maildir, nothing is written for it and the others go on as if it had not been there. -/
theorem C77_ignore (E : Env) (msg : Str) (fs : Fs) (count : Nat) (dir : Str) (as : List Answer) (fault : Fault) (rest : List (Str × List Answer × Fault))
    (h : ¬ ∀ sub ∈ [bs "/cur", bs "/new", bs "/tmp"], dir ++ sub ∈ fs.dirs) :
    handleAll E msg fs count ((dir, .ignore :: as, fault) :: rest) = handleAll E msg fs count rest := by
  have hm : isMaildir fs dir = false := by
    apply Bool.eq_false_iff.2
    intro hm
    apply h
    unfold isMaildir at hm
    simp only [Bool.and_eq_true, List.contains_iff_mem] at hm
    intro sub hs
    simp only [List.mem_cons, List.not_mem_nil, or_false] at hs
    rcases hs with h | h | h <;> subst h
    · exact hm.1.1
    · exact hm.1.2
    · exact hm.2
  have hf : fileFcc E msg fault fs count dir (.ignore :: as) = ⟨[], count, .done⟩ := by
    rw [fileFcc]
    simp [hm]
  rw [handleAll, hf]
  rfl

private def box : Fs := ⟨[bs "/m", bs "/m/cur", bs "/m/new", bs "/m/tmp"], []⟩
private def emacs : Env := ⟨fun _ => (1000, 5), 7, bs "a/b:c"⟩

/-- If there is a file of the name in cur/ the function returns `t`, as if all were well, but the message is not saved; the documentation says that it returns `nil`.  (The name has
the time and the number of the process in it; it was used by an earlier process of that number, within the same microsecond of a clock that was set back.) -/
theorem C77_taken_counterexample :
    let fs : Fs := { box with files := [(bs "/m/cur/1000.7_5_1.a\\057b\\072c:2,S", bs "old")] }
    (writeBuffer emacs fs 0 (bs "/m") (bs "new") true .none).fin = .done ∧
    (final fs (writeBuffer emacs fs 0 (bs "/m") (bs "new") true .none).trace).files =
      [(bs "/m/tmp/1000.7_5_1.a\\057b\\072c", bs "new"), (bs "/m/cur/1000.7_5_1.a\\057b\\072c:2,S", bs "old")] := by
  decide +kernel

/-- A crash leaves the temporary file, and an error in the first folder keeps the message out of the second. -/
theorem C77_rest_counterexample :
    (∃ s ∈ (writeBuffer emacs box 0 (bs "/m") (bs "new") true .none).trace, s.files = [(bs "/m/tmp/1000.7_5_1.a\\057b\\072c", bs "n")]) ∧
    (final box (handleAll emacs (bs "new") { box with files := [(bs "/x", bs "")] } 0 [(bs "/x", [.create true], .none), (bs "/m", [], .none)]).trace).files = [] := by
  refine ⟨⟨box.put (bs "/m/tmp/1000.7_5_1.a\\057b\\072c") (bs "n"), ?_, ?_⟩, ?_⟩ <;> decide +kernel

/-- Two folders, the first made on demand, the second with a typing error that the user corrects; a name that was in use in tmp/ is passed over. -/
theorem C77_example :
    let fs : Fs := { box with files := [(bs "/m/tmp/1000.7_5_2.a\\057b\\072c", bs "x")] }
    let jobs : List (Str × List Answer × Fault) := [(bs "/n", [.retry [], .create true], .none), (bs "/mm", [.edit (bs "/m")], .none)]
    let r := handleAll emacs (bs "msg") fs 0 jobs
    r.fin = .done ∧ (∀ j ∈ jobs, .ignore ∉ j.2.1) ∧
    (final fs r.trace).files = [(bs "/m/cur/1000.7_5_3.a\\057b\\072c:2,S", bs "msg"), (bs "/n/cur/1000.7_5_1.a\\057b\\072c:2,S", bs "msg"),
      (bs "/m/tmp/1000.7_5_2.a\\057b\\072c", bs "x")] ∧
    takeFcc 4 [(bs "Fcc", bs "/n"), (bs "To", bs "you"), (bs "FCC", bs "/mm"), (bs "Subject", bs "s")] [] =
      ([bs "/mm", bs "/n"], [(bs "To", bs "you"), (bs "Subject", bs "s")]) := by
  refine ⟨?_, ?_, ?_, ?_⟩ <;> decide +kernel

/-- notmuch takes the flag of such a file to mean that it was read: the tag unread goes. -/
theorem C77_seen : Maildir.flagsToTags [bs "/m/cur/1000.7_5_3.a\\057b\\072c:2,S"] [bs "unread", bs "sent"] = [bs "sent"] := by decide +kernel

end Notmuch.Props
