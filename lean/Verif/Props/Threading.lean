import Verif.Proofs.ThreadFiles

/-!
# C19, C20: threads, and removing messages

`run sha1 hist` is the database after the operations `hist` on an empty database, for every hash
function `sha1` printing 40 digits.
-/

namespace Notmuch.Props
open Notmuch.Threading Notmuch.ThreadSpec

/-- A hash function for the examples. -/
def sha0 : Str → Str := fun _ => List.replicate 40 48

theorem sha0_ok : Sha sha0 := fun _ => rfl

/-- A history of additions only. -/
def OnlyAdds (hist : List Op) : Prop := ∀ o ∈ hist, ∃ file mid refs, o = Op.add file mid refs

/-- C19: after any additions, two messages (known by themselves or by a reference) are in the same
thread iff they are connected by References and In-Reply-To links. -/
theorem C19_threads_are_components (sha1 : Str → Str) (hs : Sha sha1) (hist : List Op) (hadd : OnlyAdds hist)
    (hself : NoLongSelf sha1 hist) (a b : Str) (ha : Known sha1 hist a) (hb : Known sha1 hist b) :
    SameThread (run sha1 hist) a b ↔ Conn (Mentions sha1 hist) a b := by
  have h := inv_run hs hist hadd hself
  exact h.conn a b ((h.mids a).2 ha) ((h.mids b).2 hb)

/-- C19: exactly the known messages have a document; each has one, with one thread; it is a real message
iff it was added. -/
theorem C19_one_document_one_thread (sha1 : Str → Str) (hs : Sha sha1) (hist : List Op) (hadd : OnlyAdds hist)
    (hself : NoLongSelf sha1 hist) (a : Str) :
    (Known sha1 hist a ↔ ∃ d ∈ (run sha1 hist).docs, d.mid = a) ∧
    (∀ d ∈ (run sha1 hist).docs, ∀ e ∈ (run sha1 hist).docs, d.mid = a → e.mid = a → d = e) ∧
    (∀ d ∈ (run sha1 hist).docs, d.mid = a → (∃ t, d.threads = [t]) ∧ (d.kind = .mail ↔ Added sha1 hist a)) := by
  have h := inv_run hs hist hadd hself
  refine ⟨?_, ?_, ?_⟩
  · rw [← h.mids, List.mem_map]
  · intro d hd e he h1 h2
    exact nodup_map_inj h.wf.mids hd he (by rw [h1, h2])
  · rintro d hd rfl
    exact ⟨⟨_, (h.wf.thr d hd).1⟩, h.kind d hd⟩

/-- C19: the files and the recorded references of a message are those of its additions. -/
theorem C19_files_and_references (sha1 : Str → Str) (hs : Sha sha1) (hist : List Op) (hadd : OnlyAdds hist)
    (hself : NoLongSelf sha1 hist) (d : Doc) (hd : d ∈ (run sha1 hist).docs) :
    (∀ f, f ∈ d.files ↔ ∃ mid refs, Op.add f mid refs ∈ hist ∧ normId sha1 mid = d.mid) ∧
    (∀ r, r ∈ d.refs ↔ ∃ file mid refs, Op.add file mid refs ∈ hist ∧ normId sha1 mid = d.mid ∧ r ∈ refs ∧
      r ≠ d.mid ∧ r.length ≤ refMax) := by
  have h := inv_run hs hist hadd hself
  exact ⟨h.files d hd, h.refs d hd⟩

/-- C19: the grouping depends only on which messages were added and which references they contain, not on the
order of the additions nor of the references. -/
theorem C19_order_independent (sha1 : Str → Str) (hs : Sha sha1) (h1 h2 : List Op) (hadd1 : OnlyAdds h1) (hadd2 : OnlyAdds h2)
    (hself1 : NoLongSelf sha1 h1) (hself2 : NoLongSelf sha1 h2)
    (hA : ∀ a, Added sha1 h1 a ↔ Added sha1 h2 a) (hM : ∀ a b, Mentions sha1 h1 a b ↔ Mentions sha1 h2 a b) (a b : Str) :
    SameThread (run sha1 h1) a b ↔ SameThread (run sha1 h2) a b := by
  have i1 := inv_run hs h1 hadd1 hself1
  have i2 := inv_run hs h2 hadd2 hself2
  have hmid : ∀ x, x ∈ (run sha1 h1).docs.map (·.mid) ↔ x ∈ (run sha1 h2).docs.map (·.mid) := by
    intro x
    rw [i1.mids, i2.mids]
    unfold Known
    rw [hA]
    simp only [hM]
  have hM' : Mentions sha1 h1 = Mentions sha1 h2 := by
    funext a b; exact propext (hM a b)
  constructor
  · intro h
    obtain ⟨d, hd, e, he, rfl, rfl, _⟩ := (sameThread_iff i1.wf).1 h
    have m1 := List.mem_map_of_mem (f := Doc.mid) hd
    have m2 := List.mem_map_of_mem (f := Doc.mid) he
    rw [i2.conn _ _ ((hmid _).1 m1) ((hmid _).1 m2), ← hM']
    exact (i1.conn _ _ m1 m2).1 h
  · intro h
    obtain ⟨d, hd, e, he, rfl, rfl, _⟩ := (sameThread_iff i2.wf).1 h
    have m1 := List.mem_map_of_mem (f := Doc.mid) hd
    have m2 := List.mem_map_of_mem (f := Doc.mid) he
    rw [i1.conn _ _ ((hmid _).2 m1) ((hmid _).2 m2), hM']
    exact (i2.conn _ _ m1 m2).1 h

/-- C19: in particular for permutations of the additions. -/
theorem C19_arrival_order (sha1 : Str → Str) (hs : Sha sha1) (h1 h2 : List Op) (hp : h1.Perm h2) (hadd : OnlyAdds h1)
    (hself : NoLongSelf sha1 h1) (a b : Str) :
    SameThread (run sha1 h1) a b ↔ SameThread (run sha1 h2) a b := by
  apply C19_order_independent sha1 hs h1 h2 hadd (fun o ho => hadd o (hp.mem_iff.2 ho)) hself
    (fun f i rs ho => hself f i rs (hp.mem_iff.2 ho))
  · intro a; unfold Added; simp only [hp.mem_iff]
  · intro a b; unfold Mentions; simp only [hp.mem_iff]

/-- C19: a message arriving in any reachable database joins exactly the threads it connects. -/
theorem C19_arrival_joins (sha1 : Str → Str) (hs : Sha sha1) (hist : List Op) (file mid : Str) (refs : List Str)
    (hself : NoLongSelf sha1 (hist ++ [.add file mid refs])) (a b : Str)
    (ha : ∃ d ∈ (run sha1 (hist ++ [.add file mid refs])).docs, d.mid = a)
    (hb : ∃ d ∈ (run sha1 (hist ++ [.add file mid refs])).docs, d.mid = b) :
    SameThread (run sha1 (hist ++ [.add file mid refs])) a b ↔
      Conn (fun x y => SameThread (run sha1 hist) x y ∨ (x = normId sha1 mid ∧ ∃ r ∈ refs, y = normId sha1 r)) a b := by
  have h := inv2_run hs hist (fun f i rs ho => hself f i rs (by simp [ho]))
  have e : run sha1 (hist ++ [.add file mid refs]) = (addMessage sha1 (run sha1 hist) file mid refs).2 := by
    unfold run; rw [List.foldl_append]; rfl
  have hsf := hself file mid refs (by simp)
  obtain ⟨w, L, cur, hA⟩ := addMessage_spec sha1 (run sha1 hist) file mid refs h.wf hsf
  rw [e] at ha hb ⊢
  obtain ⟨d, hd, rfl⟩ := ha
  obtain ⟨d', hd', rfl⟩ := hb
  rw [hA.join h.wf (List.mem_map_of_mem hd) (List.mem_map_of_mem hd')]
  constructor
  · apply Conn.mono
    rintro x y (hxy | ⟨rfl, r, hr, rfl⟩)
    · exact Or.inl hxy
    · exact Or.inr ⟨rfl, r, (List.mem_filter.1 hr).1, rfl⟩
  · apply Conn.congr
    rintro x y (hxy | ⟨rfl, r, hr, rfl⟩)
    · exact .edge (Or.inl hxy)
    · by_cases hc : r = normId sha1 mid
      · subst hc; rw [normId_idem hs]; exact .refl _
      · exact .edge (Or.inr ⟨rfl, r, by simp [hr, hc], rfl⟩)

/-- C19: an addition reports a duplicate iff the message (not just a reference to it) was there before. -/
theorem C19_duplicate_status (sha1 : Str → Str) (hs : Sha sha1) (hist : List Op) (hself : NoLongSelf sha1 hist)
    (file mid : Str) (refs : List Str) :
    (addMessage sha1 (run sha1 hist) file mid refs).1 = .duplicateMessageId ↔
      ∃ d ∈ (run sha1 hist).docs, d.mid = normId sha1 mid ∧ d.kind = .mail := by
  have h := inv2_run hs hist hself
  unfold addMessage
  cases hf : findMid (run sha1 hist) (normId sha1 mid) with
  | none =>
    have := (find_none_iff _).1 hf
    simp only [reduceCtorEq, false_iff]
    rintro ⟨d, hd, e, _⟩
    exact this (e ▸ List.mem_map_of_mem hd)
  | some d =>
    obtain ⟨hd, hdm⟩ := (find_some_iff h.wf.mids _ _).1 hf
    constructor
    · intro hst
      refine ⟨d, hd, hdm, ?_⟩
      cases hk : d.kind with
      | mail => rfl
      | ghost => simp [hk] at hst
    · rintro ⟨e, he, hem, hk⟩
      have := nodup_map_inj h.wf.mids he hd (by rw [hem, hdm])
      subst this
      simp [hk]

/-- Example: a reply that arrives before the original, and an unrelated message. -/
def exHist : List Op :=
  [.add (bs "f1") (bs "reply@x") [bs "orig@x", bs "missing@x"], .add (bs "f2") (bs "orig@x") [],
   .add (bs "f3") (bs "other@x") [], .add (bs "f4") (bs "late@x") [bs "missing@x"]]

theorem exHist_adds : OnlyAdds exHist := by
  intro o ho
  simp only [exHist, List.mem_cons, List.not_mem_nil, or_false] at ho
  rcases ho with rfl | rfl | rfl | rfl <;> exact ⟨_, _, _, rfl⟩

theorem exHist_self : NoLongSelf sha0 exHist := by
  intro f i rs ho
  simp only [exHist, List.mem_cons, List.not_mem_nil, or_false] at ho
  rcases ho with h | h | h | h <;> cases h <;> decide +kernel

example : SameThread (run sha0 exHist) (bs "orig@x") (bs "late@x") :=
  ⟨1, by unfold HasThread; decide +kernel, by unfold HasThread; decide +kernel⟩

example : ¬ Conn (Mentions sha0 exHist) (bs "orig@x") (bs "other@x") := by
  rw [← C19_threads_are_components sha0 sha0_ok exHist exHist_adds exHist_self _ _
    (Or.inl ⟨bs "f2", bs "orig@x", [], by simp [exHist], (by decide +kernel : bs "orig@x" = normId sha0 (bs "orig@x"))⟩)
    (Or.inl ⟨bs "f3", bs "other@x", [], by simp [exHist], (by decide +kernel : bs "other@x" = normId sha0 (bs "other@x"))⟩)]
  rintro ⟨t, h1, h2⟩
  have e1 : ∀ d ∈ (run sha0 exHist).docs, d.mid = bs "orig@x" → d.threads = [1] := by decide +kernel
  have e2 : ∀ d ∈ (run sha0 exHist).docs, d.mid = bs "other@x" → d.threads ≠ [1] := by decide +kernel
  obtain ⟨d, hd, hm, ht⟩ := h1
  obtain ⟨d', hd', hm', ht'⟩ := h2
  rw [e1 d hd hm] at ht
  exact e2 d' hd' hm' (by rw [ht', ht])

/-- Without `NoLongSelf` it fails: a message with an over-long id that names itself gets a second
document (a ghost) with the same id. -/
theorem C19_long_self_reference_counterexample :
    ∃ hist, OnlyAdds hist ∧ ∃ d ∈ (run sha0 hist).docs, ∃ e ∈ (run sha0 hist).docs,
      d.mid = e.mid ∧ d.kind = .mail ∧ e.kind = .ghost := by
  refine ⟨[.add (bs "f") (List.replicate 190 97) [List.replicate 190 97]], ?_, ?_⟩
  · intro o ho; simp at ho; exact ⟨_, _, _, ho⟩
  · decide +kernel

/-! ## Removing -/

/-- C20: whatever was added and removed: one document per message, one thread per document; real messages
have files and were added; ghosts have none and share their thread with a real message. -/
theorem C20_consistent (sha1 : Str → Str) (hs : Sha sha1) (hist : List Op) (hself : NoLongSelf sha1 hist) :
    (∀ d ∈ (run sha1 hist).docs, ∀ e ∈ (run sha1 hist).docs, d.mid = e.mid → d = e) ∧
    (∀ d ∈ (run sha1 hist).docs, ∃ t, d.threads = [t]) ∧
    (∀ d ∈ (run sha1 hist).docs, d.kind = .mail → d.files ≠ [] ∧ Added sha1 hist d.mid) ∧
    (∀ d ∈ (run sha1 hist).docs, d.kind = .ghost → d.files = [] ∧
      ∃ e ∈ (run sha1 hist).docs, e.kind = .mail ∧ SameThread (run sha1 hist) d.mid e.mid) := by
  have h := inv2_run hs hist hself
  refine ⟨fun d hd e he => nodup_map_inj h.wf.mids hd he, fun d hd => ⟨_, (h.wf.thr d hd).1⟩, h.mail, ?_⟩
  intro d hd hk
  obtain ⟨_, h2, e, he, hek, het⟩ := h.ghost d hd hk
  exact ⟨h2, e, he, hek, (sameThread_iff h.wf).2 ⟨d, hd, e, he, rfl, rfl, het.symm⟩⟩

/-- C20: threads only join messages which were connected at some time, and they join a message
with everything it refers to. -/
theorem C20_threads_between (sha1 : Str → Str) (hs : Sha sha1) (hist : List Op) (hself : NoLongSelf sha1 hist) :
    (∀ a b, SameThread (run sha1 hist) a b → Conn (Mentions sha1 hist) a b) ∧
    (∀ d ∈ (run sha1 hist).docs, ∀ r ∈ d.refs, SameThread (run sha1 hist) d.mid (normId sha1 r)) := by
  have h := inv2_run hs hist hself
  constructor
  · intro a b hab
    obtain ⟨d, hd, e, he, rfl, rfl, ht⟩ := (sameThread_iff h.wf).1 hab
    exact h.conn d hd e he ht
  · intro d hd r hr
    obtain ⟨e, he, hem, het⟩ := h.closed d hd r hr
    exact (sameThread_iff h.wf).2 ⟨d, hd, e, he, rfl, hem, het.symm⟩

/-- C20: a file is listed with a message iff it was added for it and not removed since (for files which
do not change their message id). -/
theorem C20_files (sha1 : Str → Str) (hs : Sha sha1) (hist : List Op) (hself : NoLongSelf sha1 hist)
    (hst : StableIds sha1 hist) (f a : Str) :
    (∃ d ∈ (run sha1 hist).docs, d.mid = a ∧ f ∈ d.files) ↔ Present sha1 hist f a :=
  files_run hs hist hself hst f a

/-- C20: a message exists iff one of its files was added and not removed since. -/
theorem C20_message_lives_with_its_files (sha1 : Str → Str) (hs : Sha sha1) (hist : List Op) (hself : NoLongSelf sha1 hist)
    (hst : StableIds sha1 hist) (a : Str) :
    (∃ d ∈ (run sha1 hist).docs, d.mid = a ∧ d.kind = .mail) ↔ ∃ f, Present sha1 hist f a := by
  have h := inv2_run hs hist hself
  constructor
  · rintro ⟨d, hd, hm, hk⟩
    obtain ⟨f, hf⟩ := List.exists_mem_of_ne_nil _ (h.mail d hd hk).1
    exact ⟨f, (files_run hs hist hself hst f a).1 ⟨d, hd, hm, hf⟩⟩
  · rintro ⟨f, hf⟩
    obtain ⟨d, hd, hm, hf⟩ := (files_run hs hist hself hst f a).2 hf
    refine ⟨d, hd, hm, ?_⟩
    cases hk : d.kind with
    | mail => rfl
    | ghost => have := (h.ghost d hd hk).2.1; rw [this] at hf; simp at hf

/-- C20: removing the file of a message which has other files only forgets that file. -/
theorem C20_remove_one_of_several (sha1 : Str → Str) (hs : Sha sha1) (hist : List Op) (hself : NoLongSelf sha1 hist)
    (file : Str) (d : Doc) (hd : d ∈ (run sha1 hist).docs) (hf : file ∈ d.files)
    (honly : ∀ e ∈ (run sha1 hist).docs, file ∈ e.files → e = d) (f' : Str) (hf' : f' ∈ d.files) (hne : f' ≠ file) :
    (removeMessage sha1 (run sha1 hist) file).1 = .duplicateMessageId ∧
    ∀ e, e ∈ (removeMessage sha1 (run sha1 hist) file).2.docs ↔
      (e ∈ (run sha1 hist).docs ∧ e ≠ d) ∨ e = { d with files := d.files.filter (· ≠ file) } := by
  have h := inv2_run hs hist hself
  have hr := removeMessage_spec h file
  generalize (removeMessage sha1 (run sha1 hist) file).1 = st at hr
  generalize (removeMessage sha1 (run sha1 hist) file).2 = db' at hr
  have hfil : d.files.filter (· ≠ file) ≠ [] := by
    intro hc
    rw [List.filter_eq_nil_iff] at hc
    have := hc f' hf'
    simp [hne] at this
  cases hr with
  | absent hab => exact absurd hf (hab d hd)
  | other d' _ hd' hfd hl hne' hdocs h1 h2 =>
    have := honly d' hd' hfd
    subst this
    refine ⟨rfl, fun e => ?_⟩
    rw [hdocs, List.mem_map]
    constructor
    · rintro ⟨e', he', rfl⟩
      split
      · exact Or.inr rfl
      · rename_i hc; exact Or.inl ⟨he', fun hh => hc (by rw [hh])⟩
    · rintro (⟨he, hc⟩ | rfl)
      · exact ⟨e, he, if_neg (fun hh => hc (nodup_map_inj h.wf.ids he hd' hh))⟩
      · exact ⟨d', hd', if_pos rfl⟩
  | ghosted d' _ hd' hfd hl hnil =>
    have := honly d' hd' hfd; subst this; exact absurd hnil hfil
  | gone d' _ hd' hfd hl hnil =>
    have := honly d' hd' hfd; subst this; exact absurd hnil hfil

/-- C20: removing the last file of a message removes the message.  If its thread has other real messages,
a ghost keeps the thread together and nothing else changes; otherwise exactly the documents of the thread go. -/
theorem C20_remove_last (sha1 : Str → Str) (hs : Sha sha1) (hist : List Op) (hself : NoLongSelf sha1 hist)
    (file : Str) (d : Doc) (hd : d ∈ (run sha1 hist).docs) (hf : file ∈ d.files)
    (honly : ∀ e ∈ (run sha1 hist).docs, file ∈ e.files → e = d) (hlast : ∀ f' ∈ d.files, f' = file) :
    (removeMessage sha1 (run sha1 hist) file).1 = .success ∧
    ((∃ e ∈ (run sha1 hist).docs, e ≠ d ∧ e.kind = .mail ∧ SameThread (run sha1 hist) d.mid e.mid) →
      ∃ g, g.mid = d.mid ∧ g.kind = .ghost ∧ g.threads = d.threads ∧ g.refs = [] ∧ g.files = [] ∧
        ∀ e, e ∈ (removeMessage sha1 (run sha1 hist) file).2.docs ↔ (e ∈ (run sha1 hist).docs ∧ e ≠ d) ∨ e = g) ∧
    ((∀ e ∈ (run sha1 hist).docs, e.kind = .mail → SameThread (run sha1 hist) d.mid e.mid → e = d) →
      ∀ e, e ∈ (removeMessage sha1 (run sha1 hist) file).2.docs ↔
        e ∈ (run sha1 hist).docs ∧ ¬ SameThread (run sha1 hist) d.mid e.mid) := by
  have h := inv2_run hs hist hself
  have hr := removeMessage_spec h file
  have hsame : ∀ e ∈ (run sha1 hist).docs, SameThread (run sha1 hist) d.mid e.mid ↔ e.thread = d.thread := by
    intro e he
    rw [sameThread_iff h.wf]
    constructor
    · rintro ⟨d1, hd1, e1, he1, h1, h2, h3⟩
      rw [nodup_map_inj h.wf.mids hd1 hd h1, nodup_map_inj h.wf.mids he1 he h2] at h3
      exact h3.symm
    · intro ht; exact ⟨d, hd, e, he, rfl, rfl, ht.symm⟩
  generalize (removeMessage sha1 (run sha1 hist) file).1 = st at hr
  generalize (removeMessage sha1 (run sha1 hist) file).2 = db' at hr
  cases hr with
  | absent hab => exact absurd hf (hab d hd)
  | other d' _ hd' hfd hl hne' =>
    have := honly d' hd' hfd
    subst this
    exfalso
    apply hne'
    rw [List.filter_eq_nil_iff]
    intro x hx
    simpa using hlast x hx
  | ghosted d' _ hd' hfd hl hnil hi hdocs h1 h2 =>
    have := honly d' hd' hfd
    subst this
    refine ⟨rfl, fun _ => ⟨⟨(run sha1 hist).lastDoc + 1, d'.mid, .ghost, [d'.thread], [], []⟩, rfl, rfl,
      (h.wf.thr d' hd').1.symm, rfl, rfl, fun e => ?_⟩, ?_⟩
    · rw [hdocs, List.mem_append, List.mem_filter, List.mem_singleton]
      apply or_congr _ Iff.rfl
      constructor
      · rintro ⟨he, hc⟩; exact ⟨he, fun hh => by simp [hh] at hc⟩
      · rintro ⟨he, hc⟩; exact ⟨he, by simpa using fun hh => hc (nodup_map_inj h.wf.ids he hd' hh)⟩
    · intro hc
      obtain ⟨e, he, hne, hk, ht⟩ := hi
      exact absurd (by rw [hc e he hk ((hsame e he).2 ht)]) hne
  | gone d' _ hd' hfd hl hnil hi hdocs h1 h2 =>
    have := honly d' hd' hfd
    subst this
    refine ⟨rfl, ?_, fun _ e => ?_⟩
    · rintro ⟨e, he, hne, hk, ht⟩
      exact absurd (hi e he hk ((hsame e he).1 ht)) hne
    · rw [hdocs, List.mem_filter]
      constructor
      · rintro ⟨he, hc⟩; exact ⟨he, fun hh => by simp [(hsame e he).1 hh] at hc⟩
      · rintro ⟨he, hc⟩; exact ⟨he, by simpa using fun hh => hc ((hsame e he).2 hh)⟩

/-- C20: removing an unknown file does nothing. -/
theorem C20_remove_unknown (sha1 : Str → Str) (hs : Sha sha1) (hist : List Op) (hself : NoLongSelf sha1 hist)
    (file : Str) (hno : ∀ d ∈ (run sha1 hist).docs, file ∉ d.files) :
    removeMessage sha1 (run sha1 hist) file = (.success, run sha1 hist) := by
  have hr := removeMessage_spec (inv2_run hs hist hself) file
  show ((removeMessage sha1 (run sha1 hist) file).1, (removeMessage sha1 (run sha1 hist) file).2) = _
  generalize (removeMessage sha1 (run sha1 hist) file).1 = st at hr
  generalize (removeMessage sha1 (run sha1 hist) file).2 = db' at hr
  cases hr with
  | absent _ => rfl
  | other d _ hd hf => exact absurd hf (hno d hd)
  | ghosted d _ hd hf => exact absurd hf (hno d hd)
  | gone d _ hd hf => exact absurd hf (hno d hd)

/-- Example: two files of one message, a reply; then removals. -/
def exHist2 : List Op :=
  [.add (bs "f1") (bs "a@x") [], .add (bs "f1b") (bs "a@x") [], .add (bs "f2") (bs "b@x") [bs "a@x"]]

theorem exHist2_self : NoLongSelf sha0 exHist2 := by
  intro f i rs ho
  simp only [exHist2, List.mem_cons, List.not_mem_nil, or_false] at ho
  rcases ho with h | h | h <;> cases h <;> decide +kernel

theorem exHist2_stable : StableIds sha0 exHist2 := by
  intro f i rs i' rs' h1 h2
  simp only [exHist2, List.mem_cons, List.not_mem_nil, or_false] at h1 h2
  rcases h1 with h1 | h1 | h1 <;> cases h1 <;> rcases h2 with h2 | h2 | h2 <;> first | (cases h2; rfl) | (simp at h2; exact absurd h2.1 (by decide +kernel))

example : ∃ d ∈ (run sha0 exHist2).docs, d.mid = bs "a@x" ∧ d.files = [bs "f1", bs "f1b"] := by decide +kernel
example : Present sha0 exHist2 (bs "f1b") (bs "a@x") :=
  ⟨[.add (bs "f1") (bs "a@x") []], bs "a@x", [], [.add (bs "f2") (bs "b@x") [bs "a@x"]], rfl, by simp, rfl⟩
example : (run sha0 (exHist2 ++ [.remove (bs "f2")])).docs.map (fun d => (d.mid, d.kind)) =
    [(bs "a@x", .mail), (bs "b@x", .ghost)] := by
  have e : run sha0 exHist2 = ⟨[⟨1, bs "a@x", .mail, [1], [], [bs "f1", bs "f1b"]⟩, ⟨2, bs "b@x", .mail, [1], [bs "a@x"], [bs "f2"]⟩], 1, 2⟩ := by rfl
  have := C20_remove_last sha0 sha0_ok exHist2 exHist2_self (bs "f2") ⟨2, bs "b@x", .mail, [1], [bs "a@x"], [bs "f2"]⟩
    (by rw [e]; decide +kernel) (by decide +kernel) (by rw [e]; decide +kernel) (by decide +kernel)
  decide +kernel

end Notmuch.Props
