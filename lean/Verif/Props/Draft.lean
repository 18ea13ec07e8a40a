import Verif.Proofs.Draft3

namespace Notmuch.Props
open Notmuch.Draft

/-- **C79** (back again): whatever the text of the message, resuming a saved draft gives the message that was saved, but for the headers Message-ID and Date, which a new message gets anyhow.  The
message must not have one of the headers that notmuch adds, and no tag in `notmuch-draft-quoted-tags` may have a `<`. -/
theorem C79_resume (fold : UInt8 → UInt8) (tags : List Str) (hf : FoldOk fold) (ht : ∀ g ∈ tags, 60 ∉ g) (m : Msg) (id date : Str)
    (hs : hasHeader m.headers secureName = false) (hd : hasHeader m.headers draftName = false) :
    resumed fold tags (saved fold tags id date m) =
      ({ headers := m.headers.filter (fun h => !sameName h.1 idName && !sameName h.1 dateName), body := m.body }, true) := by
  rw [resume_saved hf ht m id date hs hd]
  unfold removeHeader
  rw [List.filter_filter]
  congr 3
  funext h
  rw [Bool.and_comm]

/-- **C79** (nothing is lost of what was not a draft): a message without the header of a draft is not changed but for those two headers. -/
theorem C79_not_draft (fold : UInt8 → UInt8) (tags : List Str) (m : Msg) (hd : hasHeader m.headers draftName = false) :
    resumed fold tags m = ({ headers := m.headers.filter (fun h => !sameName h.1 idName && !sameName h.1 dateName), body := m.body }, false) := by
  unfold resumed
  dsimp only
  rw [hasHeader_remove (hasHeader_remove hd), removeHeader_of_not (hasHeader_remove (hasHeader_remove hd))]
  simp only [Bool.false_eq_true, if_false]
  unfold removeHeader
  rw [List.filter_filter]
  congr 3
  funext h
  rw [Bool.and_comm]

/-- **C79** (quoting): unquoting undoes quoting, for every text. -/
theorem C79_quote_roundtrip (fold : UInt8 → UInt8) (tags : List Str) (hf : FoldOk fold) (ht : ∀ g ∈ tags, 60 ∉ g) (t : Str) :
    unquote fold tags (quote fold tags t.length t).length (quote fold tags t.length t) = t :=
  unquote_quote hf ht _ _ _ (Nat.le_refl _) (Nat.le_refl _)

/-- **C79** (no tag is acted on): in the quoted text there is none of the tags, opening or closing, upper case or lower. -/
theorem C79_no_tag (fold : UInt8 → UInt8) (tags : List Str) (hf : FoldOk fold) (ht : ∀ g ∈ tags, 60 ∉ g) (g : Str) (hg : g ∈ tags) (hne : ∃ x g', g = x :: g' ∧ x ≠ 33)
    (t a q b : Str) (h : quote fold tags t.length t = a ++ q ++ b) : ¬ Same fold q (bs "<#" ++ g) ∧ ¬ Same fold q (bs "<#/" ++ g) := by
  have := quote_clean hf ht hg hne t.length t a (q ++ b) (Nat.le_refl _) (by rw [h, List.append_assoc])
  constructor
  · intro hs
    have h1 := (pre_iff (fold := fold) (bs "<#" ++ g) (q ++ b)).2 ⟨q, b, rfl, hs⟩
    rw [this.1] at h1; cases h1
  · intro hs
    have h1 := (pre_iff (fold := fold) (bs "<#/" ++ g) (q ++ b)).2 ⟨q, b, rfl, hs⟩
    rw [this.2] at h1; cases h1

/-- **C79** (not in the clear): what looks as if it were to be encrypted is saved only if the user allows it, and what does not is saved without asking. -/
theorem C79_plain (fold : UInt8 → UInt8) (tags : List Str) (s : State) (id date : Str) (m : Msg) (policy : Policy) (mk : Bool) :
    (WantsEncryption fold m.body → policy = .never ∨ policy = .ask false → ∀ ins, step fold tags s (.save id date m policy ins mk) = (s, false)) ∧
    (¬ WantsEncryption fold m.body ∨ policy = .always ∨ policy = .ask true → ∃ e ∈ (step fold tags s (.save id date m policy true mk)).1.db, e.id = id ∧ e.msg = saved fold tags id date m) := by
  constructor
  · intro hw hp ins
    apply save_none
    rw [(encTag_iff _).2 hw]
    rcases hp with rfl | rfl <;> rfl
  · intro h
    have hb : ((encTag fold m.body && !policy.allows) || !true) = false := by
      rcases h with h | h
      · rw [Bool.eq_false_iff.2 (fun h' => h ((encTag_iff _).1 h'))]; rfl
      · rcases h with rfl | rfl <;> simp [Policy.allows]
    rw [save_some hb]
    have hin : ∃ e ∈ mark ⟨s.db ++ [⟨id, saved fold tags id date m, false⟩], s.cur⟩, e.id = id ∧ e.msg = saved fold tags id date m := by
      have : (id, saved fold tags id date m) ∈ (mark ⟨s.db ++ [⟨id, saved fold tags id date m, false⟩], s.cur⟩).map (fun e => (e.id, e.msg)) := by
        rw [mark_ids, List.map_append]
        exact List.mem_append.2 (.inr (by simp))
      obtain ⟨e, h1, h2⟩ := List.mem_map.1 this
      exact ⟨e, h1, congrArg Prod.fst h2, congrArg Prod.snd h2⟩
    split
    · exact ⟨⟨id, saved fold tags id date m, false⟩, List.mem_append.2 (.inr (by simp)), rfl, rfl⟩
    · exact hin

/-- **C79** (the first line): only a first line that begins with `<#secure` and ends with `>` is taken from the body; of another body nothing is lost.  A message that was not saved is sent as if there
were no drafts. -/
theorem C79_first_line (fold : UInt8 → UInt8) (tags : List Str) (m : Msg) (id date : Str)
    (h : ¬ ∃ p x rest, m.body = p ++ x ++ [62, 10] ++ rest ∧ Same fold p (bs "<#secure") ∧ 10 ∉ p ++ x) :
    (saved fold tags id date m).body = (if tags = [] then m.body else quote fold tags m.body.length m.body) ∧
    ∀ (db : List Entry) (mk ok : Bool), step fold tags ⟨db, none⟩ (.send mk ok) = (⟨db, none⟩, ok) := by
  refine ⟨?_, fun _ _ _ => rfl⟩
  have hs : secureTag fold m.body = none := by
    cases hs : secureTag fold m.body with
    | none => rfl
    | some q =>
      refine absurd ?_ h
      obtain ⟨l, rest⟩ := q
      have hb := secureTag_eq hs
      unfold secureTag at hs
      cases hf : firstLine m.body with
      | none => rw [hf] at hs; cases hs
      | some q =>
        rw [hf] at hs
        dsimp only at hs
        split at hs
        · rename_i hc
          cases hs
          rw [Bool.and_eq_true] at hc
          obtain ⟨p, b, h1, h2⟩ := (pre_iff _ _).1 hc.1
          have hl : p.length = 8 := same_length h2
          have h3 : b.getLast? = some 62 := by
            have := hc.2
            rw [h1, List.drop_left' hl] at this
            simpa using this
          obtain ⟨x, hx⟩ := List.getLast?_eq_some_iff.1 h3
          have hno := firstLine_no _ _ _ hf
          refine ⟨p, x, q.2, ?_, h2, ?_⟩
          · rw [hb, h1, hx]; simp
          · intro hm
            apply hno
            rw [h1, hx, ← List.append_assoc]
            exact List.mem_append.2 (.inl hm)
        · cases hs
  unfold saved quoteMml
  dsimp only
  rw [hs]
  dsimp only
  cases tags with
  | nil => rfl
  | cons g gs => rfl

/-- **C79** (the newest draft is kept): a message is saved any number of times, and any of the commands may fail.  All that notmuch was given is in the database, after what was there; of what was there
at most the draft that was resumed is marked deleted, that only if a new one was saved; and the newest is never marked. -/
theorem C79_kept (fold : UInt8 → UInt8) (tags : List Str) (s : State) (es : List Event) (hn : NoSend es) (hnd : ((inserted fold tags es).map Prod.fst).Nodup)
    (hfr : ∀ i ∈ (inserted fold tags es).map Prod.fst, (∀ e ∈ s.db, e.id ≠ i) ∧ s.cur ≠ some i) :
    ∃ D : List Entry, ((run fold tags s es).db = s.db ++ D ∨ (run fold tags s es).db = mark s ++ D ∧ D ≠ []) ∧ D.map (fun e => (e.id, e.msg)) = inserted fold tags es ∧
      (∀ e, D.getLast? = some e → e.deleted = false) := by
  obtain ⟨D, h1, h2, h3, h4⟩ := history (fold := fold) (tags := tags) es s hn hnd hfr
  cases D with
  | nil => exact ⟨[], .inl (by rw [h4 (by rw [← h2]; rfl), List.append_nil]), h2, h3⟩
  | cons d D => exact ⟨d :: D, h1.imp id (fun h => ⟨h, by simp⟩), h2, h3⟩

/-- **C79** (only the newest): if no marking fails, all older ones are marked deleted, and so is the one that was resumed; and when the message is then sent, all are. -/
theorem C79_newest (fold : UInt8 → UInt8) (tags : List Str) (s : State) (es : List Event) (hn : NoSend es)
    (hok : ∀ id date m policy ins mk, Event.save id date m policy ins mk ∈ es → mk = true) (hnd : ((inserted fold tags es).map Prod.fst).Nodup)
    (hfr : ∀ i ∈ (inserted fold tags es).map Prod.fst, (∀ e ∈ s.db, e.id ≠ i) ∧ s.cur ≠ some i) (hne : inserted fold tags es ≠ []) :
    (run fold tags s es).db = mark s ++ ended (inserted fold tags es) ∧
    (run fold tags s (es ++ [.send true true])).db = mark s ++ (inserted fold tags es).map (fun x => ⟨x.1, x.2, true⟩) := by
  have h := history_ok (fold := fold) (tags := tags) es s hn hok hnd hfr hne
  refine ⟨by rw [h], ?_⟩
  have hrun : ∀ (es : List Event) (s : State) (e : Event), run fold tags s (es ++ [e]) = (step fold tags (run fold tags s es) e).1 := by
    intro es
    induction es with
    | nil => intro s e; rfl
    | cons x es ih => intro s e; exact ih _ e
  rw [hrun, h]
  have hx : ∃ x, (inserted fold tags es).getLast? = some x := by
    cases hl : (inserted fold tags es).getLast? with
    | none => exact absurd (List.getLast?_eq_none_iff.1 hl) hne
    | some x => exact ⟨x, rfl⟩
  obtain ⟨x, hx⟩ := hx
  rw [hx]
  show mark ⟨mark s ++ ended (inserted fold tags es), some x.1⟩ = _
  rw [mark_append, mark_fresh (a := mark s)]
  · congr 1
    generalize inserted fold tags es = L at hnd hx
    clear h hne hfr
    induction L with
    | nil => cases hx
    | cons y L ih =>
      cases L with
      | nil =>
        cases hx
        unfold mark
        dsimp only
        show [if y.1 == y.1 then (⟨y.1, y.2, true⟩ : Entry) else ⟨y.1, y.2, false⟩] = _
        rw [if_pos (by simp)]; rfl
      | cons z L =>
        rw [List.map_cons, List.nodup_cons] at hnd
        have hx' : (z :: L).getLast? = some x := by simpa using hx
        have := ih hnd.2 hx'
        show mark ⟨[⟨y.1, y.2, true⟩] ++ ended (z :: L), some x.1⟩ = _
        rw [mark_append, this, mark_fresh]
        · rfl
        · intro e he h
          rw [List.mem_singleton.1 he] at h
          exact hnd.1 (by
            rw [show y.1 = x.1 from h]
            exact List.mem_map_of_mem (List.mem_of_getLast? hx'))
  · intro e he h'
    obtain ⟨e', he', h2⟩ := mark_mem_id he
    exact (hfr x.1 (List.mem_map_of_mem (List.mem_of_getLast? hx))).1 e' he' (h2.trans h')

/-- Not so: if the message has a header X-Notmuch-Emacs-Secure, the tag that asks for encryption is gone when the draft is resumed, and the message would be sent in the clear. -/
theorem C79_secure_counterexample :
    let m : Msg := { headers := [(secureName, bs "x")], body := bs "<#secure method=pgpmime mode=encrypt>\nhello" }
    WantsEncryption asciiFold m.body ∧ (resumed asciiFold [] (saved asciiFold [] (bs "1") (bs "now") m)).1.body = bs "x\nhello" := by
  refine ⟨(encTag_iff _).1 ?_, ?_⟩ <;> decide +kernel

/-- Not so: a secure tag with another attribute after the mode is not seen, and the draft is saved in the clear although the user said never. -/
theorem C79_plain_counterexample :
    ¬ WantsEncryption asciiFold (bs "<#secure method=pgpmime mode=encrypt sender=me>\nhello") ∧
    (step asciiFold [] ⟨[], none⟩ (.save (bs "1") (bs "now") ⟨[], bs "<#secure method=pgpmime mode=encrypt sender=me>\nhello"⟩ .never true true)).2 = true := by
  refine ⟨fun h => ?_, by decide +kernel⟩
  have := (encTag_iff _).2 h
  revert this
  decide +kernel

/-- Not so: if an older draft could not be marked once, that draft is marked by the next saving, but the one saved in between never is, not even when the message is sent. -/
theorem C79_mark_counterexample :
    (run asciiFold [] ⟨[], none⟩ [.save (bs "1") (bs "now") ⟨[], bs "a"⟩ .never true true, .save (bs "2") (bs "now") ⟨[], bs "b"⟩ .never true false,
      .save (bs "3") (bs "now") ⟨[], bs "c"⟩ .never true true, .send true true]).db.map (fun e => (e.id, e.deleted)) = [(bs "1", true), (bs "2", false), (bs "3", true)] := by
  decide +kernel

/-- Not so: the draft is marked deleted before the message is sent, also if sending it fails. -/
theorem C79_send_counterexample :
    let s := run asciiFold [] ⟨[], none⟩ [.save (bs "1") (bs "now") ⟨[], bs "a"⟩ .never true true]
    step asciiFold [] s (.send true false) = (⟨[⟨bs "1", saved asciiFold [] (bs "1") (bs "now") ⟨[], bs "a"⟩, true⟩], some (bs "1")⟩, false) := by
  decide +kernel

private theorem foldOk_ascii : FoldOk asciiFold := by
  intro x hx c h
  have key : ∀ c : UInt8, (asciiFold 60 = asciiFold c → 60 = c) ∧ (asciiFold 35 = asciiFold c → 35 = c) ∧ (asciiFold 33 = asciiFold c → 33 = c) ∧ (asciiFold 47 = asciiFold c → 47 = c) := by
    intro c
    have : ∀ n : Fin 256, let c : UInt8 := UInt8.ofNat n.1
      (asciiFold 60 = asciiFold c → 60 = c) ∧ (asciiFold 35 = asciiFold c → 35 = c) ∧ (asciiFold 33 = asciiFold c → 33 = c) ∧ (asciiFold 47 = asciiFold c → 47 = c) := by decide +kernel
    have h := this ⟨c.toNat, c.toNat_lt⟩
    simpa using h
  have k := key c
  simp only [List.mem_cons, List.not_mem_nil, or_false] at hx
  rcases hx with rfl | rfl | rfl | rfl
  · exact k.1 h
  · exact k.2.1 h
  · exact k.2.2.1 h
  · exact k.2.2.2 h

/-- A draft with a secure tag and parts, of which some are quoted once already: what is saved, and that the hypotheses hold. -/
theorem C79_example :
    let m : Msg := { headers := [(bs "Subject", bs "s"), (bs "date", bs "old")], body := bs "<#secure mode=sign>\n<#part a><#!PART b><#/part><#multipart" }
    FoldOk asciiFold ∧ hasHeader m.headers secureName = false ∧ hasHeader m.headers draftName = false ∧
    saved asciiFold [bs "part"] (bs "1@x") (bs "now") m =
      { headers := [(bs "Subject", bs "s"), (bs "Message-ID", bs "<1@x>"), (bs "Date", bs "now"), (bs "X-Notmuch-Emacs-Draft", bs "True"), (bs "X-Notmuch-Emacs-Secure", bs "<#secure mode=sign>")],
        body := bs "<#!part a><#!!PART b><#!/part><#multipart" } ∧
    resumed asciiFold [bs "part"] (saved asciiFold [bs "part"] (bs "1@x") (bs "now") m) = ({ headers := [(bs "Subject", bs "s")], body := m.body }, true) := by
  refine ⟨foldOk_ascii, ?_, ?_, ?_, ?_⟩ <;> decide +kernel

end Notmuch.Props
