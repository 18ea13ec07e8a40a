import Verif.Proofs.DumpRestore

/-! Sup format; what restore can change at all. -/

namespace Notmuch.DumpRestore
open StringUtil TagUtil TagSpec DumpSpec

/-! ### Sup lines -/

theorem tokens_blank (w : Str) (h : ∀ c ∈ w, c = 32) : tokens w = [] := by
  have : strtokLen (· == 32) w = none := by
    unfold strtokLen
    have : ∀ c ∈ w, (c == 32) = true := by intro c hc; simp [h c hc]
    simp [dropWhile_eq_nil_of _ _ this]
  rw [tokens]
  split
  · rfl
  · rename_i h'; rw [this] at h'; simp at h'

theorem tokens_cons (t r : Str) (hne : t ≠ []) (ht : 32 ∉ t) (hr : r = [] ∨ ∃ r', r = 32 :: r') :
    tokens (t ++ r) = t :: tokens r := by
  have htok : strtokLen (· == 32) (t ++ r) = some (t, r) := by
    apply strtok_token hne
    · intro c hc; rw [beq_eq_false_iff_ne]; rintro rfl; exact ht hc
    · intro c hc
      rcases hr with rfl | ⟨r', rfl⟩
      · simp at hc
      · simp at hc; subst hc; decide
  rw [tokens]
  split
  · rename_i h; rw [htok] at h; simp at h
  · rename_i tok rest h
    rw [htok] at h
    simp at h
    rw [h.1, h.2]

theorem tokens_skip (r : Str) : tokens (32 :: r) = tokens r := by
  have : strtokLen (· == 32) (32 :: r) = strtokLen (· == 32) r := strtok_skip (by decide) r
  rw [tokens.eq_def (32 :: r), tokens.eq_def r]
  split
  · rename_i h
    rw [this] at h
    split
    · rfl
    · rename_i h'; rw [h] at h'; simp at h'
  · rename_i h
    rw [this] at h
    split
    · rename_i h'; rw [h] at h'; simp at h'
    · rename_i h'; rw [h] at h'; simp at h'; rw [h'.1, h'.2]

theorem tokens_words (ts : List Str) (h : ∀ t ∈ ts, t ≠ [] ∧ 32 ∉ t) :
    ∀ first, tokens (dumpSupWords ts first) = ts := by
  have e1 : bs " " = [32] := by decide +kernel
  induction ts with
  | nil => intro f; exact tokens_blank _ (by simp [dumpSupWords])
  | cons t ts ih =>
    intro first
    have ht := h t (by simp)
    have ih := ih (fun x hx => h x (by simp [hx])) false
    have hr : dumpSupWords ts false = [] ∨ ∃ r', dumpSupWords ts false = 32 :: r' := by
      cases ts with
      | nil => exact Or.inl rfl
      | cons a ts => exact Or.inr ⟨_, by simp [dumpSupWords, e1]; rfl⟩
    unfold dumpSupWords
    cases first
    · simp only [Bool.false_eq_true, if_false, e1, List.append_assoc, List.singleton_append]
      show tokens (32 :: (t ++ dumpSupWords ts false)) = _
      rw [tokens_skip, tokens_cons t _ ht.1 ht.2 hr, ih]
    · simp only [if_true, List.nil_append]
      rw [tokens_cons t _ ht.1 ht.2 hr, ih]

theorem supWords_mem {ts : List Str} {first : Bool} {c : UInt8} (h : c ∈ dumpSupWords ts first) :
    c = 32 ∨ ∃ t ∈ ts, c ∈ t := by
  have e1 : bs " " = [32] := by decide +kernel
  induction ts generalizing first with
  | nil => simp [dumpSupWords] at h
  | cons t ts ih =>
    unfold dumpSupWords at h
    rw [List.mem_append, List.mem_append] at h
    rcases h with (h | h) | h
    · cases first
      · simp [e1] at h; exact Or.inl h
      · simp at h
    · exact Or.inr ⟨t, by simp, h⟩
    · rcases ih h with h | ⟨x, hx, hc⟩
      · exact Or.inl h
      · exact Or.inr ⟨x, by simp [hx], hc⟩

theorem supLine_eq (m : Msg) : dumpTagsSup m =
    (m.id ++ 32 :: 40 :: (dumpSupWords m.tags true ++ [41])) ++ [10] := by
  have e1 : bs " (" = [32, 40] := by decide +kernel
  have e2 : bs ")\n" = [41, 10] := by decide +kernel
  simp [dumpTagsSup, e1, e2]

theorem supLine_no_nl (m : Msg) (h : SupMsg m) :
    10 ∉ m.id ++ 32 :: 40 :: (dumpSupWords m.tags true ++ [41]) := by
  intro hm
  simp only [List.mem_append, List.mem_cons, List.not_mem_nil, or_false] at hm
  rcases hm with hm | hm | hm | hm | hm
  · exact h.id_nl hm
  · revert hm; decide
  · revert hm; decide
  · rcases supWords_mem hm with hm | ⟨t, ht, hc⟩
    · revert hm; decide
    · exact (h.tag_ok t ht).2.2.2.1 hc
  · revert hm; decide

theorem parseSup_line (m : Msg) (h : SupMsg m) : parseSup (dumpTagsSup m) = some (m.id, m.tags) := by
  unfold parseSup
  rw [supLine_eq, chomp_append]
  have hne : ∀ a ∈ m.id, (a != 32) = true := by
    intro a ha; simp; rintro rfl; exact h.id_sp ha
  simp only [takeWhile_append_stop (· != 32) m.id 32 _ hne (by decide),
    dropWhile_append_stop (· != 32) m.id 32 _ hne (by decide)]
  have : m.id.isEmpty = false := by simpa using h.id_ne
  simp only [this, Bool.false_eq_true, if_false]
  rw [if_pos]
  · simp only [List.dropLast_concat]
    rw [tokens_words m.tags (fun t ht => ⟨(h.tag_ok t ht).1, (h.tag_ok t ht).2.1⟩)]
  · refine ⟨by simp, ?_⟩
    simp only [List.dropLast_concat]
    intro hm
    rcases supWords_mem hm with hm | ⟨t, ht, hc⟩
    · revert hm; decide
    · exact (h.tag_ok t ht).2.2.1 hc

theorem supLine_cons (m : Msg) (h : SupMsg m) : ∃ c r, dumpTagsSup m = c :: r ∧ c ≠ 35 := by
  rw [supLine_eq]
  cases hid : m.id with
  | nil => exact absurd hid h.id_ne
  | cons a id =>
    refine ⟨a, _, rfl, ?_⟩
    intro e; exact h.id_hash (by rw [hid]; simp [e])

theorem propsStep_nohash (inc : Include) (db : Db) (c : UInt8) (r : Str) (h : c ≠ 35) :
    propsStep inc db (c :: r) = .ok db := by
  unfold propsStep
  split
  · rename_i heq; simp at heq; exact absurd heq.1 h
  · rfl

theorem configStep_nohash (inc : Include) (db : Db) (c : UInt8) (r : Str) (h : c ≠ 35) :
    configStep inc db (c :: r) = .ok db := by
  unfold configStep
  split
  · rename_i heq; simp at heq; exact absurd heq.1 h
  · rfl

theorem splitLines_sup (ms : List Msg) (h : ∀ m ∈ ms, SupMsg m) :
    splitLines (ms.flatMap dumpTagsSup) = ms.map dumpTagsSup := by
  induction ms with
  | nil => rfl
  | cons m ms ih =>
    rw [List.flatMap_cons, supLine_eq]
    rw [List.append_assoc _ [10], List.singleton_append,
      splitLines_line _ (supLine_no_nl m (h m (by simp))), ih (fun x hx => h x (by simp [hx]))]
    simp [supLine_eq]

theorem loop2_sup (o : Opts) (ms : List Msg) (h : ∀ m ∈ ms, SupMsg m)
    (hnd : (ms.map (·.id)).Nodup) : ∀ db : Db, (∀ m ∈ ms, (findMsg db m.id).isSome) →
    ∃ db', loop2 o true (ms.map dumpTagsSup) db = .ok db' ∧
      db'.msgs.map (·.id) = db.msgs.map (·.id) ∧ db'.config = db.config ∧
      (∀ x, x ∉ ms.map (·.id) → findMsg db' x = findMsg db x) ∧
      ∀ m ∈ ms, ∃ d d', findMsg db m.id = some d ∧ findMsg db' m.id = some d' ∧
        d'.props = d.props ∧ ∀ t, t ∈ d'.tags ↔ t ∈ m.tags ∨ (o.accumulate = true ∧ t ∈ d.tags) := by
  induction ms with
  | nil => intro db _; exact ⟨db, rfl, rfl, rfl, fun _ _ => rfl, by simp⟩
  | cons m ms ih =>
    intro db hex
    have hm := h m (by simp)
    obtain ⟨d, hd⟩ := Option.isSome_iff_exists.1 (hex m (by simp))
    obtain ⟨db1, d1, hrun, hse, hf, hp, htg⟩ := tagMessage_adds db m.id m.tags (!o.accumulate) d
      (fun t ht => (hm.tag_ok t ht).2.2.2.2) hd
    rw [List.map_cons, List.nodup_cons] at hnd
    obtain ⟨db', h1, h2, h3, h4, h5⟩ := ih (fun m hm => h m (by simp [hm])) hnd.2 db1
      (fun x hx => findMsg_isSome_of_ids hse.ids _ (hex x (by simp [hx])))
    obtain ⟨c, r, e, hc⟩ := supLine_cons m hm
    refine ⟨db', ?_, h2.trans hse.ids, h3.trans hse.config, ?_, ?_⟩
    · rw [List.map_cons, loop2]
      have : propsStep o.inc db (dumpTagsSup m) = .ok db := by rw [e]; exact propsStep_nohash _ _ _ _ hc
      rw [this]
      simp only [tagStep, if_true, parseSup_line m hm, hrun]
      exact h1
    · intro x hx
      rw [List.map_cons, List.mem_cons, not_or] at hx
      rw [h4 x hx.2, hse.other x hx.1]
    · intro x hx
      rw [List.mem_cons] at hx
      rcases hx with rfl | hx
      · exact ⟨d, d1, hd, by rw [h4 _ hnd.1, hf], hp, fun t => by rw [htg]; simp⟩
      · obtain ⟨a, a', ha, ha', hr⟩ := h5 x hx
        refine ⟨a, a', ?_, ha', hr⟩
        rw [← ha]
        symm
        apply hse.other
        intro e
        exact hnd.1 (e ▸ List.mem_map_of_mem hx)

theorem restore_sup (o : Opts) (src dst : Db) (hit : (o.inc.tags || o.inc.properties) = true)
    (hfmt : o.format ≠ .batchTag)
    (hsrc : ∀ m ∈ src.msgs, SupMsg m) (hnd : (src.msgs.map (·.id)).Nodup)
    (hex : ∀ m ∈ src.msgs, (findMsg dst m.id).isSome) :
    ∃ db', restore o (dumpSup src) dst = .ok db' ∧
      db'.msgs.map (·.id) = dst.msgs.map (·.id) ∧ db'.config = dst.config ∧
      (∀ x, x ∉ src.msgs.map (·.id) → findMsg db' x = findMsg dst x) ∧
      ∀ m ∈ src.msgs, ∃ d d', findMsg dst m.id = some d ∧ findMsg db' m.id = some d' ∧
        d'.props = d.props ∧ ∀ t, t ∈ d'.tags ↔ t ∈ m.tags ∨ (o.accumulate = true ∧ t ∈ d.tags) := by
  have key := loop2_sup o src.msgs hsrc hnd dst hex
  suffices restore o (dumpSup src) dst = loop2 o true (src.msgs.map dumpTagsSup) dst by
    rw [this]; exact key
  clear key
  have hh : ∃ l, bs "#notmuch-dump sup:3 tags\n" = (35 :: 110 :: l) ++ [10] ∧ 10 ∉ (35 :: 110 :: l) :=
    ⟨bs "otmuch-dump sup:3 tags", by decide +kernel, by decide +kernel⟩
  obtain ⟨l, el, hl⟩ := hh
  unfold restore dumpSup
  rw [el, List.append_assoc, List.singleton_append, splitLines_line _ hl, splitLines_sup _ hsrc]
  rw [List.cons_append, List.cons_append, loop1]
  have h1 : configStep o.inc dst (35 :: 110 :: (l ++ [10])) = .ok dst := by
    unfold configStep; split
    · rename_i h; simp at h
    · rfl
  have h2 : propsStep o.inc dst (35 :: 110 :: (l ++ [10])) = .ok dst := by
    unfold propsStep; split
    · rename_i h; simp at h
    · rfl
  simp only [h1, h2]
  rw [if_pos (by simp [skipLine])]
  cases hm : src.msgs with
  | nil => rfl
  | cons m ms =>
    have hsm := hsrc m (by simp [hm])
    obtain ⟨c, r, e, hc⟩ := supLine_cons m hsm
    rw [List.map_cons, loop1]
    have c1 : configStep o.inc dst (dumpTagsSup m) = .ok dst := by
      rw [e]; exact configStep_nohash _ _ _ _ hc
    have c2 : propsStep o.inc dst (dumpTagsSup m) = .ok dst := by
      rw [e]; exact propsStep_nohash _ _ _ _ hc
    have hmem : (40 : UInt8) ∈ dumpTagsSup m := by rw [supLine_eq]; simp
    have c3 : skipLine (dumpTagsSup m) = false := by
      unfold skipLine
      rw [Bool.or_eq_false_iff, Bool.or_eq_false_iff]
      refine ⟨⟨by rw [e]; rfl, by rw [e]; simp [hc]⟩, ?_⟩
      rw [List.all_eq_false]
      exact ⟨40, hmem, by decide⟩
    simp only [c1, c2, c3, Bool.false_eq_true, if_false, hit, Bool.not_true]
    congr 1
    cases hf : o.format
    · simp [hmem]
    · exact absurd hf hfmt
    · rfl

/-! ### What restore may change -/

/-- `db'` has the messages of `db`, possibly with other tags and properties. -/
def Touch (inc : Include) (db db' : Db) : Prop :=
  db'.msgs.map (·.id) = db.msgs.map (·.id) ∧
  (inc.config = false → db'.config = db.config) ∧
  (inc.properties = false → db'.msgs.map (fun m => (m.id, m.props)) = db.msgs.map (fun m => (m.id, m.props)))

theorem Touch.refl (inc : Include) (db : Db) : Touch inc db db := ⟨rfl, fun _ => rfl, fun _ => rfl⟩

theorem Touch.trans {inc : Include} {a b c : Db} (h : Touch inc a b) (h' : Touch inc b c) :
    Touch inc a c :=
  ⟨h'.1.trans h.1, fun e => (h'.2.1 e).trans (h.2.1 e), fun e => (h'.2.2 e).trans (h.2.2 e)⟩

theorem map_upd (msgs : List Msg) (id : Str) (f : Msg → Msg) {β} (g : Msg → β)
    (h : ∀ m, g (f m) = g m) :
    (msgs.map (fun m => if m.id == id then f m else m)).map g = msgs.map g := by
  rw [List.map_map]
  apply List.map_congr_left
  intro m _
  simp only [Function.comp]
  split <;> simp [h]

theorem touch_props (inc : Include) (hp : inc.properties = true) (db : Db) (id : Str)
    (p : List (Str × Str)) : Touch inc db (updMsg db id (fun m => { m with props := p })) :=
  ⟨map_upd _ _ _ _ (fun _ => rfl), fun _ => rfl, fun h => by simp [hp] at h⟩

theorem touch_tags (inc : Include) (db : Db) (id : Str)
    (t : List Str) : Touch inc db (updMsg db id (fun m => { m with tags := t })) :=
  ⟨map_upd _ _ _ _ (fun _ => rfl), fun _ => rfl, fun _ => map_upd _ _ _ _ (fun _ => rfl)⟩

theorem touch_config (inc : Include) (hc : inc.config = true) (db : Db) (k v : Str) :
    Touch inc db (setConfig db k v) :=
  ⟨rfl, fun h => by simp [hc] at h, fun _ => rfl⟩

theorem propsLoop_touch (inc : Include) (hp : inc.properties = true) (id : Str) :
    ∀ (s : Str) (db db' : Db), (propsLoop db id s).db? = some db' → Touch inc db db' := by
  intro s
  induction hn : s.length using Nat.strongRecOn generalizing s with
  | _ n ih =>
    intro db db' h
    rw [propsLoop] at h
    split at h
    · simp [Res.db?] at h; subst h; exact .refl _ _
    · rename_i tok rest htok
      have hlt := strtokLen_rest_lt htok
      split at h
      · simp only at h
        split at h
        · split at h
          · simp [Res.db?] at h; subst h; exact .refl _ _
          · exact (touch_props inc hp db id _).trans (ih _ (by omega) rest rfl _ _ h)
        · simp [Res.db?] at h; subst h; exact .refl _ _
      · split at h
        · simp [Res.db?] at h
        · simp [Res.db?] at h; subst h; exact .refl _ _

theorem propsStep_touch (inc : Include) (db db' : Db) (l : Str)
    (h : (propsStep inc db l).db? = some db') : Touch inc db db' := by
  unfold propsStep at h
  split at h
  · rename_i hp
    unfold processPropsLine at h
    split at h
    · simp [Res.db?] at h
    · split at h
      · simp [Res.db?] at h; subst h; exact .refl _ _
      · split at h
        · simp [Res.db?] at h
        · exact (touch_props inc hp db _ _).trans (propsLoop_touch inc hp _ _ _ _ h)
  · simp [Res.db?] at h; subst h; exact .refl _ _

theorem configStep_touch (inc : Include) (db db' : Db) (l : Str)
    (h : (configStep inc db l).db? = some db') : Touch inc db db' := by
  unfold configStep at h
  split at h
  · rename_i hc
    unfold processConfigLine at h
    split at h
    · simp [Res.db?] at h
    · split at h
      · simp [Res.db?] at h
      · split at h
        · simp [Res.db?] at h; subst h; exact touch_config inc hc _ _ _
        · simp [Res.db?] at h; subst h; exact .refl _ _
  · simp [Res.db?] at h; subst h; exact .refl _ _

theorem tagMessage_touch (inc : Include) (db db' : Db) (id : Str) (ops : List TagOp) (ra : Bool)
    (h : (tagMessage db id ops ra).db? = some db') : Touch inc db db' := by
  unfold tagMessage at h
  split at h
  · simp [Res.db?] at h; subst h; exact .refl _ _
  · split at h
    · split at h
      · simp [Res.db?] at h; subst h; exact .refl _ _
      · simp [Res.db?] at h; subst h; exact touch_tags _ _ _ _
    · simp [Res.db?] at h; subst h; exact .refl _ _

theorem tagStep_touch (inc : Include) (sup ra : Bool) (db db' : Db) (l : Str)
    (h : (tagStep sup ra db l).db? = some db') : Touch inc db db' := by
  unfold tagStep at h
  split at h
  · split at h
    · simp [Res.db?] at h; subst h; exact .refl _ _
    · exact tagMessage_touch inc _ _ _ _ _ h
  · split at h
    · split at h
      · split at h
        · exact tagMessage_touch inc _ _ _ _ _ h
        · simp [Res.db?] at h; subst h; exact .refl _ _
      · simp [Res.db?] at h; subst h; exact .refl _ _
    · simp [Res.db?] at h; subst h; exact .refl _ _

theorem loop2_touch (o : Opts) (sup : Bool) (ls : List Str) : ∀ db db',
    (loop2 o sup ls db).db? = some db' → Touch o.inc db db' := by
  induction ls with
  | nil => intro db db' h; simp [loop2, Res.db?] at h; subst h; exact .refl _ _
  | cons l ls ih =>
    intro db db' h
    rw [loop2] at h
    split at h
    · rename_i db1 h1
      have t1 := propsStep_touch o.inc db db1 l (by rw [h1]; rfl)
      split at h
      · rename_i db2 h2
        have t2 := tagStep_touch o.inc _ _ db1 db2 l (by rw [h2]; rfl)
        exact (t1.trans t2).trans (ih _ _ h)
      · exact t1.trans (tagStep_touch o.inc _ _ db1 db' l h)
    · exact propsStep_touch o.inc db db' l h

theorem loop1_touch (o : Opts) (ls : List Str) : ∀ db db',
    (loop1 o ls db).db? = some db' → Touch o.inc db db' := by
  induction ls with
  | nil => intro db db' h; simp [loop1, Res.db?] at h; subst h; exact .refl _ _
  | cons l ls ih =>
    intro db db' h
    rw [loop1] at h
    split at h
    · rename_i db1 h1
      have t1 := configStep_touch o.inc db db1 l (by rw [h1]; rfl)
      split at h
      · rename_i db2 h2
        have t2 := propsStep_touch o.inc db1 db2 l (by rw [h2]; rfl)
        split at h
        · exact (t1.trans t2).trans (ih _ _ h)
        · split at h
          · simp [Res.db?] at h; subst h; exact t1.trans t2
          · exact (t1.trans t2).trans (loop2_touch o _ _ _ _ h)
      · exact t1.trans (propsStep_touch o.inc db1 db' l h)
    · exact configStep_touch o.inc db db' l h

/-- With neither tags nor properties included no message changes at all. -/
theorem loop1_configOnly (o : Opts) (h1 : o.inc.tags = false) (h2 : o.inc.properties = false)
    (ls : List Str) : ∀ db db', (loop1 o ls db).db? = some db' → db'.msgs = db.msgs := by
  have hcfg : ∀ db db' l, (configStep o.inc db l).db? = some db' → db'.msgs = db.msgs := by
    intro db db' l h
    unfold configStep at h
    split at h
    · unfold processConfigLine at h
      split at h
      · simp [Res.db?] at h
      · split at h
        · simp [Res.db?] at h
        · split at h
          · simp [Res.db?] at h; subst h; rfl
          · simp [Res.db?] at h; subst h; rfl
    · simp [Res.db?] at h; subst h; rfl
  have hps : ∀ db l, propsStep o.inc db l = .ok db := by
    intro db l; unfold propsStep; rw [h2]
  induction ls with
  | nil => intro db db' h; simp [loop1, Res.db?] at h; subst h; rfl
  | cons l ls ih =>
    intro db db' h
    rw [loop1] at h
    split at h
    · rename_i db1 hdb1
      have t1 := hcfg db db1 l (by rw [hdb1]; rfl)
      simp only [hps, h1, h2, Bool.or_self, Bool.not_false, if_true] at h
      split at h
      · exact (ih _ _ h).trans t1
      · simp [Res.db?] at h; subst h; exact t1
    · exact hcfg db db' l h

end Notmuch.DumpRestore
