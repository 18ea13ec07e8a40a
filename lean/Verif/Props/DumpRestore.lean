import Verif.Proofs.DumpRestore2
import Verif.Spec.DumpRestore
import Verif.Props.TagOps

/-!
# C08, C09, C32, C33: notmuch dump and notmuch restore
-/

namespace Notmuch.Props
open Notmuch.DumpRestore Notmuch.DumpSpec Notmuch.TagUtil

/-- With unique ids, looking up an id finds the stored message with that id. -/
theorem findMsg_iff_has {db : Db} (h : (db.msgs.map (·.id)).Nodup) (x : Str) (m : Msg) :
    findMsg db x = some m ↔ Has db x m := by
  unfold findMsg Has
  constructor
  · intro hf
    exact ⟨List.mem_of_find?_eq_some hf, by simpa using List.find?_some hf⟩
  · rintro ⟨hm, rfl⟩
    revert h hm
    generalize db.msgs = l
    intro h hm
    induction l with
    | nil => simp at hm
    | cons a l ih =>
      rw [List.map_cons, List.nodup_cons] at h
      rw [List.find?_cons]
      by_cases e : a.id = m.id
      · simp only [e, beq_self_eq_true]
        rcases List.mem_cons.1 hm with rfl | hm
        · rfl
        · exact absurd (e ▸ List.mem_map_of_mem hm) h.1
      · simp only [beq_eq_false_iff_ne.2 e]
        rcases List.mem_cons.1 hm with rfl | hm
        · exact absurd rfl e
        · exact ih h.2 hm

theorem findMsg_isSome_of_has {db : Db} {x : Str} (h : ∃ m, Has db x m) : (findMsg db x).isSome := by
  obtain ⟨m, hm, rfl⟩ := h
  unfold findMsg
  rw [List.find?_isSome]
  exact ⟨m, hm, by simp⟩

/-- The options of a plain `notmuch restore`: everything is included. -/
def plain (acc : Bool) (f : Format) : Opts :=
  { inc := ⟨true, true, true⟩, accumulate := acc, format := f }

/-- The dump is recognised as batch-tag: the format is given, or it is detected and the first
message id contains no `(`. -/
def Recognised (f : Format) (src : Db) : Prop :=
  f = .batchTag ∨ (f = .auto ∧ ∀ m, src.msgs.head? = some m → 40 ∉ m.id)

theorem restore_dump_has (f : Format) (acc : Bool) (inc : Include) (src dst : Db)
    (hsrc : ValidDb src) (hdst : (dst.msgs.map (·.id)).Nodup)
    (hex : ∀ m ∈ src.msgs, ∃ d, Has dst m.id d) (hfmt : Recognised f src) :
    ∃ dst', restore (plain acc f) (dump inc src) dst = .ok dst' ∧
      dst'.msgs.map (·.id) = dst.msgs.map (·.id) ∧
      (∀ kv, kv ∈ dst'.config ↔
        (inc.config = true ∧ kv ∈ src.config) ∨
        ((inc.config = true → kv.1 ∉ src.config.map (·.1)) ∧ kv ∈ dst.config)) ∧
      (∀ x, x ∉ src.msgs.map (·.id) → ∀ d, Has dst' x d ↔ Has dst x d) ∧
      ∀ m ∈ src.msgs, ∀ d, Has dst m.id d → ∃ d', Has dst' m.id d' ∧ Restored inc acc m d d' := by
  obtain ⟨dst', h1, h2, h3, h4, h5⟩ := restore_dump (plain acc f) inc src dst ⟨rfl, rfl⟩ hsrc
    (fun m hm => findMsg_isSome_of_has (hex m hm)) hfmt
  have hdst' : (dst'.msgs.map (·.id)).Nodup := h2 ▸ hdst
  refine ⟨dst', h1, h2, h3, ?_, ?_⟩
  · intro x hx d
    rw [← findMsg_iff_has hdst', ← findMsg_iff_has hdst, h4 x hx]
  · intro m hm d hd
    obtain ⟨d0, d', hd0, hd', hr⟩ := h5 m hm
    rw [← findMsg_iff_has hdst, hd0] at hd
    cases hd
    exact ⟨d', (findMsg_iff_has hdst' _ _).1 hd', hr⟩

theorem has_unique {db : Db} (h : (db.msgs.map (·.id)).Nodup) {x : Str} {a b : Msg}
    (ha : Has db x a) (hb : Has db x b) : a = b := by
  rw [← findMsg_iff_has h] at ha hb
  rw [ha] at hb; cases hb; rfl

/-- **C08**: dump (with tags) and restore (without `--accumulate`) into a database that holds the
dumped messages succeeds, keeps the set of messages, gives every dumped message exactly its
tags at the time of the dump, and leaves every other message alone. -/
theorem C08_tags_roundtrip (f : Format) (inc : Include) (src dst : Db) (htags : inc.tags = true)
    (hsrc : ValidDb src) (hdst : (dst.msgs.map (·.id)).Nodup)
    (hex : ∀ m ∈ src.msgs, ∃ d, Has dst m.id d) (hfmt : Recognised f src) :
    ∃ dst', restore (plain false f) (dump inc src) dst = .ok dst' ∧
      dst'.msgs.map (·.id) = dst.msgs.map (·.id) ∧
      (∀ m ∈ src.msgs, ∀ d', Has dst' m.id d' → ∀ t, t ∈ d'.tags ↔ t ∈ m.tags) ∧
      (∀ x, x ∉ src.msgs.map (·.id) → ∀ d, Has dst' x d ↔ Has dst x d) := by
  obtain ⟨dst', h1, h2, _, h4, h5⟩ := restore_dump_has f false inc src dst hsrc hdst hex hfmt
  refine ⟨dst', h1, h2, ?_, h4⟩
  intro m hm d' hd' t
  obtain ⟨d, hd⟩ := hex m hm
  obtain ⟨d'', hd'', hr⟩ := h5 m hm d hd
  rw [has_unique (h2 ▸ hdst) hd' hd'']
  simpa using hr.1 htags t

/-- **C08** (header): the first line of a dump names the format, its version and exactly the kinds of
data included, separated by commas. -/
theorem C08_header (inc : Include) (db : Db) :
    (splitLines (dump inc db)).head? = some (bs "#notmuch-dump batch-tag:3 " ++
      List.intercalate (bs ",") ((if inc.config then [bs "config"] else []) ++
        (if inc.properties then [bs "properties"] else []) ++ (if inc.tags then [bs "tags"] else [])) ++ [10]) := by
  obtain ⟨l, h1, h2⟩ := header_line inc
  unfold dump
  rw [List.append_assoc, h1, List.append_assoc, List.singleton_append, splitLines_line _ h2]
  simp only [List.head?_cons, Option.some.injEq]
  rw [← h1]
  obtain ⟨a, b, c⟩ := inc
  cases a <;> cases b <;> cases c <;> decide +kernel

/-- With `--accumulate` the tags of the dump are added to the present ones. -/
theorem C08_accumulate (f : Format) (inc : Include) (src dst : Db) (htags : inc.tags = true)
    (hsrc : ValidDb src) (hdst : (dst.msgs.map (·.id)).Nodup)
    (hex : ∀ m ∈ src.msgs, ∃ d, Has dst m.id d) (hfmt : Recognised f src) :
    ∃ dst', restore (plain true f) (dump inc src) dst = .ok dst' ∧
      dst'.msgs.map (·.id) = dst.msgs.map (·.id) ∧
      (∀ m ∈ src.msgs, ∀ d d', Has dst m.id d → Has dst' m.id d' →
        ∀ t, t ∈ d'.tags ↔ t ∈ m.tags ∨ t ∈ d.tags) ∧
      (∀ x, x ∉ src.msgs.map (·.id) → ∀ d, Has dst' x d ↔ Has dst x d) := by
  obtain ⟨dst', h1, h2, _, h4, h5⟩ := restore_dump_has f true inc src dst hsrc hdst hex hfmt
  refine ⟨dst', h1, h2, ?_, h4⟩
  intro m hm d d' hd hd' t
  obtain ⟨d'', hd'', hr⟩ := h5 m hm d hd
  rw [has_unique (h2 ▸ hdst) hd' hd'']
  simpa using hr.1 htags t

/-- An example database: awkward ids, tags and properties. -/
def exSrc : Db :=
  { msgs := [⟨bs "a@b", [bs "inbox", bs "to do", bs "-x"], [(bs "k", bs "v w"), (bs "k", [])]⟩,
             ⟨bs "x \"y(", [], []⟩]
    config := [(bs "query.todo", bs "tag:\"to do\"")] }
def exDst : Db :=
  { msgs := [⟨bs "x \"y(", [bs "old"], [(bs "p", bs "q")]⟩, ⟨bs "z", [bs "keep"], []⟩,
             ⟨bs "a@b", [bs "old"], [(bs "p", bs "q")]⟩]
    config := [(bs "query.todo", bs "old"), (bs "other", bs "1")] }

theorem exSrc_valid : ValidDb exSrc := by
  refine ⟨?_, by decide +kernel, ?_, by decide +kernel⟩
  · intro m hm
    simp only [exSrc, List.mem_cons, List.not_mem_nil, or_false] at hm
    rcases hm with rfl | rfl
    · exact ⟨by decide +kernel, by decide +kernel, by decide +kernel, by decide +kernel, by decide +kernel⟩
    · exact ⟨by decide +kernel, by decide +kernel, by decide +kernel, by decide +kernel, by decide +kernel⟩
  · decide +kernel

example : ValidDb exSrc ∧ (exDst.msgs.map (·.id)).Nodup ∧ (∀ m ∈ exSrc.msgs, ∃ d, Has exDst m.id d) ∧
    Recognised .auto exSrc := by
  refine ⟨exSrc_valid, by decide +kernel, ?_, Or.inr ⟨rfl, ?_⟩⟩
  · intro m hm
    simp only [exSrc, List.mem_cons, List.not_mem_nil, or_false] at hm
    rcases hm with rfl | rfl
    · exact ⟨_, List.mem_cons_of_mem _ (List.mem_cons_of_mem _ (List.mem_cons_self)), rfl⟩
    · exact ⟨_, List.mem_cons_self, rfl⟩
  · rintro m ⟨⟩; decide +kernel

/-- The condition on format detection is needed: with `--format=auto` (the default) a dump whose
first message id contains `(` is read as a sup dump and none of its tags are restored, although
restore reports success. -/
theorem C08_auto_detection_counterexample :
    ∃ src dst : Db, ValidDb src ∧ (dst.msgs.map (·.id)).Nodup ∧
      src.msgs.map (·.id) = dst.msgs.map (·.id) ∧
      (∃ m ∈ src.msgs, m.tags ≠ []) ∧
      restore (plain false .auto) (dump ⟨true, true, true⟩ src) dst = .ok dst ∧
      ∀ d ∈ dst.msgs, d.tags = [] := by
  refine ⟨⟨[⟨bs "a(b", [bs "inbox"], []⟩], []⟩, ⟨[⟨bs "a(b", [], []⟩], []⟩, ⟨?_, by decide +kernel,
    by simp [ValidConfig]⟩, by decide +kernel, rfl, by simp, by decide +kernel, by simp⟩
  intro m hm
  rw [List.mem_singleton.1 hm]
  exact ⟨by decide +kernel, by decide +kernel, by decide +kernel, by decide +kernel, by decide +kernel⟩

/-- **C09** (partial): after dump and restore every dumped message *that had a property* has
exactly the properties it had; every dumped configuration item has its value back; items that
were not dumped are kept.  Missing: messages without any property (see below). -/
theorem C09_props_config_roundtrip_partial (f : Format) (acc : Bool) (inc : Include) (src dst : Db)
    (hp : inc.properties = true) (hc : inc.config = true)
    (hsrc : ValidDb src) (hdst : (dst.msgs.map (·.id)).Nodup)
    (hex : ∀ m ∈ src.msgs, ∃ d, Has dst m.id d) (hfmt : Recognised f src) :
    ∃ dst', restore (plain acc f) (dump inc src) dst = .ok dst' ∧
      (∀ m ∈ src.msgs, m.props ≠ [] → ∀ d', Has dst' m.id d' → ∀ kv, kv ∈ d'.props ↔ kv ∈ m.props) ∧
      (∀ kv, kv ∈ dst'.config ↔ kv ∈ src.config ∨ (kv.1 ∉ src.config.map (·.1) ∧ kv ∈ dst.config)) := by
  obtain ⟨dst', h1, h2, h3, h4, h5⟩ := restore_dump_has f acc inc src dst hsrc hdst hex hfmt
  refine ⟨dst', h1, ?_, ?_⟩
  · intro m hm hne d' hd'
    obtain ⟨d, hd⟩ := hex m hm
    obtain ⟨d'', hd'', hr⟩ := h5 m hm d hd
    rw [has_unique (h2 ▸ hdst) hd' hd'']
    exact hr.2.2.1 hp hne
  · intro kv
    simpa [hc] using h3 kv

/-- Why it is partial: dump writes no property line for a message without properties, so restore
cannot remove the properties such a message has in the destination. -/
theorem C09_stale_properties_counterexample :
    ∃ src dst dst' : Db, ValidDb src ∧ src.msgs.map (·.id) = dst.msgs.map (·.id) ∧
      restore (plain false .auto) (dump ⟨true, true, true⟩ src) dst = .ok dst' ∧
      (∀ m ∈ src.msgs, m.props = []) ∧ ∃ d ∈ dst'.msgs, d.props ≠ [] := by
  refine ⟨⟨[⟨bs "a", [], []⟩], []⟩, ⟨[⟨bs "a", [], [(bs "p", bs "q")]⟩], []⟩,
    ⟨[⟨bs "a", [], [(bs "p", bs "q")]⟩], []⟩, ⟨?_, by decide +kernel,
    by simp [ValidConfig]⟩, rfl, by decide +kernel, by simp, by simp⟩
  intro m hm
  rw [List.mem_singleton.1 hm]
  exact ⟨by decide +kernel, by decide +kernel, by decide +kernel, by decide +kernel, by decide +kernel⟩

/-- Restoring properties of a message that is not in the database dereferences a NULL message. -/
theorem C09_missing_message_counterexample :
    ∃ src : Db, ValidDb src ∧ ∀ dst : Db, dst.msgs = [] →
      restore (plain false .batchTag) (dump ⟨true, true, true⟩ src) dst = .ub := by
  refine ⟨⟨[⟨bs "a", [], [(bs "p", bs "q")]⟩], []⟩, ⟨?_, by decide +kernel,
    by simp [ValidConfig]⟩, ?_⟩
  · intro m hm
    rw [List.mem_singleton.1 hm]
    exact ⟨by decide +kernel, by decide +kernel, by decide +kernel, by decide +kernel, by decide +kernel⟩
  · rintro ⟨_, cfg⟩ rfl
    have hl : splitLines (dump ⟨true, true, true⟩ ⟨[⟨bs "a", [], [(bs "p", bs "q")]⟩], []⟩) =
        [bs "#notmuch-dump batch-tag:3 config,properties,tags\n", bs " -- id:a\n", bs "#= a p=q\n"] := by
      decide +kernel
    unfold restore
    rw [hl]
    have e1 : bs "#notmuch-dump batch-tag:3 config,properties,tags\n" =
      35 :: 110 :: bs "otmuch-dump batch-tag:3 config,properties,tags\n" := by decide +kernel
    have e2 : bs " -- id:a\n" = 32 :: bs "-- id:a\n" := by decide +kernel
    have e3 : bs "#= a p=q\n" = 35 :: 61 :: bs " a p=q\n" := by decide +kernel
    have t1 : StringUtil.strtokLen isDelim (bs " a p=q\n") = some (bs "a", bs " p=q\n") := by decide +kernel
    have t2 : Hex.decode (bs "a") = some (bs "a") := by decide +kernel
    have p1 : parseTagLine true (bs " -- id:a\n") = .ok [] (bs "id:a") := by decide +kernel
    have p2 : StringUtil.parseBooleanTerm (bs "id:a") = some (bs "id", bs "a") := by decide +kernel
    have hs : skipLine (bs " -- id:a\n") = false := by decide +kernel
    rw [e1, loop1]
    have c1 : ∀ db, configStep (plain false .batchTag).inc db
        (35 :: 110 :: bs "otmuch-dump batch-tag:3 config,properties,tags\n") = .ok db := by
      intro db; unfold configStep; split
      · rename_i h; simp at h
      · rfl
    have c2 : ∀ db, propsStep (plain false .batchTag).inc db
        (35 :: 110 :: bs "otmuch-dump batch-tag:3 config,properties,tags\n") = .ok db := by
      intro db; unfold propsStep; split
      · rename_i h; simp at h
      · rfl
    simp only [c1, c2, skipLine, List.head?_cons, beq_self_eq_true, Bool.or_true, Bool.true_or, if_true]
    rw [loop1]
    have d1 : ∀ db, configStep (plain false .batchTag).inc db (bs " -- id:a\n") = .ok db :=
      fun db => by rw [e2]; exact configStep_nohash _ _ _ _ (by decide)
    have d2 : ∀ db, propsStep (plain false .batchTag).inc db (bs " -- id:a\n") = .ok db :=
      fun db => by rw [e2]; exact propsStep_nohash _ _ _ _ (by decide)
    simp only [d1, d2, hs, Bool.false_eq_true, if_false]
    simp only [plain, Bool.or_self, Bool.not_true, Bool.false_eq_true, if_false]
    rw [loop2]
    have d3 : ∀ db, propsStep ⟨true, true, true⟩ db (bs " -- id:a\n") = .ok db := d2
    simp only [d3, tagStep, p1, p2, Bool.false_eq_true, if_false, if_true, tagMessage, findMsg,
      List.find?_nil]
    rw [loop2]
    simp only [propsStep, e3, processPropsLine, t1, t2, findMsg, List.find?_nil]

/-- **C32** (partial): whatever the input (also malformed, also when restore stops with an error),
restore never adds or removes a message; configuration changes only if included; properties
change only if included; and with neither tags nor properties included no message changes.
Missing: "tags change only if included", which fails (see below). -/
theorem C32_restore_scope_partial (o : Opts) (input : Str) (db db' : Db)
    (h : (restore o input db).db? = some db') :
    db'.msgs.map (·.id) = db.msgs.map (·.id) ∧
    (o.inc.config = false → db'.config = db.config) ∧
    (o.inc.properties = false → db'.msgs.map (fun m => (m.id, m.props)) = db.msgs.map (fun m => (m.id, m.props))) ∧
    (o.inc.tags = false → o.inc.properties = false → db'.msgs = db.msgs) := by
  obtain ⟨h1, h2, h3⟩ := loop1_touch o (splitLines input) db db' h
  exact ⟨h1, h2, h3, fun ht hp => loop1_configOnly o ht hp _ db db' h⟩

example : (restore ⟨⟨false, true, false⟩, true, .auto⟩ (bs "#= a p=q\n garbage%zz (\n") exDst).db? = none ∧
    (restore ⟨⟨false, true, false⟩, true, .auto⟩ (bs "#= z p=q\n+garbage%zz (\n") exDst).db?.isSome := by
  decide +kernel

/-- `notmuch restore --include=properties` still changes tags: the tag lines of the dump are
applied, and without `--accumulate` the other tags are removed. -/
theorem C32_include_properties_counterexample :
    ∃ (o : Opts) (input : Str) (db db' : Db), o.inc.tags = false ∧
      restore o input db = .ok db' ∧ ∃ d ∈ db.msgs, ∃ d' ∈ db'.msgs, d.id = d'.id ∧
        bs "old" ∈ d.tags ∧ bs "old" ∉ d'.tags := by
  refine ⟨⟨⟨false, true, false⟩, false, .auto⟩, bs "+new -- id:a\n", ⟨[⟨bs "a", [bs "old"], []⟩], []⟩,
    ⟨[⟨bs "a", [bs "new"], []⟩], []⟩, rfl, by decide +kernel, _, List.mem_singleton.2 rfl, _,
    List.mem_singleton.2 rfl, rfl, by simp, by decide +kernel⟩

/-- **C32**: a batch-tag line whose query is not a single `id:` term is skipped, whatever its tags. -/
theorem C32_other_queries_ignored (o : Opts) (hf : o.format = .batchTag) (ops : List TagOp) (query : Str)
    (hne : query ≠ []) (hsp : query.head? ≠ some 32) (hnl : 10 ∉ query)
    (hops : ∀ x ∈ ops, 0 ∉ x.tag ∧ ¬ (x.remove = true ∧ x.tag = [45]))
    (hq : ∀ t, ¬ BoolTermSpec.Reads query (bs "id") t) (db : Db) :
    restore o (TagSpec.lineText Hex.encode ops query) db = .ok db := by
  have hparse := C07_batch_line_roundtrip true ops query hne hsp hops (by simp)
  have hl : ∃ l, TagSpec.lineText Hex.encode ops query = l ++ [10] ∧ 10 ∉ l := by
    refine ⟨_, rfl, ?_⟩
    intro h
    simp only [List.mem_append] at h
    rcases h with (h | h) | h
    · have := opsText_mem h
      revert this
      rintro (h | h | h | ⟨t, ht⟩)
      · cases h
      · cases h
      · cases h
      · exact encode_no_nl _ ht
    · revert h; decide
    · exact hnl h
  have hc : ∃ c r, TagSpec.lineText Hex.encode ops query = c :: r ∧ c ≠ 35 ∧ skipLine (c :: r) = false := by
    have h45 : 45 ∈ TagSpec.lineText Hex.encode ops query := by simp [TagSpec.lineText]
    have hhead : ∃ c r, TagSpec.lineText Hex.encode ops query = c :: r ∧ c ≠ 35 := by
      cases ops with
      | nil => exact ⟨32, _, rfl, by decide⟩
      | cons x xs =>
        cases xs <;> cases hx : x.remove <;>
          simp [TagSpec.lineText, TagSpec.opsText, TagSpec.opText, hx]
    obtain ⟨c, r, e, hc⟩ := hhead
    refine ⟨c, r, e, hc, ?_⟩
    rw [e] at h45
    unfold skipLine
    simp only [List.isEmpty_cons, List.head?_cons, Bool.false_or, Bool.or_eq_false_iff]
    refine ⟨by simpa using hc, ?_⟩
    rw [List.all_eq_false]
    exact ⟨45, h45, by decide⟩
  obtain ⟨l, e1, e2⟩ := hl
  obtain ⟨c, r, e3, e4, e5⟩ := hc
  have es : splitLines (TagSpec.lineText Hex.encode ops query) = [TagSpec.lineText Hex.encode ops query] := by
    rw [e1]
    have := splitLines_line l e2 []
    simpa [splitLines] using this
  have ht : ∀ ra, tagStep false ra db (c :: r) = .ok db := by
    intro ra
    unfold tagStep
    rw [← e3, hparse]
    simp only [Bool.false_eq_true, if_false]
    cases hp : StringUtil.parseBooleanTerm query with
    | none => rfl
    | some pt =>
      obtain ⟨p, t⟩ := pt
      simp only
      rw [if_neg]
      rintro rfl
      exact hq t (StringUtil.reads_of_parse hp)
  unfold restore
  rw [es, e3, loop1]
  simp only [configStep_nohash _ _ _ _ e4, propsStep_nohash _ _ _ _ e4, e5, Bool.false_eq_true, if_false, hf]
  split
  · rfl
  · rw [loop2]
    simp only [propsStep_nohash _ _ _ _ e4, ht, loop2]

/-- **C33**: the same for the sup format, for the ids and tags this format can carry: ids without
spaces or line breaks that do not start with `#`, and non-empty tags without spaces, `)` or line
breaks. -/
theorem C33_sup_roundtrip (o : Opts) (src dst : Db)
    (hinc : o.inc.tags = true) (hfmt : o.format ≠ .batchTag)
    (hsrc : ∀ m ∈ src.msgs, SupMsg m) (hnd : (src.msgs.map (·.id)).Nodup)
    (hdst : (dst.msgs.map (·.id)).Nodup) (hex : ∀ m ∈ src.msgs, ∃ d, Has dst m.id d) :
    ∃ dst', restore o (dumpSup src) dst = .ok dst' ∧
      dst'.msgs.map (·.id) = dst.msgs.map (·.id) ∧ dst'.config = dst.config ∧
      (∀ x, x ∉ src.msgs.map (·.id) → ∀ d, Has dst' x d ↔ Has dst x d) ∧
      (∀ m ∈ src.msgs, ∀ d d', Has dst m.id d → Has dst' m.id d' →
        d'.props = d.props ∧
        ∀ t, t ∈ d'.tags ↔ t ∈ m.tags ∨ (o.accumulate = true ∧ t ∈ d.tags)) := by
  obtain ⟨dst', h1, h2, h3, h4, h5⟩ := restore_sup o src dst (by simp [hinc]) hfmt hsrc hnd
    (fun m hm => findMsg_isSome_of_has (hex m hm))
  have hdst' : (dst'.msgs.map (·.id)).Nodup := h2 ▸ hdst
  refine ⟨dst', h1, h2, h3, ?_, ?_⟩
  · intro x hx d
    rw [← findMsg_iff_has hdst', ← findMsg_iff_has hdst, h4 x hx]
  · intro m hm d d' hd hd'
    obtain ⟨d0, d1, e0, e1, hr⟩ := h5 m hm
    rw [← findMsg_iff_has hdst, e0] at hd
    rw [← findMsg_iff_has hdst', e1] at hd'
    cases hd; cases hd'
    exact hr

example : SupMsg ⟨bs "a(b\"@c", [bs "inbox", bs "a%b"], []⟩ :=
  ⟨by decide +kernel, by decide +kernel, by decide +kernel, by decide +kernel, by decide +kernel⟩

end Notmuch.Props
