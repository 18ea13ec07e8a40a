import Verif.Proofs.Words2

/-! # C73: the words and phrases of a message -/

namespace Notmuch.Props

open Notmuch.Words
open Notmuch.TermList (findPrefix userPrefix)

/-- **C73** (words): however many files of a message were added, one after the other, a word asked for in a field — `from:`, `to:`, `subject:`, `mimetype:`, `attachment:`, `body:` or a header
that the user configured — is found exactly when it is a word of that field of one of the files. -/
theorem C73_word {G : Gen} (hG : G.Good) {user : List (Str × Str)} (hu : GoodNames user) {f p : Str} (hf : Asks user f p) {w : Str} (hw : GoodWord w) (mails : List Mail) :
    Has (mails.foldl (addFile G user) ⟨[], []⟩) p w ↔ ∃ mail ∈ mails, ∃ t, FieldText user mail f t ∧ w ∈ G.words t := by
  rw [adds_has hG hu hf hw]
  constructor
  · rintro (⟨q, h⟩ | h)
    · cases h
    · exact h
  · exact .inr

/-- **C73** (stems): the same for words with the same stem. -/
theorem C73_stem {G : Gen} (hG : G.Good) {user : List (Str × Str)} (hu : GoodNames user) {f p : Str} (hf : Asks user f p) {v : Str} (hv : GoodWord v) (mails : List Mail) :
    HasStem (mails.foldl (addFile G user) ⟨[], []⟩) p v ↔ ∃ mail ∈ mails, ∃ t, FieldText user mail f t ∧ ∃ w ∈ G.words t, G.stem w = some v := by
  rw [adds_stem hG hu hf hv]
  constructor
  · rintro (h | h)
    · cases h
    · exact h
  · exact .inr

/-- **C73** (phrases): a phrase asked for in a field of a message with one file is found exactly when its words stand together in one text of that field: one address, one header, one part;
never across two of them. -/
theorem C73_phrase {G : Gen} (hG : G.Good) {user : List (Str × Str)} (hu : GoodNames user) {f p : Str} (hf : Asks user f p) {ws : List Str} (hn : ws ≠ []) (hw : ∀ w ∈ ws, GoodWord w) (mail : Mail) :
    Matches (addFile G user ⟨[], []⟩ mail) p ws ↔ ∃ t, FieldText user mail f t ∧ ws <:+: G.words t := by
  have := reindex_matches hG hu hf hn hw [mail]
  rw [show reindex G user [mail] = addFile G user ⟨[], []⟩ mail from rfl] at this
  rw [this]
  simp

/-- **C73** (reindexed): after the message was reindexed, the same holds with any number of files. -/
theorem C73_phrase_reindexed {G : Gen} (hG : G.Good) {user : List (Str × Str)} (hu : GoodNames user) {f p : Str} (hf : Asks user f p) {ws : List Str} (hn : ws ≠ []) (hw : ∀ w ∈ ws, GoodWord w)
    (mails : List Mail) : Matches (reindex G user mails) p ws ↔ ∃ mail ∈ mails, ∃ t, FieldText user mail f t ∧ ws <:+: G.words t :=
  reindex_matches hG hu hf hn hw mails

/-- **C73** (several files, partial): with several files added one after the other all their phrases are found; but others may be too (`C73_mixed`). -/
theorem C73_phrase_added {G : Gen} {user : List (Str × Str)} (hu : GoodNames user) {f p : Str} (hf : Asks user f p) {ws : List Str} (mails : List Mail)
    (h : ∃ mail ∈ mails, ∃ t, FieldText user mail f t ∧ ws <:+: G.words t) : Matches (mails.foldl (addFile G user) ⟨[], []⟩) p ws :=
  adds_complete hu hf mails _ (.inr h)

/-- **C73** (user's fields): the fields of the query parser are those that the configuration names, `index.header.NAME=HEADER`. -/
theorem C73_user (config : List (Str × Str)) (name header : Str) : (name, header) ∈ setupUser config ↔ (bs "index.header." ++ name, header) ∈ config := by
  unfold setupUser
  rw [List.mem_map]
  constructor
  · rintro ⟨⟨k, v⟩, h, e⟩
    rw [List.mem_filter] at h
    injection e with e1 e2
    obtain ⟨r, hr⟩ := List.isPrefixOf_iff_prefix.1 h.2
    have hr : bs "index.header." ++ r = k := hr
    subst hr
    have e1 : (bs "index.header." ++ r).drop (bs "index.header.").length = name := e1
    rw [List.drop_left] at e1
    have e2 : v = header := e2
    rw [← e1, ← e2]
    exact h.1
  · intro h
    refine ⟨(bs "index.header." ++ name, header), List.mem_filter.2 ⟨h, List.isPrefixOf_iff_prefix.2 (List.prefix_append _ _)⟩, ?_⟩
    rw [List.drop_left]

/-- **C73** (names): a name that `notmuch config set` accepts is not the name of another field. -/
theorem C73_names (W : ConfigCmd.World) (name : Str) (h : ConfigCmd.validateFieldName W (bs "index.header." ++ name) = true) : findPrefix name = none := by
  cases hf : findPrefix name with
  | none => rfl
  | some q =>
    exfalso
    have key : ∀ e ∈ TermList.prefixTable, (ConfigCmd.afterLastDot (bs "index.header." ++ e.1)).head?.any (fun c => 97 ≤ c && c ≤ 122) = true := by decide +kernel
    unfold findPrefix at hf
    rw [Option.map_eq_some_iff] at hf
    obtain ⟨e, h1, _⟩ := hf
    have h2 : e.1 = name := by simpa using List.find?_some h1
    have := key e (List.mem_of_find?_eq_some h1)
    rw [h2] at this
    unfold ConfigCmd.validateFieldName at h
    rw [Bool.and_eq_true] at h
    have h3 := h.2
    cases hh : (ConfigCmd.afterLastDot (bs "index.header." ++ name)).head? with
    | none => rw [hh] at this; cases this
    | some c =>
      rw [hh] at this h3
      have this : (97 ≤ c && c ≤ 122) = true := this
      dsimp only at h3
      rw [this] at h3
      cases h3

/-! ## Examples -/

/-- Words are what stands between spaces. -/
def spaces : Gen := ⟨fun t => (t.splitBy (fun a b => a != 32 && b != 32)).filter (fun w => w.head?.any (fun c => 97 ≤ c && c ≤ 122)), fun w => if w = bs "words" then some (bs "word") else none⟩

theorem spaces_good : spaces.Good := by
  refine ⟨fun t w hw => ?_, fun w s h => ?_⟩
  · have h := (List.mem_filter.1 hw).2
    cases w with
    | nil => cases h
    | cons c r =>
      refine ⟨c, r, rfl, fun hc => ?_⟩
      have : ∀ c ∈ bs "TXGKQPZ", (97 ≤ c && c ≤ 122) = false := by decide +kernel
      have h : (97 ≤ c && c ≤ 122) = true := h
      rw [this c hc] at h
      cases h
  · have h : (if w = bs "words" then some (bs "word") else none) = some s := h
    split at h
    · injection h with h; subst h; exact ⟨119, bs "ord", by decide +kernel, by decide +kernel⟩
    · cases h

/-- A mail from a group of two, with a header of a list. -/
def mail1 : Mail := ⟨some [.group (some [.mailbox (some (bs "ann lee")) (some (bs "a@b")), .mailbox none (some (bs "c@d"))])], none, some (bs "old words here"),
  fun h => if h = bs "List-Id" then some (bs "cats and dogs") else none, [.mimetype (bs "text/plain"), .body (bs "some text")]⟩

/-- Another file of the message. -/
def mail2 : Mail := ⟨none, none, some (bs "very new things"), fun _ => none, []⟩

/-- The user's field `List:`. -/
def lists : List (Str × Str) := setupUser [(bs "index.header.List", bs "List-Id"), (bs "user.name", bs "x")]

theorem C73_example : GoodNames lists ∧ Asks lists (bs "List") (bs "XUList:") ∧ Asks lists (bs "from") (bs "XFROM") ∧
    Matches (addFile spaces lists ⟨[], []⟩ mail1) (bs "XUList:") [bs "cats", bs "and"] ∧ Matches (addFile spaces lists ⟨[], []⟩ mail1) (bs "XFROM") [bs "ann", bs "lee", bs "a@b"] ∧
    HasStem (addFile spaces lists ⟨[], []⟩ mail1) (bs "XSUBJECT") (bs "word") ∧ ¬ Matches (addFile spaces lists ⟨[], []⟩ mail1) (bs "XFROM") [bs "a@b", bs "c@d"] := by
  have hu : GoodNames lists := by
    intro e he
    have : ∀ e ∈ lists, findPrefix e.1 = none ∧ 58 ∉ e.1 := by decide +kernel
    exact this e he
  have a1 : Asks lists (bs "List") (bs "XUList:") := .user (e := (bs "List", bs "List-Id")) (by decide +kernel)
  have a2 : Asks lists (bs "from") (bs "XFROM") := .table (by decide +kernel) (by decide +kernel)
  refine ⟨hu, a1, a2, ?_, ?_, by unfold HasStem; decide +kernel, ?_⟩
  · refine C73_phrase_added hu a1 [mail1] ⟨mail1, List.mem_cons_self, bs "cats and dogs", .header (header := bs "List-Id") (by decide +kernel) (by decide +kernel), ?_⟩
    exact ⟨[], [bs "dogs"], by decide +kernel⟩
  · refine C73_phrase_added hu a2 [mail1] ⟨mail1, List.mem_cons_self, bs "ann lee a@b", .sender rfl (.group .here) ?_, ?_⟩
    · have : bs "ann lee a@b" = bs "ann lee" ++ bs " " ++ bs "a@b" := by decide +kernel
      rw [this]; exact .both _ _
    · exact ⟨[], [], by decide +kernel⟩
  · intro h
    have hw : ∀ w ∈ [bs "a@b", bs "c@d"], GoodWord w := by
      intro w hw
      rcases List.mem_cons.1 hw with rfl | hw
      · exact ⟨97, bs "@b", by decide +kernel, by decide +kernel⟩
      · rw [List.mem_singleton] at hw; subst hw; exact ⟨99, bs "@d", by decide +kernel, by decide +kernel⟩
    obtain ⟨q, hq⟩ := h
    have h0 := hq 0 _ rfl
    have h1 := hq 1 _ rfl
    have e0 : ∀ e ∈ (addFile spaces lists ⟨[], []⟩ mail1).posts, e.1 = bs "XFROM" ++ bs "a@b" → e.2 = 3 := by decide +kernel
    have e1 : ∀ e ∈ (addFile spaces lists ⟨[], []⟩ mail1).posts, e.1 = bs "XFROM" ++ bs "c@d" → e.2 = 104 := by decide +kernel
    have := e0 _ h0 rfl
    have := e1 _ h1 rfl
    dsimp only at *
    omega

/-- Two files of a message that differ in their subjects. -/
def first : Mail := ⟨none, none, some (bs "old words here"), fun _ => none, []⟩

/-- A second file of the message starts at the same positions as the first: the phrase `subject:"old new things"` is found, although neither file has it; after the message was reindexed it is
not found any more. -/
theorem C73_mixed : Matches ([first, mail2].foldl (addFile spaces []) ⟨[], []⟩) (bs "XSUBJECT") [bs "old", bs "new", bs "things"] ∧
    ¬ Matches (reindex spaces [] [first, mail2]) (bs "XSUBJECT") [bs "old", bs "new", bs "things"] := by
  constructor
  · refine ⟨1, fun i w h => ?_⟩
    match i, h with
    | 0, h => injection h with h; subst h; decide +kernel
    | 1, h => injection h with h; subst h; decide +kernel
    | 2, h => injection h with h; subst h; decide +kernel
  · rintro ⟨q, hq⟩
    have h0 := hq 0 _ rfl
    have h1 := hq 1 _ rfl
    have e0 : ∀ e ∈ (reindex spaces [] [first, mail2]).posts, e.1 = bs "XSUBJECT" ++ bs "old" → e.2 = 1 := by decide +kernel
    have e1 : ∀ e ∈ (reindex spaces [] [first, mail2]).posts, e.1 = bs "XSUBJECT" ++ bs "new" → e.2 = 105 := by decide +kernel
    have := e0 _ h0 rfl
    have := e1 _ h1 rfl
    dsimp only at *
    omega

/-- The name of another field, which only an edited configuration file can have: the words of the header are then words of that field, and not of the field that the query parser was given. -/
theorem C73_shadow : Has (addFile spaces (setupUser [(bs "index.header.subject", bs "List-Id")]) ⟨[], []⟩ mail1) (bs "XSUBJECT") (bs "cats") ∧
    ¬ Has (addFile spaces (setupUser [(bs "index.header.subject", bs "List-Id")]) ⟨[], []⟩ mail1) (userPrefix (bs "subject")) (bs "cats") := by
  constructor
  · exact ⟨308, by decide +kernel⟩
  · rintro ⟨q, h⟩
    have : ∀ e ∈ (addFile spaces (setupUser [(bs "index.header.subject", bs "List-Id")]) ⟨[], []⟩ mail1).posts, e.1 ≠ userPrefix (bs "subject") ++ bs "cats" := by decide +kernel
    exact this _ h rfl

end Notmuch.Props
