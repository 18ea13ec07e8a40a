import Verif.Spec.Setup
import Verif.Proofs.ConfigChange

/-! # `notmuch setup` -/

namespace Notmuch.Setup
open Notmuch.Args Notmuch.Cli Notmuch.Config Notmuch.ConfigCmd
open Notmuch.StringMap (Pair Map cmppair)
open Notmuch.StringMapSpec (QSort)

/-! ## Lines -/

theorem inputLines_line (a rest : Str) (h : 10 ∉ a) : inputLines (a ++ 10 :: rest) = (a ++ [10]) :: inputLines rest := by
  induction a with
  | nil => simp [inputLines]
  | cons c a ih =>
    have hc : c ≠ 10 := fun e => h (by simp [e])
    rw [List.cons_append, inputLines, if_neg hc, ih (fun k => h (by simp [k]))]
    rfl

theorem inputLines_typed (l : List Str) (rest : Str) (h : ∀ a ∈ l, 10 ∉ a) : inputLines (typed l ++ rest) = l.map (· ++ [10]) ++ inputLines rest := by
  induction l with
  | nil => rfl
  | cons a l ih =>
    have e : typed (a :: l) ++ rest = a ++ 10 :: (typed l ++ rest) := by
      show (a ++ [10]) ++ typed l ++ rest = _
      simp
    rw [e, inputLines_line a _ (h a (by simp)), ih (fun x hx => h x (by simp [hx]))]
    rfl

theorem takeWhile_all {q : UInt8 → Bool} : ∀ {l : Str}, (∀ c ∈ l, q c = true) → l.takeWhile q = l
  | [], _ => rfl
  | c :: l, h => by rw [List.takeWhile_cons_of_pos (h c (by simp)), takeWhile_all (fun d hd => h d (by simp [hd]))]

theorem chomp_line {a : Str} (h : Typed a) : chomp (a ++ [10]) = some a := by
  unfold chomp
  have e : (a ++ [10]).takeWhile (fun c => decide (c ≠ 0)) = a ++ [10] := by
    apply takeWhile_all
    intro c hc
    rcases List.mem_append.1 hc with hc | hc
    · rw [decide_eq_true_iff]; intro e; exact h.2 (e ▸ hc)
    · rw [List.mem_singleton.1 hc]; decide
  rw [e]
  cases hs : a ++ [10] with
  | nil => simp at hs
  | cons c s => simp only [← hs]; simp

theorem prompt_line (text : Str) {a : Str} (h : Typed a) (ls : List Str) (out : Str) : prompt text ⟨(a ++ [10]) :: ls, out⟩ = .inr (a, ⟨ls, out ++ text⟩) := by
  unfold prompt
  simp only [chomp_line h]

theorem askOld_lines : ∀ (es as : List Str) (ls : List Str) (out : Str), as.length = es.length → (∀ a ∈ as, Typed a) →
    askOld es ⟨as.map (· ++ [10]) ++ ls, out⟩ = .inr (List.zipWith kept es as, ⟨ls, out ++ es.flatMap (fun e => bs "Additional email address [" ++ e ++ bs "]: ")⟩)
  | [], [], ls, out, _, _ => by simp [askOld]
  | e :: es, a :: as, ls, out, hl, h => by
    rw [List.map_cons, List.cons_append, askOld, prompt_line _ (h a (by simp))]
    simp only
    rw [askOld_lines es as ls _ (by simpa using hl) (fun x hx => h x (by simp [hx]))]
    simp [kept]
  | [], _ :: _, _, _, hl, _ => by simp at hl
  | _ :: _, [], _, _, hl, _ => by simp at hl

theorem askMore_lines : ∀ (as : List Str) (ls : List Str) (out : Str), (∀ a ∈ as, Typed a ∧ a ≠ []) →
    askMore (as.map (· ++ [10]) ++ [10] :: ls) out = .inr (as, ⟨ls, out ++ (as ++ [[]]).flatMap (fun _ => bs "Additional email address [Press 'Enter' if none]: ")⟩)
  | [], ls, out, _ => by
    have : chomp [10] = some [] := by decide
    simp [askMore, this]
  | a :: as, ls, out, h => by
    have ha := h a (by simp)
    rw [List.map_cons, List.cons_append, askMore, chomp_line ha.1]
    simp only
    rw [if_pos (by simpa using ha.2), askMore_lines as ls _ (fun x hx => h x (by simp [hx]))]
    simp

theorem dialog_lines (cur : Current) (a : Filled) (ls : List Str) (out : Str) (ht : ∀ x ∈ a.all, Typed x) (ho : a.old.length = cur.other.length) (hm : ∀ x ∈ a.more, x ≠ []) :
    dialog cur ⟨a.all.map (· ++ [10]) ++ ls, out⟩ = .inr (⟨a.name, a.email, List.zipWith kept cur.other a.old ++ a.more, a.path, a.tags, a.exclude⟩,
      ⟨ls, out ++ (bs "Your full name [" ++ shown cur.name ++ bs "]: " ++ bs "Your primary email address [" ++ shown cur.email ++ bs "]: " ++
        cur.other.flatMap (fun e => bs "Additional email address [" ++ e ++ bs "]: ") ++
        (a.more ++ [[]]).flatMap (fun _ => bs "Additional email address [Press 'Enter' if none]: ") ++
        bs "Top-level directory of your email archive [" ++ shown cur.path ++ bs "]: " ++
        bs "Tags to apply to all new messages (separated by spaces) [" ++ tagListText cur.tags ++ bs "]: " ++
        bs "Tags to exclude when searching messages (separated by spaces) [" ++ tagListText cur.exclude ++ bs "]: ")⟩) := by
  have e : a.all.map (· ++ [10]) ++ ls = (a.name ++ [10]) :: (a.email ++ [10]) :: (a.old.map (· ++ [10]) ++ (a.more.map (· ++ [10]) ++ [10] :: (a.path ++ [10]) :: (a.tags ++ [10]) :: (a.exclude ++ [10]) :: ls)) := by
    simp [Filled.all]
  have mem : ∀ x, x ∈ a.all ↔ x = a.name ∨ x = a.email ∨ x ∈ a.old ∨ x ∈ a.more ∨ x = [] ∨ x = a.path ∨ x = a.tags ∨ x = a.exclude := by
    intro x; simp [Filled.all]
  have t : ∀ x, _ → Typed x := fun x hx => ht x ((mem x).2 hx)
  rw [e]
  unfold dialog
  rw [prompt_line _ (t _ (.inl rfl))]
  simp only
  rw [prompt_line _ (t _ (.inr (.inl rfl)))]
  simp only
  rw [askOld_lines _ _ _ _ ho (fun x hx => t _ (.inr (.inr (.inl hx))))]
  simp only
  rw [askMore_lines _ _ _ (fun x hx => ⟨t _ (.inr (.inr (.inr (.inl hx)))), hm x hx⟩)]
  simp only
  rw [prompt_line _ (t _ (by simp))]
  simp only
  rw [prompt_line _ (t _ (by simp))]
  simp only
  rw [prompt_line _ (t _ (by simp))]
  simp only [List.append_assoc]

/-! ## Tags -/

theorem words_cons_space (s : Str) : words (32 :: s) = words s := by
  unfold words
  rw [pieces, if_pos rfl, List.filter_cons, if_neg (by simp)]

theorem pieces_ne (s : Str) : pieces s ≠ [] := by
  cases s with
  | nil => simp [pieces]
  | cons c s =>
    rw [pieces]
    split
    · simp
    · split <;> simp

theorem pieces_word (w s : Str) (h : 32 ∉ w) : ∃ x xs, pieces s = x :: xs ∧ pieces (w ++ s) = (w ++ x) :: xs := by
  induction w with
  | nil =>
    cases hp : pieces s with
    | nil => exact absurd hp (pieces_ne s)
    | cons x xs => exact ⟨x, xs, rfl, by simpa using hp⟩
  | cons c w ih =>
    obtain ⟨x, xs, h1, h2⟩ := ih (fun k => h (by simp [k]))
    refine ⟨x, xs, h1, ?_⟩
    have hc : c ≠ 32 := fun e => h (by simp [e])
    rw [List.cons_append, pieces, if_neg hc, h2]
    rfl

theorem words_word (w s : Str) (h : 32 ∉ w) (hw : w ≠ []) (hs : s = [] ∨ s.head? = some 32) : words (w ++ s) = w :: words s := by
  have e : ∀ s, words s = (pieces s).filter (· ≠ []) := fun _ => rfl
  rw [e, e]
  obtain ⟨x, xs, h1, h2⟩ := pieces_word w s h
  have hx : x = [] := by
    rcases hs with rfl | hs
    · simp [pieces] at h1; exact h1.1
    · cases s with
      | nil => cases hs
      | cons c s =>
        injection hs with hs
        subst hs
        have : pieces (32 :: s) = [] :: pieces s := by rw [pieces, if_pos rfl]
        rw [this] at h1
        injection h1 with h1 _
        exact h1.symm
  subst hx
  rw [h1, h2, List.append_nil, List.filter_cons, if_pos (by simpa using hw), List.filter_cons, if_neg (by simp)]

theorem words_drop (s : Str) : words (s.dropWhile (· = 32)) = words s := by
  induction s with
  | nil => rfl
  | cons c s ih =>
    by_cases hc : c = 32
    · subst hc
      rw [List.dropWhile_cons_of_pos (by simp), ih, words_cons_space]
    · rw [List.dropWhile_cons_of_neg (by simpa using hc)]

theorem parseTagLoop_words : ∀ (n : Nat) (s : Str), s.length ≤ n → s ≠ [] → parseTagLoop n s = wordList s
  | 0, s, h, hs => absurd (List.length_eq_zero_iff.1 (Nat.le_zero.1 h)) hs
  | n + 1, s, h, hs => by
    rw [parseTagLoop, if_neg hs]
    have rest : ∀ t : Str, t.length ≤ n → t.head? ≠ some 32 → parseTagLoop n t = words t := by
      intro t ht hh
      by_cases h0 : t = []
      · subst h0
        cases n <;> simp [parseTagLoop, words, pieces]
      · rw [parseTagLoop_words n t ht h0, wordList, if_neg hh]
    have head : ∀ t : Str, (t.dropWhile (fun c => decide (c = 32))).head? ≠ some 32 := by
      intro t
      induction t with
      | nil => simp
      | cons c t ih =>
        by_cases hc : c = 32
        · rw [List.dropWhile_cons_of_pos (by simpa using hc)]; exact ih
        · rw [List.dropWhile_cons_of_neg (by simpa using hc)]; simpa using hc
    have len : ∀ (q : UInt8 → Bool) (t : Str), (t.dropWhile q).length ≤ t.length := fun q t => (List.dropWhile_suffix q).length_le
    rw [rest _ ?_ (head _), words_drop]
    · unfold wordList
      by_cases hc : s.head? = some 32
      · cases s with
        | nil => exact absurd rfl hs
        | cons c s =>
          injection hc with hc
          subst hc
          rw [if_pos (by simp), words_cons_space, List.takeWhile_cons_of_neg (by simp), List.dropWhile_cons_of_neg (by simp), words_cons_space]
      · rw [if_neg hc]
        have hsplit : s = s.takeWhile (fun c => decide (c ≠ 32)) ++ s.dropWhile (fun c => decide (c ≠ 32)) := (List.takeWhile_append_dropWhile).symm
        conv => rhs; rw [hsplit]
        rw [words_word]
        · intro hm
          have := List.all_takeWhile (l := s) (p := fun c => decide (c ≠ 32))
          rw [List.all_eq_true] at this
          simpa using this _ hm
        · cases s with
          | nil => exact absurd rfl hs
          | cons c s => rw [List.takeWhile_cons_of_pos (by simpa using hc)]; simp
        · clear head len rest h hs hc hsplit
          generalize s = u
          induction u with
          | nil => simp
          | cons c u ih =>
            by_cases hc : c = 32
            · right; rw [List.dropWhile_cons_of_neg (by simpa using hc)]; simp [hc]
            · rw [List.dropWhile_cons_of_pos (by simpa using hc)]; exact ih
    · cases s with
      | nil => exact absurd rfl hs
      | cons c s =>
        by_cases hc : c = 32
        · rw [List.dropWhile_cons_of_neg (by simpa using hc), List.dropWhile_cons_of_pos (by simpa using hc)]
          have := len (fun c => decide (c = 32)) s
          simp at h; omega
        · rw [List.dropWhile_cons_of_pos (by simpa using hc)]
          have h1 := len (fun c => decide (c = 32)) (s.dropWhile (fun c => decide (c ≠ 32)))
          have h2 := len (fun c => decide (c ≠ 32)) s
          simp at h; omega

theorem parseTagList_words {s : Str} (h : s ≠ []) : parseTagList s = wordList s := parseTagLoop_words _ _ (Nat.le_refl _) h

theorem wordList_ne {s : Str} (h : s ≠ []) : wordList s ≠ [] := by
  rw [← parseTagList_words h]
  unfold parseTagList
  cases s with
  | nil => exact absurd rfl h
  | cons c s => simp [parseTagLoop]

/-! ## The file -/

/-- A file, what its keys say and what it has for the path of the database. -/
structure Says (f : KeyFile) (v : Str → Option Str) (p : Option Str) : Prop where
  good : GoodFile f
  dots : ∀ x ∈ f, 46 ∉ x.1
  keys : ∃ file, decode (entriesOf f) = some file ∧ ∀ K, fileValue file K = v K
  path : lookup (bs "database") (bs "path") f = p

theorem says_change {f : KeyFile} {v : Str → Option Str} {p : Option Str} (h : Says f v p) {g k : Str} (hg : Name g) (hg' : 46 ∉ g) (hk : Name k) (hp : ¬(bs "database" = g ∧ bs "path" = k))
    {vs : List Str} (hne : vs ≠ []) (hu : ∀ v ∈ vs, utf8 v = true) (hff : ∀ v, vs.head? = some v → v.head? ≠ some 12) :
    Says (change g k f vs) (fun K => if K = g ++ bs "." ++ k then some (stored vs) else v K) p := by
  obtain ⟨file, d, e⟩ := h.keys
  obtain ⟨file', d1, d2, d3⟩ := file_change h.good h.dots hg hg' hk hu hff d
  obtain ⟨g1, g2⟩ := good_change g k vs h.good hg' h.dots
  refine ⟨g1, g2, ⟨file', d1, fun K => ?_⟩, ?_⟩
  · rw [d2, if_neg hne, e]
  · rw [d3 _ _ hp, h.path]

theorem says_path {f : KeyFile} {v : Str → Option Str} {p : Option Str} (h : Says f v p) {w : Str} (hu : utf8 w = true) (hff : w.head? ≠ some 12) :
    ∃ q, Says (change (bs "database") (bs "path") f [w]) (fun K => if K = bs "database.path" then some w else v K) q := by
  obtain ⟨file, d, e⟩ := h.keys
  have hg : Name (bs "database") := ⟨by decide, by decide⟩
  have hk : Name (bs "path") := ⟨by decide, by decide⟩
  have hg' : (46 : UInt8) ∉ bs "database" := by decide
  obtain ⟨file', d1, d2, d3⟩ := file_change (vs := [w]) h.good h.dots hg hg' hk (by simpa using hu) (by simpa using hff) d
  obtain ⟨g1, g2⟩ := good_change (bs "database") (bs "path") [w] h.good hg' h.dots
  refine ⟨_, g1, g2, ⟨file', d1, fun K => ?_⟩, rfl⟩
  rw [d2, e]
  rw [if_neg (show ¬([w] = []) by simp)]
  rfl

theorem entriesOf_addGroup (f : KeyFile) (g : Str) : entriesOf (addGroup f g) = entriesOf f := by
  unfold addGroup
  split
  · rfl
  · unfold entriesOf; simp

theorem says_addGroup {f : KeyFile} {v : Str → Option Str} {p : Option Str} (h : Says f v p) {g : Str} (hg : 46 ∉ g) : Says (addGroup f g) v p := by
  refine ⟨?_, ?_, ?_, ?_⟩
  · unfold addGroup
    split
    · exact h.good
    · rename_i hn
      refine ⟨?_, fun x hx => ?_⟩
      · rw [List.map_append, List.nodup_append]
        refine ⟨h.good.1, by simp, ?_⟩
        intro a ha b hb hab
        simp only [List.map_cons, List.map_nil, List.mem_singleton] at hb
        obtain ⟨x, hx, e⟩ := List.mem_map.1 ha
        exact hn (List.any_eq_true.2 ⟨x, hx, by simp [e, hab, hb]⟩)
      · rcases List.mem_append.1 hx with hx | hx
        · exact h.good.2 x hx
        · rw [List.mem_singleton.1 hx]; simp
  · unfold addGroup
    split
    · exact h.dots
    · intro x hx
      rcases List.mem_append.1 hx with hx | hx
      · exact h.dots x hx
      · rw [List.mem_singleton.1 hx]; exact hg
  · rw [entriesOf_addGroup]; exact h.keys
  · rw [← h.path]
    unfold addGroup
    split
    · rfl
    · unfold lookup
      rw [List.find?_append]
      cases f.find? (fun x => decide (x.1 = bs "database")) with
      | some y => rfl
      | none =>
        rw [Option.none_or]
        by_cases hg : g = bs "database" <;> simp [hg]

theorem says_addGroups {f : KeyFile} {v : Str → Option Str} {p : Option Str} (h : Says f v p) : Says (addGroups f) v p := by
  unfold addGroups
  simp only [List.foldl_cons, List.foldl_nil]
  exact says_addGroup (says_addGroup (says_addGroup (says_addGroup (says_addGroup h (by decide)) (by decide)) (by decide)) (by decide)) (by decide)

theorem says_congr {f : KeyFile} {v w : Str → Option Str} {p : Option Str} (h : Says f v p) (e : ∀ K, v K = w K) : Says f w p := by
  have : v = w := funext e
  rw [← this]
  exact h

/-- Something that a key file has as it was written. -/
def Clean (s : Str) : Prop := utf8 s = true ∧ s.head? ≠ some 12

theorem says_one {f : KeyFile} {v : Str → Option Str} {p : Option Str} (h : Says f v p) {g k : Str} (hg : Name g) (hg' : 46 ∉ g) (hk : Name k) (hp : ¬(bs "database" = g ∧ bs "path" = k))
    {a : Str} (ha : Clean a) : Says (setOne g k a f) (fun K => if K = g ++ bs "." ++ k ∧ a ≠ [] then some a else v K) p := by
  unfold setOne
  by_cases h0 : a = []
  · subst h0
    rw [if_neg (by simp)]
    exact says_congr h (fun K => by rw [if_neg (by simp)])
  · rw [if_pos (by simpa using h0)]
    refine says_congr (says_change h hg hg' hk hp (vs := [a]) (by simp) (by simpa using ha.1) (by simpa using ha.2)) (fun K => ?_)
    simp [h0, stored]

theorem says_list {f : KeyFile} {v : Str → Option Str} {p : Option Str} (h : Says f v p) {g k : Str} (hg : Name g) (hg' : 46 ∉ g) (hk : Name k) (hp : ¬(bs "database" = g ∧ bs "path" = k))
    {c : Prop} [Decidable c] {vs : List Str} (hne : c → vs ≠ []) (hu : ∀ v ∈ vs, utf8 v = true) (hff : ∀ v, vs.head? = some v → v.head? ≠ some 12) :
    ∃ f', (if c then setList g k vs f else some f) = some f' ∧ Says f' (fun K => if K = g ++ bs "." ++ k ∧ c then some (stored vs) else v K) p := by
  by_cases hc : c
  · refine ⟨change g k f vs, ?_, ?_⟩
    · rw [if_pos hc, setList, if_neg (by simpa using hne hc)]
    · refine says_congr (says_change h hg hg' hk hp (hne hc) hu hff) (fun K => ?_)
      simp [hc]
  · exact ⟨f, if_neg hc, says_congr h (fun K => by simp [hc])⟩

/-- What the answers put into a file: the addresses are `os`. -/
def saidOf (cwd : Str) (a : Answers) (k : Str) : Option Str :=
  if k = bs "user.name" ∧ a.name ≠ [] then some a.name
  else if k = bs "user.primary_email" ∧ a.email ≠ [] then some a.email
  else if k = bs "user.other_email" ∧ a.other ≠ [] then some (stored a.other)
  else if k = bs "database.path" ∧ a.path ≠ [] then some (absolute cwd a.path)
  else if k = bs "new.tags" ∧ a.tags ≠ [] then some (stored (wordList a.tags))
  else if k = bs "search.exclude_tags" ∧ a.exclude ≠ [] then some (stored (wordList a.exclude))
  else none

theorem mem_wordList_utf8 {s : Str} (h : ∀ w ∈ words s, utf8 w = true) : ∀ w ∈ wordList s, utf8 w = true := by
  intro w hw
  unfold wordList at hw
  split at hw
  · rcases List.mem_cons.1 hw with rfl | hw
    · decide
    · exact h w hw
  · exact h w hw

theorem head_wordList {s : Str} (h : s.head? ≠ some 12) : ∀ w, (wordList s).head? = some w → w.head? ≠ some 12 := by
  intro w hw
  by_cases h0 : s = []
  · subst h0; simp [wordList, words, pieces] at hw
  · rw [← parseTagList_words h0] at hw
    unfold parseTagList at hw
    cases s with
    | nil => exact absurd rfl h0
    | cons c s =>
      simp only [List.length_cons, parseTagLoop, reduceCtorEq, if_false, List.head?_cons, Option.some.injEq] at hw
      subst hw
      by_cases hc : c = 32
      · rw [List.takeWhile_cons_of_neg (by simpa using hc)]; simp
      · rw [List.takeWhile_cons_of_pos (by simpa using hc)]; simpa using h

/-- The answers are text that the file can have. -/
structure CleanAnswers (cwd : Str) (a : Answers) : Prop where
  name : Clean a.name
  email : Clean a.email
  other : ∀ x ∈ a.other, Clean x
  path : Clean (absolute cwd a.path)
  tags : (∀ w ∈ words a.tags, utf8 w = true) ∧ a.tags.head? ≠ some 12
  exclude : (∀ w ∈ words a.exclude, utf8 w = true) ∧ a.exclude.head? ≠ some 12

theorem edit_says {f : KeyFile} {v : Str → Option Str} {p : Option Str} (h : Says f v p) (cwd : Str) (a : Answers) (hc : CleanAnswers cwd a) :
    ∃ f' p', edit (some cwd) a f = some f' ∧ Says f' (fun K => (saidOf cwd a K).or (v K)) p' ∧ (a.path = [] → p' = p) := by
  have nm : Name (bs "name") ∧ Name (bs "primary_email") ∧ Name (bs "other_email") ∧ Name (bs "tags") ∧ Name (bs "exclude_tags") ∧ Name (bs "user") ∧ Name (bs "new") ∧ Name (bs "search") := by
    refine ⟨⟨?_, ?_⟩, ⟨?_, ?_⟩, ⟨?_, ?_⟩, ⟨?_, ?_⟩, ⟨?_, ?_⟩, ⟨?_, ?_⟩, ⟨?_, ?_⟩, ⟨?_, ?_⟩⟩ <;> decide +kernel
  obtain ⟨k1, k2, k3, k4, k5, gu, gn, gs⟩ := nm
  have h1 := says_one h gu (by decide +kernel) k1 (by decide +kernel) hc.name
  have h2 := says_one h1 gu (by decide +kernel) k2 (by decide +kernel) hc.email
  obtain ⟨f3, e3, h3⟩ := says_list (c := a.other.length ≠ 0) (vs := a.other) h2 gu (by decide +kernel) k3 (by decide +kernel) (fun hl => by simpa using hl) (fun x hx => (hc.other x hx).1)
    (fun x hx => (hc.other x (List.mem_of_mem_head? hx)).2)
  have h4 : ∃ f4 p', (if a.path.length ≠ 0 then setPath (some cwd) a.path f3 else f3) = f4 ∧
      Says f4 (fun K => if K = bs "database.path" ∧ a.path ≠ [] then some (absolute cwd a.path) else
        if K = bs "user" ++ bs "." ++ bs "other_email" ∧ a.other.length ≠ 0 then some (stored a.other) else
        if K = bs "user" ++ bs "." ++ bs "primary_email" ∧ a.email ≠ [] then some a.email else if K = bs "user" ++ bs "." ++ bs "name" ∧ a.name ≠ [] then some a.name else v K) p' ∧
      (a.path = [] → p' = p) := by
    by_cases h0 : a.path = []
    · exact ⟨f3, p, by rw [h0]; simp, says_congr h3 (fun K => by simp [h0]), fun _ => rfl⟩
    · have em : makeAbsolute (some cwd) a.path = some (absolute cwd a.path) := by
        unfold makeAbsolute absolute
        split <;> rfl
      obtain ⟨q, hq⟩ := says_path h3 hc.path.1 hc.path.2
      refine ⟨_, q, rfl, ?_, fun hh => absurd hh h0⟩
      rw [if_pos (by simpa using h0), setPath, em]
      exact says_congr hq (fun K => by simp [h0])
  obtain ⟨f4, p', e4, h4, hp'⟩ := h4
  obtain ⟨f5, e5, h5⟩ := says_list (c := a.tags.length ≠ 0) (vs := parseTagList a.tags) h4 gn (by decide +kernel) k4 (by decide +kernel)
    (fun hl => by
      have : a.tags ≠ [] := by simpa using hl
      rw [parseTagList_words this]
      exact wordList_ne this)
    (fun x hx => by
      by_cases h0 : a.tags = []
      · rw [h0] at hx; simp [parseTagList, parseTagLoop] at hx
      · rw [parseTagList_words h0] at hx
        exact mem_wordList_utf8 hc.tags.1 x hx)
    (fun x hx => by
      by_cases h0 : a.tags = []
      · rw [h0] at hx; simp [parseTagList, parseTagLoop] at hx
      · rw [parseTagList_words h0] at hx
        exact head_wordList hc.tags.2 x hx)
  obtain ⟨f6, e6, h6⟩ := says_list (c := a.exclude.length ≠ 0) (vs := parseTagList a.exclude) h5 gs (by decide +kernel) k5 (by decide +kernel)
    (fun hl => by
      have : a.exclude ≠ [] := by simpa using hl
      rw [parseTagList_words this]
      exact wordList_ne this)
    (fun x hx => by
      by_cases h0 : a.exclude = []
      · rw [h0] at hx; simp [parseTagList, parseTagLoop] at hx
      · rw [parseTagList_words h0] at hx
        exact mem_wordList_utf8 hc.exclude.1 x hx)
    (fun x hx => by
      by_cases h0 : a.exclude = []
      · rw [h0] at hx; simp [parseTagList, parseTagLoop] at hx
      · rw [parseTagList_words h0] at hx
        exact head_wordList hc.exclude.2 x hx)
  refine ⟨f6, p', ?_, says_congr h6 (fun K => ?_), hp'⟩
  · unfold edit
    simp only
    rw [e3, Option.bind_some, e4, e5, Option.bind_some, e6]
  · have n1 : bs "user" ++ bs "." ++ bs "name" = bs "user.name" := by decide +kernel
    have n2 : bs "user" ++ bs "." ++ bs "primary_email" = bs "user.primary_email" := by decide +kernel
    have n3 : bs "user" ++ bs "." ++ bs "other_email" = bs "user.other_email" := by decide +kernel
    have n4 : bs "new" ++ bs "." ++ bs "tags" = bs "new.tags" := by decide +kernel
    have n5 : bs "search" ++ bs "." ++ bs "exclude_tags" = bs "search.exclude_tags" := by decide +kernel
    rw [n1, n2, n3, n4, n5]
    unfold saidOf
    have t1 : ∀ s : Str, (s.length ≠ 0) ↔ s ≠ [] := fun s => by simp
    have t2 : ∀ s : List Str, (s.length ≠ 0) ↔ s ≠ [] := fun s => by simp
    simp only [t1, t2]
    by_cases q1 : K = bs "user.name"
    · subst q1
      simp only [show bs "user.name" ≠ bs "user.primary_email" by decide +kernel, show bs "user.name" ≠ bs "user.other_email" by decide +kernel, show bs "user.name" ≠ bs "database.path" by decide +kernel,
        show bs "user.name" ≠ bs "new.tags" by decide +kernel, show bs "user.name" ≠ bs "search.exclude_tags" by decide +kernel, false_and, if_false, true_and]
      split <;> rfl
    by_cases q2 : K = bs "user.primary_email"
    · subst q2
      simp only [q1, show bs "user.primary_email" ≠ bs "user.other_email" by decide +kernel, show bs "user.primary_email" ≠ bs "database.path" by decide +kernel,
        show bs "user.primary_email" ≠ bs "new.tags" by decide +kernel, show bs "user.primary_email" ≠ bs "search.exclude_tags" by decide +kernel, false_and, if_false, true_and]
      split <;> rfl
    by_cases q3 : K = bs "user.other_email"
    · subst q3
      simp only [q1, q2, show bs "user.other_email" ≠ bs "database.path" by decide +kernel,
        show bs "user.other_email" ≠ bs "new.tags" by decide +kernel, show bs "user.other_email" ≠ bs "search.exclude_tags" by decide +kernel, false_and, if_false, true_and]
      split <;> rfl
    by_cases q4 : K = bs "database.path"
    · subst q4
      simp only [q1, q2, q3, show bs "database.path" ≠ bs "new.tags" by decide +kernel, show bs "database.path" ≠ bs "search.exclude_tags" by decide +kernel, false_and, if_false, true_and]
      split <;> rfl
    by_cases q5 : K = bs "new.tags"
    · subst q5
      simp only [q1, q2, q3, q4, show bs "new.tags" ≠ bs "search.exclude_tags" by decide +kernel, false_and, if_false, true_and]
      split
      · rename_i hh; rw [parseTagList_words hh]; rfl
      · rfl
    by_cases q6 : K = bs "search.exclude_tags"
    · subst q6
      simp only [q1, q2, q3, q4, q5, false_and, if_false, true_and]
      split
      · rename_i hh; rw [parseTagList_words hh]; rfl
      · rfl
    simp only [q1, q2, q3, q4, q5, q6, false_and, if_false]
    rfl

end Notmuch.Setup
