import Verif.Proofs.PatchName

namespace Notmuch.Props
open Notmuch.PatchName Notmuch.PatchNameSpec Notmuch.PatchNameProofs

private theorem title_sane {canon : Char → Char} (hc : Sane canon) : ∀ c ∈ [' ', '/', '\n', '\x00'], isTitle canon c = false := by
  intro c h
  unfold isTitle
  rw [List.any_eq_false]
  intro m hm e
  have := hc c h m (beq_iff_eq.1 e)
  subst this
  have key : ∀ m ∈ titleChars, m ∉ [' ', '/', '\n', '\x00'] := by decide +kernel
  exact key m hm h

/-- C86: whatever the subject of a message, the name of its patch is a plain file name: at least four digits, a hyphen, at most 52 characters, ".patch"; with
letters (as the case table has them), digits, dots, underscores and hyphens, so no slash, space, newline or NUL; and no two dots in a row. -/
theorem C86_safe (canon : Char → Char) (hc : Sane canon) (subject : List Char) :
    ∃ (ds title : List Char), patchFilename canon subject = ds ++ '-' :: title ++ ".patch".toList ∧
      4 ≤ ds.length ∧ (∀ c ∈ ds, c.isDigit = true) ∧ title.length ≤ 52 ∧ (∀ c ∈ title, isTitle canon c = true ∨ c = '-') ∧
      (∀ c ∈ patchFilename canon subject, c ∉ [' ', '/', '\n', '\x00']) ∧
      (∀ a b, patchFilename canon subject ≠ a ++ '.' :: '.' :: b) := by
  obtain ⟨h1, h2, h3, h4⟩ := title_facts canon subject 52
  have h1' : ∀ c ∈ subjectToFilename canon subject (some 52), isTitle canon c = true ∨ c = '-' := by
    intro c h
    rcases h1 c h with h | h | h
    · exact Or.inl h
    · exact Or.inr h
    · subst h
      exact Or.inl (List.any_eq_true.2 ⟨'.', by decide +kernel, by simp⟩)
  have hd := pad4_digits ((sequenceNumber subject).getD 1)
  refine ⟨_, _, rfl, ?_, hd, h2, h1', ?_, ?_⟩
  · unfold pad4
    simp only [List.length_append, List.length_replicate, String.length_toList]
    omega
  · intro c h hb
    unfold patchFilename at h
    simp only [List.append_assoc, List.cons_append, List.mem_append, List.mem_cons] at h
    rcases h with h | h | h | h
    · have := hd c h
      revert this hb
      clear h
      simp only [List.mem_cons, List.not_mem_nil, or_false]
      rintro (rfl | rfl | rfl | rfl) <;> decide
    · subst h; revert hb; decide +kernel
    · rcases h1' c h with h | h
      · rw [title_sane hc c hb] at h; cases h
      · subst h; revert hb; decide +kernel
    · have : ∀ c ∈ ".patch".toList, c ∉ [' ', '/', '\n', '\x00'] := by decide +kernel
      exact this c h hb
  · have nd : ∀ c ∈ pad4 ((sequenceNumber subject).getD 1), c ≠ '.' := by
      intro c h e
      have := hd c h
      rw [e] at this
      revert this
      decide
    have t : NoDD (subjectToFilename canon subject (some 52) ++ ".patch".toList) := by
      refine h3.append ?_ (fun h => absurd rfl (h4 _ h).1)
      intro a b e
      have : ".patch".toList = ['.', 'p', 'a', 't', 'c', 'h'] := by decide +kernel
      rw [this] at e
      rcases a with _ | ⟨a1, _ | ⟨a2, _ | ⟨a3, _ | ⟨a4, _ | ⟨a5, _ | ⟨a6, a⟩⟩⟩⟩⟩⟩ <;> simp at e
    have t2 := NoDD.cons (c := '-') t (fun h => by cases h)
    have := (noDD_of nd).append t2 (fun _ h => by cases h)
    intro a b e
    exact this a b (by rw [← e]; unfold patchFilename; simp)

/-- C86: a subject of words after any prefixes in brackets becomes the words with hyphens between them. -/
theorem C86_words (canon : Char → Char) (hc : Sane canon) (prefixes ws : List (List Char)) (hp : ∀ c ∈ prefixes, ']' ∉ c) (hw : ∀ w ∈ ws, Word w)
    (maxlen : Option Nat) (hl : ∀ m, maxlen = some m → (joined '-' ws).length ≤ m) :
    subjectToFilename canon (bracketed prefixes ++ joined ' ' ws) maxlen = joined '-' ws := by
  have word : ∀ w, Word w → ∀ c ∈ w, isTitle canon c = true ∧ c ≠ '.' ∧ c ≠ '-' ∧ c ≠ '\n' ∧ c ≠ ' ' ∧ c ≠ '[' := by
    intro w hw c h
    have h1 := hw.2 c h
    have key : ∀ c ∈ "ABCDEFGHIJKLMNOPQRSTUVWXYZabcdefghijklmnopqrstuvwxyz0123456789_".toList,
        c ∈ titleChars ∧ c ≠ '.' ∧ c ≠ '-' ∧ c ≠ '\n' ∧ c ≠ ' ' ∧ c ≠ '[' := by decide +kernel
    exact ⟨List.any_eq_true.2 ⟨c, (key c h1).1, by simp⟩, (key c h1).2⟩
  have hsp : isTitle canon ' ' = false := title_sane hc ' ' (by simp)
  have mem : ∀ (sep : Char) (ws : List (List Char)) (c : Char), c ∈ joined sep ws → c = sep ∨ ∃ w ∈ ws, c ∈ w := by
    intro sep ws
    induction ws with
    | nil => intro c h; cases h
    | cons w ws ih =>
      intro c h
      cases ws with
      | nil => exact Or.inr ⟨w, List.mem_cons_self .., h⟩
      | cons x ws =>
        simp only [joined, List.mem_append, List.mem_cons] at h
        rcases h with h | h | h
        · exact Or.inr ⟨w, List.mem_cons_self .., h⟩
        · exact Or.inl h
        · rcases ih c h with h | ⟨v, hv, h⟩
          · exact Or.inl h
          · exact Or.inr ⟨v, List.mem_cons_of_mem _ hv, h⟩
  have head : ∀ c, (joined ' ' ws).head? = some c → c ≠ '[' ∧ c ≠ ' ' := by
    intro c h
    cases ws with
    | nil => cases h
    | cons w ws =>
      have hw1 := hw w (List.mem_cons_self ..)
      cases w with
      | nil => exact absurd rfl hw1.1
      | cons d w =>
        have : c = d := by
          cases ws <;> simp [joined] at h <;> exact h.symm
        subst this
        have := word _ hw1 c (List.mem_cons_self ..)
        exact ⟨this.2.2.2.2.2, this.2.2.2.2.1⟩
  have s1 : stripPrefixes ((bracketed prefixes ++ joined ' ' ws).length + 1) (bracketed prefixes ++ joined ' ' ws) = joined ' ' ws := by
    unfold stripPrefixes
    rw [lineGroups_bracketed prefixes _ hp (fun h => (head _ h).1 rfl) (fun h => (head _ h).2 rfl)]
    have nn : ∀ c ∈ joined ' ' ws, (decide (c ≠ '\n')) = true := by
      intro c h
      rcases mem _ _ _ h with h | ⟨w, hw', h⟩
      · subst h; rfl
      · exact decide_eq_true (word w (hw w hw') c h).2.2.2.1
    have : (joined ' ' ws).dropWhile (· ≠ '\n') = [] := by
      have all : ∀ l : List Char, (∀ c ∈ l, (decide (c ≠ '\n')) = true) → l.dropWhile (· ≠ '\n') = [] := by
        intro l
        induction l with
        | nil => intro _; rfl
        | cons c l ih =>
          intro h
          rw [List.dropWhile_cons_of_pos (p := fun x => decide (x ≠ '\n')) (h c (List.mem_cons_self ..))]
          exact ih (fun c hc => h c (List.mem_cons_of_mem _ hc))
      exact all _ nn
    simp only [this]
  have sq : ∀ (w : List Char), (∀ c ∈ w, isTitle canon c = true) → ∀ (b : Bool) (t : List Char), w ≠ [] →
      squeeze (fun c => !isTitle canon c) '-' b (w ++ t) = w ++ squeeze (fun c => !isTitle canon c) '-' false t := by
    intro w
    induction w with
    | nil => intro _ _ _ h; exact absurd rfl h
    | cons c w ih =>
      intro h b t _
      have hc := h c (List.mem_cons_self ..)
      simp only [List.cons_append, squeeze, hc, Bool.not_true, Bool.false_eq_true, if_false]
      cases w with
      | nil => rfl
      | cons d w => rw [ih (fun c hc => h c (List.mem_cons_of_mem _ hc)) false t (by simp)]
  have s2 : ∀ (ws : List (List Char)), (∀ w ∈ ws, Word w) → ∀ b, squeeze (fun c => !isTitle canon c) '-' b (joined ' ' ws) = joined '-' ws := by
    intro ws
    induction ws with
    | nil => intro _ b; rfl
    | cons w ws ih =>
      intro hw b
      have hw1 := hw w (List.mem_cons_self ..)
      have ht : ∀ c ∈ w, isTitle canon c = true := fun c h => (word w hw1 c h).1
      cases ws with
      | nil =>
        have := sq w ht b [] hw1.1
        simpa [joined, squeeze] using this
      | cons x ws =>
        simp only [joined]
        rw [sq w ht b _ hw1.1]
        simp only [squeeze, hsp, Bool.not_false, if_true, Bool.false_eq_true, if_false]
        have := ih (fun w h => hw w (List.mem_cons_of_mem _ h)) true
        rw [this]
  have nd : ∀ c ∈ joined '-' ws, c ≠ '.' := by
    intro c h
    rcases mem _ _ _ h with h | ⟨w, hw', h⟩
    · subst h; decide
    · exact (word w (hw w hw') c h).2.1
  have s3 : ∀ (l : List Char) (b : Bool), (∀ c ∈ l, c ≠ '.') → squeeze (· == '.') '.' b l = l := by
    intro l
    induction l with
    | nil => intro _ _; rfl
    | cons c l ih =>
      intro b h
      have : (c == '.') = false := beq_eq_false_iff_ne.2 (h c (List.mem_cons_self ..))
      simp only [squeeze, this, Bool.false_eq_true, if_false]
      rw [ih false (fun c hc => h c (List.mem_cons_of_mem _ hc))]
  have last : ∀ (ws : List (List Char)), (∀ w ∈ ws, Word w) → ∀ c, (joined '-' ws).getLast? = some c → c ≠ '.' ∧ c ≠ '-' := by
    intro ws
    induction ws with
    | nil => intro _ c h; cases h
    | cons w ws ih =>
      intro hw c h
      have hw1 := hw w (List.mem_cons_self ..)
      cases ws with
      | nil =>
        have := word w hw1 c (List.mem_of_getLast? h)
        exact ⟨this.2.1, this.2.2.1⟩
      | cons x ws =>
        have ne : joined '-' (x :: ws) ≠ [] := by
          have hx := hw x (by simp)
          cases ws with
          | nil => exact hx.1
          | cons y ws => simp [joined]
        apply ih (fun w h => hw w (List.mem_cons_of_mem _ h)) c
        rw [← h]
        simp only [joined]
        rw [List.getLast?_append]
        cases hj : joined '-' (x :: ws) with
        | nil => exact absurd hj ne
        | cons y l =>
          rw [List.getLast?_cons_cons, List.getLast?_eq_some_getLast (l := y :: l) (by simp)]
          rfl
  have s5 : trim (joined '-' ws) = joined '-' ws := by
    unfold trim
    have hl := last ws hw
    rw [← List.head?_reverse] at hl
    cases hr : (joined '-' ws).reverse with
    | nil => rw [← List.reverse_reverse (joined '-' ws), hr]; rfl
    | cons c l =>
      rw [hr] at hl
      have := hl c rfl
      rw [List.dropWhile_cons_of_neg (by simp [this.1, this.2]), ← hr, List.reverse_reverse]
  unfold subjectToFilename
  dsimp only
  rw [s1, s2 ws hw, s3 _ _ nd]
  cases maxlen with
  | none => exact s5
  | some m =>
    dsimp only
    rw [List.take_of_length_le (by have := hl m rfl; omega)]
    exact s5

/-- C86: the number is that of the last bracket at the beginning of the subject that has N/M, e.g. 3 for "[tool] [PATCH v2 3/7] words". -/
theorem C86_number (before after : List (List Char)) (p q t : List Char) (n : Nat) (d : Char) (hb : ∀ c ∈ before, ']' ∉ c)
    (ha : ∀ c ∈ after, ']' ∉ c ∧ '/' ∉ c) (hp : ']' ∉ p ∧ '/' ∉ p) (hp' : ∀ c, p.getLast? = some c → c.isDigit = false) (hq : ']' ∉ q)
    (hd : d.isDigit = true) (h1 : t.head? ≠ some '[') (h2 : t.head? ≠ some ' ') :
    sequenceNumber (bracketed (before ++ [p ++ n.repr.toList ++ '/' :: d :: q] ++ after) ++ t) = some n := by
  have hdig : ∀ c ∈ n.repr.toList, c.isDigit = true := by
    intro c h
    rw [Nat.toList_repr] at h
    exact Nat.isDigit_of_mem_toDigits (by omega) (by omega) h
  have hnb : ∀ c : Char, c.isDigit = true → c ≠ ']' := by
    intro c h e; subst e; revert h; decide
  have hx : ']' ∉ p ++ n.repr.toList ++ '/' :: d :: q := by
    intro h
    simp only [List.append_assoc, List.mem_append, List.mem_cons] at h
    rcases h with h | h | h | h | h
    · exact hp.1 h
    · exact hnb _ (hdig _ h) rfl
    · revert h; decide
    · exact hnb _ hd h.symm
    · exact hq h
  have hall : ∀ c ∈ before ++ [p ++ n.repr.toList ++ '/' :: d :: q] ++ after, ']' ∉ c := by
    intro c h
    simp only [List.append_assoc, List.mem_append, List.mem_singleton] at h
    rcases h with h | h | h
    · exact hb c h
    · have e : c = p ++ n.repr.toList ++ '/' :: d :: q := by simpa using h
      rw [e]; exact hx
    · exact (ha c h).1
  have key : sequenceHere (bracketed (before ++ [p ++ n.repr.toList ++ '/' :: d :: q] ++ after) ++ t) = some n.repr.toList := by
    unfold sequenceHere
    rw [lineGroups_bracketed _ t hall h1 h2]
    have er : (before ++ [p ++ n.repr.toList ++ '/' :: d :: q] ++ after).reverse =
        after.reverse ++ ((p ++ n.repr.toList ++ '/' :: d :: q) :: before.reverse) := by simp
    rw [er, List.findSome?_append]
    have e1 : after.reverse.findSome? digitsSlash = none := by
      rw [List.findSome?_eq_none_iff]
      intro c hc
      exact digitsSlash_none c (ha c (List.mem_reverse.1 hc)).2
    have e2 := digitsSlash_some n.repr.toList q d hdig (by rw [Nat.toList_repr]; exact Nat.toDigits_ne_nil) hd p hp.2 hp'
    rw [e1, List.findSome?_cons, e2]
    rfl
  unfold sequenceNumber
  cases hs : bracketed (before ++ [p ++ n.repr.toList ++ '/' :: d :: q] ++ after) ++ t with
  | nil =>
    exfalso
    have := congrArg List.length hs
    have h3 := bracketed_len (before ++ [p ++ n.repr.toList ++ '/' :: d :: q] ++ after)
    simp only [List.length_append, List.length_cons, List.length_nil] at this h3
    omega
  | cons c s =>
    rw [hs] at key
    unfold sequenceAt
    simp only [if_true, key, Option.map_some]
    congr 1
    have := Nat.ofDigitChars_ten_toDigits (n := n)
    rw [Nat.ofDigitChars_eq_foldl] at this
    unfold number
    rw [Nat.toList_repr]
    exact this

/-- C86: for a subject as `git format-patch` writes it, number and words: the number in four digits, the words with hyphens. -/
theorem C86_patch (canon : Char → Char) (hc : Sane canon) (p q : List Char) (n : Nat) (d : Char) (ws : List (List Char)) (hp : ']' ∉ p ∧ '/' ∉ p)
    (hp' : ∀ c, p.getLast? = some c → c.isDigit = false) (hq : ']' ∉ q) (hd : d.isDigit = true) (hw : ∀ w ∈ ws, Word w)
    (hl : (joined '-' ws).length ≤ 52) :
    patchFilename canon ('[' :: p ++ n.repr.toList ++ '/' :: d :: q ++ [']', ' '] ++ joined ' ' ws) =
      pad4 n ++ '-' :: joined '-' ws ++ ".patch".toList := by
  have head : ∀ c, (joined ' ' ws).head? = some c → c ≠ '[' ∧ c ≠ ' ' := by
    intro c h
    cases ws with
    | nil => cases h
    | cons w ws =>
      have hw1 := hw w (List.mem_cons_self ..)
      cases w with
      | nil => exact absurd rfl hw1.1
      | cons e w =>
        have : c = e := by
          cases ws <;> simp [joined] at h <;> exact h.symm
        subst this
        have h1 := hw1.2 c (List.mem_cons_self ..)
        have key : ∀ c ∈ "ABCDEFGHIJKLMNOPQRSTUVWXYZabcdefghijklmnopqrstuvwxyz0123456789_".toList, c ≠ '[' ∧ c ≠ ' ' := by decide +kernel
        exact key c h1
  have hn := C86_number [] [] p q (joined ' ' ws) n d (fun _ h => by cases h) (fun _ h => by cases h) hp hp' hq hd (fun h => (head _ h).1 rfl)
    (fun h => (head _ h).2 rfl)
  have hdig : ∀ c ∈ n.repr.toList, c.isDigit = true := by
    intro c h
    rw [Nat.toList_repr] at h
    exact Nat.isDigit_of_mem_toDigits (by omega) (by omega) h
  have hnb : ∀ c : Char, c.isDigit = true → c ≠ ']' := by
    intro c h e; subst e; revert h; decide
  have hx : ∀ c ∈ [p ++ n.repr.toList ++ '/' :: d :: q], ']' ∉ c := by
    intro c hc
    rw [List.mem_singleton.1 hc]
    intro h
    simp only [List.append_assoc, List.mem_append, List.mem_cons] at h
    rcases h with h | h | h | h | h
    · exact hp.1 h
    · exact hnb _ (hdig _ h) rfl
    · revert h; decide
    · exact hnb _ hd h.symm
    · exact hq h
  have hf := C86_words canon hc [p ++ n.repr.toList ++ '/' :: d :: q] ws hx hw (some 52) (fun m h => by cases h; exact hl)
  have e : '[' :: p ++ n.repr.toList ++ '/' :: d :: q ++ [']', ' '] ++ joined ' ' ws =
      bracketed [p ++ n.repr.toList ++ '/' :: d :: q] ++ joined ' ' ws := by simp [bracketed]
  rw [e]
  unfold patchFilename
  rw [hf]
  have hn' : sequenceNumber (bracketed [p ++ n.repr.toList ++ '/' :: d :: q] ++ joined ' ' ws) = some n := by simpa using hn
  rw [hn']
  rfl

/-- C86: a subject of one line none of whose first brackets has a number, a slash and a number has no sequence number, whatever comes after, in brackets or not;
and the name of its patch begins with 0001. -/
theorem C86_no_number (canon : Char → Char) (cs : List (List Char)) (t : List Char) (hc : ∀ c ∈ cs, ']' ∉ c ∧ '\n' ∉ c)
    (hn : ∀ c ∈ cs, ∀ a x d b, c = a ++ x :: '/' :: d :: b → ¬ (x.isDigit = true ∧ d.isDigit = true))
    (ht : '\n' ∉ t) (h1 : t.head? ≠ some '[') (h2 : t.head? ≠ some ' ') :
    sequenceNumber (bracketed cs ++ t) = none ∧
      patchFilename canon (bracketed cs ++ t) = "0001-".toList ++ subjectToFilename canon (bracketed cs ++ t) (some 52) ++ ".patch".toList := by
  have here : sequenceHere (bracketed cs ++ t) = none := by
    unfold sequenceHere
    rw [lineGroups_bracketed cs t (fun c h => (hc c h).1) h1 h2]
    rw [List.findSome?_eq_none_iff]
    intro c h
    exact digitsSlash_no c (hn c (List.mem_reverse.1 h))
  have nl : '\n' ∉ bracketed cs ++ t := by
    intro h
    rcases List.mem_append.1 h with h | h
    · unfold bracketed at h
      obtain ⟨c, hm, h⟩ := List.mem_flatMap.1 h
      simp only [List.cons_append, List.mem_cons, List.mem_append, List.not_mem_nil, or_false] at h
      rcases h with h | h | h | h
      · revert h; decide
      · exact (hc c hm).2 h
      · revert h; decide
      · revert h; decide
    · exact ht h
  have key : sequenceNumber (bracketed cs ++ t) = none := by
    unfold sequenceNumber
    rw [Option.map_eq_none_iff]
    cases e : bracketed cs ++ t with
    | nil => rfl
    | cons c s =>
      rw [e] at here nl
      have hcn : (c == '\n') = false := beq_eq_false_iff_ne.2 (fun e => nl (by rw [e]; exact List.mem_cons_self ..))
      simp only [sequenceAt, if_true, here, hcn]
      exact sequenceAt_false s (fun m => nl (List.mem_cons_of_mem _ m))
  refine ⟨key, ?_⟩
  unfold patchFilename
  rw [key]
  have : pad4 ((none : Option Nat).getD 1) = "0001".toList := by decide +kernel
  rw [this]
  have : "0001-".toList = "0001".toList ++ ['-'] := by decide +kernel
  rw [this]
  simp

/-- The hypotheses are met: ASCII case is a case table; a patch of a series, and a hostile subject. -/
theorem C86_example : Sane asciiCase ∧
    patchFilename asciiCase "[tool] [PATCH v2 03/17] emacs: draw trees".toList = "0003-emacs-draw-trees.patch".toList ∧
    patchFilename asciiCase "../../.bashrc\n [x] rm -rf /".toList = "0001-.-.-.bashrc-rm-rf.patch".toList ∧
    patchFilename asciiCase (bracketed ["PATCH a/b 3/".toList] ++ "now [4/5]".toList) = "0001-now-4-5.patch".toList := by
  refine ⟨?_, by decide +kernel, by decide +kernel, by decide +kernel⟩
  intro c hc d h
  simp only [List.mem_cons, List.not_mem_nil, or_false] at hc
  have e : asciiCase c = c := by rcases hc with rfl | rfl | rfl | rfl <;> rfl
  rw [e] at h
  unfold asciiCase Char.toLower at h
  split at h
  · next hu =>
    exfalso
    have hv := congrArg Char.val h
    simp only at hv
    have h1 : 'A'.val.toNat ≤ d.val.toNat := UInt32.le_iff_toNat_le.1 hu.1
    have h2 : d.val.toNat ≤ 'Z'.val.toNat := UInt32.le_iff_toNat_le.1 hu.2
    have hn := congrArg UInt32.toNat hv
    rw [UInt32.toNat_add] at hn
    have e1 : 'A'.val.toNat = 65 := rfl
    have e2 : 'Z'.val.toNat = 90 := rfl
    have e3 : ('a'.val - 'A'.val).toNat = 32 := rfl
    rw [e1] at h1
    rw [e2] at h2
    rw [e3, Nat.mod_eq_of_lt (by omega)] at hn
    have key : ∀ x ∈ [' ', '/', '\n', '\x00'], x.val.toNat < 97 := by decide +kernel
    have := key c (by simpa using hc)
    omega
  · exact h

end Notmuch.Props
