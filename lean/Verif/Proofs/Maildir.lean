import Verif.Model.Maildir
import Verif.Spec.Maildir

namespace Notmuch.Maildir
open MaildirSpec

/-! ### Sorted byte lists -/

theorem sorted_ext : ∀ (l l' : Str), l.Pairwise (· < ·) → l'.Pairwise (· < ·) →
    (∀ c, c ∈ l ↔ c ∈ l') → l = l' := by
  intro l
  induction l with
  | nil =>
    intro l' _ _ h
    cases l' with
    | nil => rfl
    | cons a l' => exact absurd ((h a).2 (by simp)) (by simp)
  | cons a l ih =>
    intro l' h1 h2 h
    cases l' with
    | nil => exact absurd ((h a).1 (by simp)) (by simp)
    | cons b l' =>
      rw [List.pairwise_cons] at h1 h2
      have hab : a = b := by
        have ha := (h a).1 (by simp)
        have hb := (h b).2 (by simp)
        rcases List.mem_cons.1 ha with e | ha
        · exact e
        · rcases List.mem_cons.1 hb with e | hb
          · exact e.symm
          · exact absurd (UInt8.lt_trans (h1.1 b hb) (h2.1 a ha)) (UInt8.lt_irrefl _)
      subst hab
      congr 1
      apply ih l' h1.2 h2.2
      intro c
      constructor
      · intro hc
        rcases List.mem_cons.1 ((h c).1 (by simp [hc])) with e | hc'
        · subst e; exact absurd (h1.1 _ hc) (UInt8.lt_irrefl _)
        · exact hc'
      · intro hc
        rcases List.mem_cons.1 ((h c).2 (by simp [hc])) with e | hc'
        · subst e; exact absurd (h2.1 _ hc) (UInt8.lt_irrefl _)
        · exact hc'

/-! ### The flag map -/

theorem filter_put_true (l : List Nat) (h : l.Nodup) (f : Nat → Bool) (a : Nat) (ha : a ∈ l)
    (hf : f a = false) :
    (l.filter (fun j => if j = a then true else f j)).length = (l.filter f).length + 1 := by
  induction l with
  | nil => simp at ha
  | cons x l ih =>
    rw [List.nodup_cons] at h
    by_cases e : x = a
    · subst e
      have : l.filter (fun j => if j = x then true else f j) = l.filter f := by
        apply List.filter_congr
        intro y hy
        rw [if_neg]; rintro rfl; exact h.1 hy
      simp only [List.filter_cons, hf, if_true, this, List.length_cons, Bool.false_eq_true, if_false]
    · have ha' : a ∈ l := by
        rcases List.mem_cons.1 ha with h | h
        · exact absurd h.symm e
        · exact h
      have := ih h.2 ha'
      simp only [List.filter_cons, e, if_false]
      split <;> simp only [List.length_cons, this] <;> omega

theorem filter_put_false (l : List Nat) (h : l.Nodup) (f : Nat → Bool) (a : Nat) (ha : a ∈ l)
    (hf : f a = true) :
    (l.filter (fun j => if j = a then false else f j)).length + 1 = (l.filter f).length := by
  induction l with
  | nil => simp at ha
  | cons x l ih =>
    rw [List.nodup_cons] at h
    by_cases e : x = a
    · subst e
      have : l.filter (fun j => if j = x then false else f j) = l.filter f := by
        apply List.filter_congr
        intro y hy
        rw [if_neg]; rintro rfl; exact h.1 hy
      simp only [List.filter_cons, hf, if_true, this, List.length_cons, Bool.false_eq_true, if_false]
    · have ha' : a ∈ l := by
        rcases List.mem_cons.1 ha with h | h
        · exact absurd h.symm e
        · exact h
      have := ih h.2 ha'
      simp only [List.filter_cons, e, if_false]
      split <;> simp only [List.length_cons, this] <;> omega

/-- The counter is the number of flags in the map. -/
def Counted (m : FlagMap) : Prop := m.count = ((List.range 128).filter m.map).length

theorem counted_empty : Counted .empty := by
  unfold Counted
  rw [List.filter_eq_nil_iff.2 (by simp [FlagMap.empty])]
  rfl

theorem counted_put_true {m : FlagMap} (h : Counted m) (i : Nat) (hi : i < 128)
    (hf : m.map i = false) (ch : Bool) : Counted (m.put i true 1 ch) := by
  unfold Counted FlagMap.put
  simp only
  rw [filter_put_true _ List.nodup_range _ i (List.mem_range.2 hi) hf, h]
  simp

theorem counted_put_false {m : FlagMap} (h : Counted m) (i : Nat) (hi : i < 128)
    (hf : m.map i = true) (ch : Bool) : Counted (m.put i false (-1) ch) := by
  unfold Counted FlagMap.put
  simp only
  have := filter_put_false _ List.nodup_range _ i (List.mem_range.2 hi) hf
  rw [h]; omega

theorem scan_counted (fl : Str) : ∀ (last : Nat) (m m' : FlagMap), Counted m →
    scanFlags fl last m = some m' → Counted m' := by
  induction fl with
  | nil => intro last m m' h e; simp [scanFlags] at e; subst e; exact h
  | cons c fl ih =>
    intro last m m' h e
    rw [scanFlags] at e
    split at e
    · simp at e
    · split at e
      · simp at e
      · split at e
        · simp at e
        · rename_i h1 h2 h3
          exact ih _ _ _ (counted_put_true h _ (by omega) (by simpa using h3) _) e

theorem set_counted (fl : Str) (hfl : ∀ c ∈ fl, c.toNat < 128) : ∀ (m : FlagMap), Counted m →
    Counted (setFlags m fl) := by
  induction fl with
  | nil => intro m h; exact h
  | cons c fl ih =>
    intro m h
    unfold setFlags
    rw [List.foldl_cons]
    apply ih (fun x hx => hfl x (by simp [hx]))
    split
    · rename_i hc
      exact counted_put_true h _ (hfl c (by simp)) hc _
    · exact h

theorem clear_counted (fl : Str) (hfl : ∀ c ∈ fl, c.toNat < 128) : ∀ (m : FlagMap), Counted m →
    Counted (clearFlags m fl) := by
  induction fl with
  | nil => intro m h; exact h
  | cons c fl ih =>
    intro m h
    unfold clearFlags
    rw [List.foldl_cons]
    apply ih (fun x hx => hfl x (by simp [hx]))
    split
    · rename_i hc
      exact counted_put_false h _ (hfl c (by simp)) hc _
    · exact h

theorem set_map (fl : Str) : ∀ (m : FlagMap) (i : Nat),
    (setFlags m fl).map i = true ↔ m.map i = true ∨ ∃ c ∈ fl, c.toNat = i := by
  induction fl with
  | nil => intro m i; simp [setFlags]
  | cons c fl ih =>
    intro m i
    have : setFlags m (c :: fl) =
      setFlags (if m.map c.toNat = false then m.put c.toNat true 1 true else m) fl := rfl
    rw [this, ih]
    have key : (if m.map c.toNat = false then m.put c.toNat true 1 true else m).map i = true ↔
        m.map i = true ∨ c.toNat = i := by
      split
      · simp only [FlagMap.put]
        split
        · rename_i h; simp [h]
        · rename_i h; simp [Ne.symm h]
      · rename_i h
        constructor
        · exact Or.inl
        · rintro (h' | rfl)
          · exact h'
          · simpa using h
    rw [key]
    simp [or_assoc]

theorem clear_map (fl : Str) : ∀ (m : FlagMap) (i : Nat),
    (clearFlags m fl).map i = true ↔ m.map i = true ∧ ∀ c ∈ fl, c.toNat ≠ i := by
  induction fl with
  | nil => intro m i; simp [clearFlags]
  | cons c fl ih =>
    intro m i
    have : clearFlags m (c :: fl) =
      clearFlags (if m.map c.toNat then m.put c.toNat false (-1) true else m) fl := rfl
    rw [this, ih]
    have key : (if m.map c.toNat then m.put c.toNat false (-1) true else m).map i = true ↔
        m.map i = true ∧ c.toNat ≠ i := by
      split
      · simp only [FlagMap.put]
        split
        · rename_i h; simp [h]
        · rename_i h; simp [Ne.symm h]
      · rename_i h
        constructor
        · intro h'
          refine ⟨h', ?_⟩
          rintro rfl
          exact h h'
        · exact fun h' => h'.1
    rw [key]
    simp [and_assoc]

theorem set_changed_mono (fl : Str) : ∀ (m : FlagMap), m.changed = true → (setFlags m fl).changed = true := by
  induction fl with
  | nil => intro m h; exact h
  | cons c fl ih =>
    intro m h
    have : setFlags m (c :: fl) =
      setFlags (if m.map c.toNat = false then m.put c.toNat true 1 true else m) fl := rfl
    rw [this]
    apply ih
    split
    · rfl
    · exact h

theorem clear_changed_mono (fl : Str) : ∀ (m : FlagMap), m.changed = true → (clearFlags m fl).changed = true := by
  induction fl with
  | nil => intro m h; exact h
  | cons c fl ih =>
    intro m h
    have : clearFlags m (c :: fl) =
      clearFlags (if m.map c.toNat then m.put c.toNat false (-1) true else m) fl := rfl
    rw [this]
    apply ih
    split
    · rfl
    · exact h

/-- If nothing changed the map is the same. -/
theorem set_unchanged (fl : Str) : ∀ (m : FlagMap), (setFlags m fl).changed = false →
    setFlags m fl = m := by
  induction fl with
  | nil => intro m _; rfl
  | cons c fl ih =>
    intro m h
    have e : setFlags m (c :: fl) =
      setFlags (if m.map c.toNat = false then m.put c.toNat true 1 true else m) fl := rfl
    rw [e] at h ⊢
    split at h
    · rw [set_changed_mono fl _ rfl] at h; simp at h
    · rename_i h'
      rw [if_neg h']
      exact ih m h

theorem clear_unchanged (fl : Str) : ∀ (m : FlagMap), (clearFlags m fl).changed = false →
    clearFlags m fl = m := by
  induction fl with
  | nil => intro m _; rfl
  | cons c fl ih =>
    intro m h
    have e : clearFlags m (c :: fl) =
      clearFlags (if m.map c.toNat then m.put c.toNat false (-1) true else m) fl := rfl
    rw [e] at h ⊢
    split at h
    · rw [clear_changed_mono fl _ rfl] at h; simp at h
    · rename_i h'
      rw [if_neg h']
      exact ih m h

/-- A good flag list is accepted and its flags are put into the map. -/
theorem scan_good (fl : Str) : ∀ (last : Nat) (m : FlagMap), GoodFlags fl →
    (∀ c ∈ fl, last ≤ c.toNat) → (∀ c ∈ fl, m.map c.toNat = false) →
    ∃ m', scanFlags fl last m = some m' ∧ m'.changed = m.changed ∧
      ∀ i, m'.map i = true ↔ m.map i = true ∨ ∃ c ∈ fl, c.toNat = i := by
  induction fl with
  | nil => intro last m _ _ _; exact ⟨m, rfl, rfl, by simp⟩
  | cons c fl ih =>
    intro last m hg hl hm
    obtain ⟨hp, hb⟩ := hg
    rw [List.pairwise_cons] at hp
    have hc128 : c.toNat < 128 := by
      have := hb c (by simp)
      rw [UInt8.lt_iff_toNat_lt] at this; simpa using this
    obtain ⟨m', h1, h2, h3⟩ := ih c.toNat (m.put c.toNat true 1 m.changed)
      ⟨hp.2, fun x hx => hb x (by simp [hx])⟩
      (fun x hx => by have := hp.1 x hx; rw [UInt8.lt_iff_toNat_lt] at this; omega)
      (fun x hx => by
        have := hp.1 x hx
        rw [UInt8.lt_iff_toNat_lt] at this
        simp only [FlagMap.put]
        rw [if_neg (by omega)]
        exact hm x (by simp [hx]))
    refine ⟨m', ?_, h2, ?_⟩
    · rw [scanFlags, if_neg (by have := hl c (by simp); omega), if_neg (by omega),
        if_neg (by simp [hm c (by simp)])]
      exact h1
    · intro i
      rw [h3]
      simp only [FlagMap.put, List.mem_cons, exists_eq_or_imp]
      by_cases e : i = c.toNat
      · simp [e]
      · simp [e, Ne.symm e]

/-- Only good flag lists are accepted. -/
theorem good_of_scan (fl : Str) : ∀ (last : Nat) (m m' : FlagMap), scanFlags fl last m = some m' →
    GoodFlags fl ∧ ∀ c ∈ fl, last ≤ c.toNat ∧ (m.map last = true → last < c.toNat) := by
  induction fl with
  | nil => intro last m m' _; exact ⟨⟨List.Pairwise.nil, by simp⟩, by simp⟩
  | cons c fl ih =>
    intro last m m' e
    rw [scanFlags] at e
    split at e
    · simp at e
    · split at e
      · simp at e
      · split at e
        · simp at e
        · rename_i h1 h2 h3
          obtain ⟨⟨g1, g2⟩, g3⟩ := ih _ _ _ e
          have g3' : ∀ x ∈ fl, c.toNat < x.toNat := fun x hx => (g3 x hx).2 (by simp [FlagMap.put])
          refine ⟨⟨List.pairwise_cons.2 ⟨?_, g1⟩, ?_⟩, ?_⟩
          · intro x hx; rw [UInt8.lt_iff_toNat_lt]; exact g3' x hx
          · intro x hx
            rcases List.mem_cons.1 hx with rfl | hx
            · rw [UInt8.lt_iff_toNat_lt]; show _ < 128; omega
            · exact g2 x hx
          · intro x hx
            have hcl : m.map last = true → last < c.toNat := by
              intro hm
              rcases Nat.lt_or_ge last c.toNat with h | h
              · exact h
              · have : c.toNat = last := by omega
                rw [this] at h3; exact absurd hm h3
            rcases List.mem_cons.1 hx with rfl | hx
            · exact ⟨by omega, hcl⟩
            · have := g3' x hx
              exact ⟨by omega, fun _ => by omega⟩

theorem mem_flagString (m : FlagMap) (c : UInt8) :
    c ∈ flagString m ↔ c.toNat < 128 ∧ m.map c.toNat = true := by
  unfold flagString
  simp only [List.mem_map, List.mem_filter, List.mem_range]
  constructor
  · rintro ⟨i, ⟨h1, h2⟩, rfl⟩
    have : (UInt8.ofNat i).toNat = i := by simp; omega
    rw [this]; exact ⟨h1, h2⟩
  · rintro ⟨h1, h2⟩
    exact ⟨c.toNat, ⟨h1, h2⟩, by simp⟩

theorem flagString_good (m : FlagMap) : GoodFlags (flagString m) := by
  constructor
  · unfold flagString
    rw [List.pairwise_map]
    have : ((List.range 128).filter m.map).Pairwise (· < ·) :=
      List.Pairwise.filter _ List.pairwise_lt_range
    refine this.imp_of_mem ?_
    intro a b ha hb hab
    rw [List.mem_filter, List.mem_range] at ha hb
    rw [UInt8.lt_iff_toNat_lt]
    have h1 : (UInt8.ofNat a).toNat = a := by simp; omega
    have h2 : (UInt8.ofNat b).toNat = b := by simp; omega
    omega
  · intro c hc
    rw [mem_flagString] at hc
    rw [UInt8.lt_iff_toNat_lt]
    exact hc.1

theorem flagString_length (m : FlagMap) (h : Counted m) : ((flagString m).length : Int) = m.count := by
  unfold flagString
  rw [List.length_map, h]

/-! ### strrchr and strstr -/

theorem rsplitSlash_none {s : Str} (h : 47 ∉ s) : rsplitSlash s = none := by
  induction s with
  | nil => rfl
  | cons c s ih =>
    simp only [List.mem_cons, not_or] at h
    rw [rsplitSlash, ih h.2]
    simp [Ne.symm h.1]

theorem rsplitSlash_append (a b : Str) (h : 47 ∉ b) : rsplitSlash (a ++ 47 :: b) = some (a, b) := by
  induction a with
  | nil => rw [List.nil_append, rsplitSlash, rsplitSlash_none h]; simp
  | cons c a ih => rw [List.cons_append, rsplitSlash, ih]

theorem rsplitSlash_some {s a b : Str} (h : rsplitSlash s = some (a, b)) :
    s = a ++ 47 :: b ∧ 47 ∉ b := by
  induction s generalizing a b with
  | nil => simp [rsplitSlash] at h
  | cons c s ih =>
    rw [rsplitSlash] at h
    split at h
    · rename_i a' b' h'
      obtain ⟨e, hb⟩ := ih h'
      simp at h
      obtain ⟨rfl, rfl⟩ := h
      exact ⟨by rw [e]; rfl, hb⟩
    · rename_i hn
      split at h
      · rename_i hc
        simp at h
        obtain ⟨rfl, rfl⟩ := h
        refine ⟨by rw [hc]; rfl, ?_⟩
        intro hm
        obtain ⟨x, y, e, hy⟩ : ∃ x y, s = x ++ 47 :: y ∧ 47 ∉ y := by
          clear hn ih
          induction s with
          | nil => simp at hm
          | cons d s ih =>
            by_cases hd : 47 ∈ s
            · obtain ⟨x, y, e, hy⟩ := ih hd
              exact ⟨d :: x, y, by rw [e]; rfl, hy⟩
            · rcases List.mem_cons.1 hm with rfl | hm
              · exact ⟨[], s, rfl, hd⟩
              · exact absurd hm hd
        rw [e, rsplitSlash_append _ _ hy] at hn
        simp at hn
      · simp at h

theorem bs_cur : bs "/cur" = [47, 99, 117, 114] := by decide +kernel
theorem bs_new : bs "/new" = [47, 110, 101, 119] := by decide +kernel
theorem bs_cur' : bs "cur" = [99, 117, 114] := by decide +kernel
theorem bs_new' : bs "new" = [110, 101, 119] := by decide +kernel

theorem inMaildir_intro (pre dir base : Str) (hd : dir = bs "cur" ∨ dir = bs "new")
    (hb : 47 ∉ base) : inMaildir (pre ++ bs "/" ++ dir ++ bs "/" ++ base) = some (pre, dir, base) := by
  have e1 : bs "/" = [47] := by decide +kernel
  have hlen : dir.length = 3 := by rcases hd with rfl | rfl <;> decide +kernel
  have : pre ++ bs "/" ++ dir ++ bs "/" ++ base = (pre ++ 47 :: dir) ++ 47 :: base := by
    simp [e1]
  rw [this]
  unfold inMaildir
  rw [rsplitSlash_append _ _ hb]
  have hl : (pre ++ 47 :: dir).length = pre.length + 4 := by simp [hlen]
  simp only [hl]
  rw [if_neg (by omega)]
  have h4 : pre.length + 4 - 4 = pre.length := by omega
  simp only [h4, List.take_left, List.drop_left]
  rcases hd with rfl | rfl
  · rw [if_pos (by decide +kernel)]
  · rw [if_neg (by decide +kernel), if_pos (by decide +kernel)]

theorem inMaildir_elim {f pre dir base : Str} (h : inMaildir f = some (pre, dir, base)) :
    f = pre ++ bs "/" ++ dir ++ bs "/" ++ base ∧ (dir = bs "cur" ∨ dir = bs "new") ∧ 47 ∉ base := by
  have e1 : bs "/" = [47] := by decide +kernel
  unfold inMaildir at h
  split at h
  · simp at h
  · rename_i before b hr
    obtain ⟨e, hb⟩ := rsplitSlash_some hr
    split at h
    · simp at h
    · have hsplit := List.take_append_drop (before.length - 4) before
      simp only at h
      split at h
      · rename_i hc
        simp at h
        obtain ⟨rfl, rfl, rfl⟩ := h
        refine ⟨?_, Or.inl rfl, hb⟩
        rw [hc] at hsplit
        rw [e, ← hsplit]
        simp [e1, bs_cur, bs_cur']
      · split at h
        · rename_i hc
          simp at h
          obtain ⟨rfl, rfl, rfl⟩ := h
          refine ⟨?_, Or.inr rfl, hb⟩
          rw [hc] at hsplit
          rw [e, ← hsplit]
          simp [e1, bs_new, bs_new']
        · simp at h

theorem sep_eq : sep = [58, 50, 44] := by decide +kernel
theorem bs_sep : bs ":2," = [58, 50, 44] := by decide +kernel

theorem splitInfo_sep (b : Str) : splitInfo ([58, 50, 44] ++ b) = some ([], b) := by
  simp [splitInfo, List.isPrefixOf]

theorem splitInfo_none_iff (s : Str) : splitInfo s = none ↔ ¬ sep <:+: s := by
  rw [sep_eq]
  induction s with
  | nil => simp [splitInfo, List.infix_nil]
  | cons c s ih =>
    rw [splitInfo, List.infix_cons_iff]
    split
    · rename_i h
      rw [List.isPrefixOf_iff_prefix] at h
      simp [h]
    · rename_i h
      rw [List.isPrefixOf_iff_prefix] at h
      cases hs : splitInfo s with
      | none => simp only [true_iff]; rw [hs] at ih; simp at ih; simp [h, ih]
      | some ab =>
        rw [hs] at ih; simp at ih
        simp [ih]

/-- A byte that is not in the pattern stops an occurrence from spanning it. -/
theorem prefix_stop (c : UInt8) (a r : Str) (d : UInt8) (hd : d ≠ 58 ∧ d ≠ 50 ∧ d ≠ 44) :
    [58, 50, 44].isPrefixOf (c :: (a ++ d :: r)) = [58, 50, 44].isPrefixOf (c :: a) := by
  match a with
  | [] => simp [List.isPrefixOf, Ne.symm hd.2.1]
  | [x] => simp [List.isPrefixOf, Ne.symm hd.2.2]
  | x :: y :: a => simp [List.isPrefixOf]

theorem splitInfo_append_slash (a r : Str) (h : splitInfo a = none) :
    splitInfo (a ++ 47 :: r) = (splitInfo (47 :: r)).map (fun p => (a ++ p.1, p.2)) := by
  induction a with
  | nil => simp
  | cons c a ih =>
    rw [splitInfo] at h
    split at h
    · simp at h
    · rename_i hp
      have ha : splitInfo a = none := by
        cases hs : splitInfo a with
        | none => rfl
        | some x => rw [hs] at h; simp at h
      rw [List.cons_append, splitInfo, prefix_stop _ _ _ _ (by decide), if_neg hp, ih ha]
      cases splitInfo (47 :: r) <;> simp

theorem splitInfo_slash (r : Str) :
    splitInfo (47 :: r) = (splitInfo r).map (fun p => (47 :: p.1, p.2)) := by
  rw [splitInfo, if_neg (by simp [List.isPrefixOf])]
  cases splitInfo r <;> rfl

theorem splitInfo_append_sep (a r : Str) (h : splitInfo a = none) :
    splitInfo (a ++ 58 :: 50 :: 44 :: r) = some (a, r) := by
  induction a with
  | nil => exact splitInfo_sep r
  | cons c a ih =>
    rw [splitInfo] at h
    split at h
    · simp at h
    · rename_i hp
      have ha : splitInfo a = none := by
        cases hs : splitInfo a with
        | none => rfl
        | some x => rw [hs] at h; simp at h
      have hp' : ¬ [58, 50, 44].isPrefixOf (c :: (a ++ 58 :: 50 :: 44 :: r)) = true := by
        match a, hp with
        | [], _ => simp [List.isPrefixOf]
        | [x], _ => simp [List.isPrefixOf]
        | x :: y :: a, hp => simpa [List.isPrefixOf] using hp
      rw [List.cons_append, splitInfo, if_neg hp', ih ha]

theorem splitInfo_some {s a b : Str} (h : splitInfo s = some (a, b)) :
    s = a ++ 58 :: 50 :: 44 :: b ∧ splitInfo a = none := by
  induction s generalizing a b with
  | nil => simp [splitInfo] at h
  | cons c s ih =>
    rw [splitInfo] at h
    split at h
    · rename_i hp
      simp at h
      obtain ⟨rfl, rfl⟩ := h
      rw [List.isPrefixOf_iff_prefix] at hp
      obtain ⟨t, ht⟩ := hp
      rw [← ht] 
      simp at ht
      simp [← ht.2, splitInfo]
    · rename_i hp
      cases hs : splitInfo s with
      | none => rw [hs] at h; simp at h
      | some p =>
        obtain ⟨a', b'⟩ := p
        rw [hs] at h
        simp at h
        obtain ⟨rfl, rfl⟩ := h
        obtain ⟨e, hn⟩ := ih hs
        refine ⟨by rw [e]; rfl, ?_⟩
        rw [splitInfo, if_neg, hn]
        intro hp'
        apply hp
        rw [List.isPrefixOf_iff_prefix] at hp' ⊢
        rw [e, ← List.cons_append]
        exact hp'.trans (List.prefix_append _ _)

end Notmuch.Maildir
