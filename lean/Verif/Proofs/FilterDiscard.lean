import Verif.Proofs.Filter

namespace Notmuch.Filter

theorem discard_cons {rows : Array Row} {skip st st' : Nat} {c : UInt8} (h : next rows (rows.size + 1) st c = some st') (s : Str) :
    discard rows skip st (c :: s) = (discard rows skip st' s).map (fun x => (x.1, if st < skip then c :: x.2 else x.2)) := by
  rw [discard, h]
  simp only
  cases discard rows skip st' s <;> rfl

theorem discard_app {rows : Array Row} {skip st st' : Nat} {a o : Str} (h : discard rows skip st a = some (st', o)) (b : Str) :
    discard rows skip st (a ++ b) = (discard rows skip st' b).map (fun x => (x.1, o ++ x.2)) := by
  rw [discard_append, h]
  rfl

/-! ## HTML -/

theorem html0 : ∀ c : UInt8, next html (html.size + 1) 0 c = some (if c = 60 then 1 else 0) := by apply forall_byte; decide +kernel
theorem html1 : ∀ c : UInt8, next html (html.size + 1) 1 c = some (if c = 39 then 4 else if c = 34 then 5 else if c = 62 then 0 else 1) := by apply forall_byte; decide +kernel
theorem html4 : ∀ c : UInt8, next html (html.size + 1) 4 c = some (if c = 39 then 1 else 4) := by apply forall_byte; decide +kernel
theorem html5 : ∀ c : UInt8, next html (html.size + 1) 5 c = some (if c = 34 then 1 else 5) := by apply forall_byte; decide +kernel

theorem html_text : ∀ t : Str, 60 ∉ t → discard html 1 0 t = some (0, t)
  | [], _ => rfl
  | c :: t, h => by
    have hc : c ≠ 60 := fun e => h (e ▸ List.mem_cons_self)
    rw [discard_cons (html0 c), if_neg hc, html_text t (fun m => h (List.mem_cons_of_mem _ m))]
    rfl

theorem html_single : ∀ q : Str, 39 ∉ q → discard html 1 4 q = some (4, [])
  | [], _ => rfl
  | c :: t, h => by
    have hc : c ≠ 39 := fun e => h (e ▸ List.mem_cons_self)
    rw [discard_cons (html4 c), if_neg hc, html_single t (fun m => h (List.mem_cons_of_mem _ m))]
    rfl

theorem html_double : ∀ q : Str, 34 ∉ q → discard html 1 5 q = some (5, [])
  | [], _ => rfl
  | c :: t, h => by
    have hc : c ≠ 34 := fun e => h (e ▸ List.mem_cons_self)
    rw [discard_cons (html5 c), if_neg hc, html_double t (fun m => h (List.mem_cons_of_mem _ m))]
    rfl

theorem html_in {b : Str} (h : InTag b) : discard html 1 1 b = some (1, []) := by
  induction h with
  | nil => rfl
  | char c b h1 h2 h3 _ ih => rw [discard_cons (html1 c), if_neg h1, if_neg h2, if_neg h3, ih]; rfl
  | single q b hq _ ih =>
    rw [discard_cons (html1 39), if_pos rfl, discard_app (html_single q hq), discard_cons (html4 39), if_pos rfl, ih]; rfl
  | double q b hq _ ih =>
    rw [discard_cons (html1 34), if_neg (by decide), if_pos rfl, discard_app (html_double q hq), discard_cons (html5 34), if_pos rfl, ih]; rfl

theorem html_tag {t : Str} (h : Tag t) : discard html 1 0 t = some (0, [60]) := by
  obtain ⟨b, hb, rfl⟩ := h
  rw [discard_cons (html0 60), if_pos rfl, discard_app (html_in hb), discard_cons (html1 62)]
  rfl

theorem html_open {t : Str} (h : OpenTag t) : ∃ e, discard html 1 0 t = some (e, [60]) ∧ e ≠ 0 := by
  obtain ⟨b, r, hb, rfl, hr⟩ := h
  rw [discard_cons (html0 60), if_pos rfl, discard_app (html_in hb)]
  rcases hr with rfl | ⟨q, hq, rfl⟩ | ⟨q, hq, rfl⟩
  · exact ⟨1, rfl, by decide⟩
  · rw [discard_cons (html1 39), if_pos rfl, html_single q hq]
    exact ⟨4, rfl, by decide⟩
  · rw [discard_cons (html1 34), if_neg (by decide), if_pos rfl, html_double q hq]
    exact ⟨5, rfl, by decide⟩

theorem html_tags : ∀ l : List (Str × Str), (∀ x ∈ l, Tag x.1 ∧ 60 ∉ x.2) →
    discard html 1 0 (l.flatMap (fun x => x.1 ++ x.2)) = some (0, l.flatMap (fun x => 60 :: x.2))
  | [], _ => rfl
  | x :: l, h => by
    have hx := h x List.mem_cons_self
    rw [List.flatMap_cons, List.append_assoc, discard_app (html_tag hx.1), discard_app (html_text x.2 hx.2),
      html_tags l (fun y hy => h y (List.mem_cons_of_mem _ hy))]
    rfl

theorem html_parts {s t0 last : Str} {l : List (Str × Str)} (h : HtmlParts s t0 l last) :
    ∃ e, discard html 1 0 s = some (e, t0 ++ l.flatMap (fun x => 60 :: x.2) ++ last.take 1) ∧ (e = 0 ↔ last = []) := by
  rw [h.eq, List.append_assoc, discard_app (html_text t0 h.text), discard_app (html_tags l h.tags)]
  rcases h.rest with rfl | ho
  · exact ⟨0, by simp [discard], by simp⟩
  · obtain ⟨e, he, hne⟩ := html_open ho
    rw [he]
    obtain ⟨b, r, _, rfl, _⟩ := ho
    exact ⟨e, by simp, by simp [hne]⟩

theorem inTag_split (s : Str) : (∃ b r, InTag b ∧ s = b ++ 62 :: r) ∨ OpenTag (60 :: s) := by
  generalize hn : s.length = n
  induction n using Nat.strongRecOn generalizing s with
  | _ n ih =>
    match s with
    | [] => exact .inr ⟨[], [], .nil, rfl, .inl rfl⟩
    | c :: s =>
      have key (q : UInt8) (mk : ∀ a b, q ∉ a → InTag b → InTag (q :: (a ++ q :: b))) (hq : c = q)
          (hopen : ∀ a, q ∉ a → OpenTag (60 :: q :: a)) :
          (∃ b r, InTag b ∧ c :: s = b ++ 62 :: r) ∨ OpenTag (60 :: c :: s) := by
        subst hq
        by_cases hm : c ∈ s
        · obtain ⟨a, r, hs, ha⟩ := List.eq_append_cons_of_mem hm
          subst hs
          rcases ih r.length (by subst hn; simp; omega) r rfl with ⟨b, r', hb, rfl⟩ | ⟨b, r', hb, he, hr⟩
          · exact .inl ⟨c :: (a ++ c :: b), r', mk a b ha hb, by simp⟩
          · refine .inr ⟨c :: (a ++ c :: b), r', mk a b ha hb, ?_, hr⟩
            simp only [List.cons.injEq, true_and] at he
            simp [he]
        · exact .inr (hopen s hm)
      by_cases h1 : c = 39
      · exact key 39 InTag.single h1 (fun a ha => ⟨[], 39 :: a, .nil, rfl, .inr (.inl ⟨a, ha, rfl⟩)⟩)
      by_cases h2 : c = 34
      · exact key 34 InTag.double h2 (fun a ha => ⟨[], 34 :: a, .nil, rfl, .inr (.inr ⟨a, ha, rfl⟩)⟩)
      by_cases h3 : c = 62
      · exact .inl ⟨[], s, .nil, by simp [h3]⟩
      rcases ih s.length (by subst hn; simp) s rfl with ⟨b, r', hb, rfl⟩ | ⟨b, r', hb, he, hr⟩
      · exact .inl ⟨c :: b, r', .char c b h1 h2 h3 hb, rfl⟩
      · refine .inr ⟨c :: b, r', .char c b h1 h2 h3 hb, ?_, hr⟩
        simp only [List.cons.injEq, true_and] at he
        simp [he]

theorem html_has_parts (s : Str) : ∃ t0 l last, HtmlParts s t0 l last := by
  generalize hn : s.length = n
  induction n using Nat.strongRecOn generalizing s with
  | _ n ih =>
    by_cases hm : (60 : UInt8) ∈ s
    · obtain ⟨a, r, hs, ha⟩ := List.eq_append_cons_of_mem hm
      subst hs
      rcases inTag_split r with ⟨b, r', hb, rfl⟩ | ho
      · obtain ⟨t0, l, last, h⟩ := ih r'.length (by subst hn; simp; omega) r' rfl
        refine ⟨a, (60 :: (b ++ [62]), t0) :: l, last, ha, ?_, h.rest, ?_⟩
        · intro x hx
          rcases List.mem_cons.mp hx with rfl | hx
          · exact ⟨⟨b, hb, rfl⟩, h.text⟩
          · exact h.tags x hx
        · rw [h.eq]; simp
      · exact ⟨a, [], 60 :: r, ha, by simp, .inr ho, by simp⟩
    · exact ⟨s, [], [], hm, by simp, .inl rfl, by simp⟩

/-! ## uuencode -/

/-- What has been read when the scan is in each of the first eleven states: the end of the text. -/
def Seen : Nat → Str → Prop
  | 0, _ => True
  | 1, p => bs "b" <:+ p
  | 2, p => bs "be" <:+ p
  | 3, p => bs "beg" <:+ p
  | 4, p => bs "begi" <:+ p
  | 5, p => bs "begin" <:+ p
  | 6, p => bs "begin " <:+ p
  | 7, p => ∃ d1, (48 ≤ d1 ∧ d1 ≤ 55) ∧ (bs "begin " ++ [d1]) <:+ p
  | 8, p => ∃ d1 d2, (48 ≤ d1 ∧ d1 ≤ 55) ∧ (48 ≤ d2 ∧ d2 ≤ 55) ∧ (bs "begin " ++ [d1, d2]) <:+ p
  | 9, p => ∃ d1 d2 d3, (∀ d ∈ [d1, d2, d3], 48 ≤ d ∧ d ≤ 55) ∧ (bs "begin " ++ [d1, d2, d3]) <:+ p
  | 10, p => ∃ d1 d2 d3 name, (∀ d ∈ [d1, d2, d3], 48 ≤ d ∧ d ≤ 55) ∧ 10 ∉ name ∧ (bs "begin " ++ [d1, d2, d3] ++ bs " " ++ name) <:+ p
  | _, _ => False

theorem suffix_snoc {a p : Str} (h : a <:+ p) (c : UInt8) : (a ++ [c]) <:+ (p ++ [c]) := by
  obtain ⟨t, rfl⟩ := h
  exact ⟨t, by simp⟩

def uuNext (st : Nat) (c : UInt8) : Nat :=
  match st with
  | 0 => if c = 98 then 1 else 0
  | 1 => if c = 101 then 2 else 0
  | 2 => if c = 103 then 3 else 0
  | 3 => if c = 105 then 4 else 0
  | 4 => if c = 110 then 5 else 0
  | 5 => if c = 32 then 6 else 0
  | 6 => if 48 ≤ c ∧ c ≤ 55 then 7 else 0
  | 7 => if 48 ≤ c ∧ c ≤ 55 then 8 else 0
  | 8 => if 48 ≤ c ∧ c ≤ 55 then 9 else 0
  | 9 => if c = 32 then 10 else 0
  | 10 => if c = 10 then 11 else 10
  | 11 => if c = 77 then 12 else 0
  | _ => if 32 ≤ c ∧ c ≤ 96 then 12 else 11

theorem uuNext_eq (st : Nat) (h : st ≤ 12) : ∀ c : UInt8, next uuencode (uuencode.size + 1) st c = some (uuNext st c) := by
  apply forall_byte
  have : ∀ st ≤ 12, ∀ n : Fin 256, next uuencode (uuencode.size + 1) st (UInt8.ofFin n) = some (uuNext st (UInt8.ofFin n)) := by decide +kernel
  exact this st h

theorem uu_seen {st : Nat} (h : st ≤ 10) {p : Str} (hp : Seen st p) (c : UInt8) :
    (uuNext st c ≤ 10 ∧ Seen (uuNext st c) (p ++ [c])) ∨ (uuNext st c = 11 ∧ ∃ b, Begin b ∧ b <:+ (p ++ [c])) := by
  have h' : st = 0 ∨ st = 1 ∨ st = 2 ∨ st = 3 ∨ st = 4 ∨ st = 5 ∨ st = 6 ∨ st = 7 ∨ st = 8 ∨ st = 9 ∨ st = 10 := by omega
  rcases h' with rfl | rfl | rfl | rfl | rfl | rfl | rfl | rfl | rfl | rfl | rfl
  · by_cases e : c = 98
    · subst e; exact .inl ⟨by decide, p, rfl⟩
    · rw [show uuNext 0 c = 0 from if_neg e]; exact .inl ⟨by decide, trivial⟩
  · by_cases e : c = 101
    · subst e; exact .inl ⟨by decide, suffix_snoc hp 101⟩
    · rw [show uuNext 1 c = 0 from if_neg e]; exact .inl ⟨by decide, trivial⟩
  · by_cases e : c = 103
    · subst e; exact .inl ⟨by decide, suffix_snoc hp 103⟩
    · rw [show uuNext 2 c = 0 from if_neg e]; exact .inl ⟨by decide, trivial⟩
  · by_cases e : c = 105
    · subst e; exact .inl ⟨by decide, suffix_snoc hp 105⟩
    · rw [show uuNext 3 c = 0 from if_neg e]; exact .inl ⟨by decide, trivial⟩
  · by_cases e : c = 110
    · subst e; exact .inl ⟨by decide, suffix_snoc hp 110⟩
    · rw [show uuNext 4 c = 0 from if_neg e]; exact .inl ⟨by decide, trivial⟩
  · by_cases e : c = 32
    · subst e; exact .inl ⟨by decide, suffix_snoc hp 32⟩
    · rw [show uuNext 5 c = 0 from if_neg e]; exact .inl ⟨by decide, trivial⟩
  · by_cases e : 48 ≤ c ∧ c ≤ 55
    · rw [show uuNext 6 c = 7 from if_pos e]; exact .inl ⟨by decide, c, e, suffix_snoc hp c⟩
    · rw [show uuNext 6 c = 0 from if_neg e]; exact .inl ⟨by decide, trivial⟩
  · by_cases e : 48 ≤ c ∧ c ≤ 55
    · obtain ⟨d1, h1, hs⟩ := hp
      rw [show uuNext 7 c = 8 from if_pos e]; exact .inl ⟨by decide, d1, c, h1, e, suffix_snoc hs c⟩
    · rw [show uuNext 7 c = 0 from if_neg e]; exact .inl ⟨by decide, trivial⟩
  · by_cases e : 48 ≤ c ∧ c ≤ 55
    · obtain ⟨d1, d2, h1, h2, hs⟩ := hp
      rw [show uuNext 8 c = 9 from if_pos e]
      refine .inl ⟨by decide, d1, d2, c, ?_, suffix_snoc hs c⟩
      intro d hd
      simp only [List.mem_cons, List.not_mem_nil, or_false] at hd
      rcases hd with rfl | rfl | rfl <;> assumption
    · rw [show uuNext 8 c = 0 from if_neg e]; exact .inl ⟨by decide, trivial⟩
  · by_cases e : c = 32
    · subst e
      obtain ⟨d1, d2, d3, hd, hs⟩ := hp
      exact .inl ⟨by decide, d1, d2, d3, [], hd, by simp, suffix_snoc hs 32⟩
    · rw [show uuNext 9 c = 0 from if_neg e]; exact .inl ⟨by decide, trivial⟩
  · obtain ⟨d1, d2, d3, name, hd, hn, hs⟩ := hp
    by_cases e : c = 10
    · subst e
      exact .inr ⟨rfl, _, ⟨d1, d2, d3, name, hd, hn, rfl⟩, suffix_snoc hs 10⟩
    · rw [show uuNext 10 c = 10 from if_neg e]
      refine .inl ⟨by decide, d1, d2, d3, name ++ [c], hd, ?_, ?_⟩
      · simp [hn, Ne.symm e]
      · rw [← List.append_assoc]; exact suffix_snoc hs c

/-- From one of the first eleven states: all is kept, or there is a first begin line. -/
theorem uu_scan : ∀ (s : Str) (st : Nat) (p : Str), st ≤ 10 → Seen st p →
    (∃ e, e ≤ 10 ∧ Seen e (p ++ s) ∧ discard uuencode 11 st s = some (e, s)) ∨
    ∃ a y b, s = a ++ y ∧ a ≠ [] ∧ Begin b ∧ b <:+ (p ++ a) ∧ discard uuencode 11 st a = some (11, a)
  | [], st, p, h, hp => .inl ⟨st, h, by simpa using hp, rfl⟩
  | c :: s, st, p, h, hp => by
    have hlt : st < 11 := by omega
    rcases uu_seen h hp c with ⟨hle, hs⟩ | ⟨he, b, hb, hs⟩
    · rcases uu_scan s (uuNext st c) (p ++ [c]) hle hs with ⟨e, hle', hs', hd⟩ | ⟨a, y, b, rfl, ha, hb, hs', hd⟩
      · refine .inl ⟨e, hle', by simpa using hs', ?_⟩
        rw [discard_cons (uuNext_eq st (by omega) c), hd]
        simp [hlt]
      · refine .inr ⟨c :: a, y, b, rfl, by simp, hb, by simpa using hs', ?_⟩
        rw [discard_cons (uuNext_eq st (by omega) c), hd]
        simp [hlt]
    · refine .inr ⟨[c], s, b, rfl, by simp, hb, hs, ?_⟩
      rw [discard_cons (uuNext_eq st (by omega) c), he]
      simp [hlt, discard]

theorem uu_12 : ∀ d : Str, (∀ x ∈ d, 32 ≤ x ∧ x ≤ 96) → discard uuencode 11 12 d = some (12, [])
  | [], _ => rfl
  | c :: d, h => by
    rw [discard_cons (uuNext_eq 12 (by decide) c), show uuNext 12 c = 12 from if_pos (h c List.mem_cons_self),
      uu_12 d (fun x hx => h x (List.mem_cons_of_mem _ hx))]
    rfl

theorem uu_data {m : Str} (h : DataLine m) : discard uuencode 11 11 m = some (11, []) := by
  obtain ⟨d, c, hd, hc, rfl⟩ := h
  rw [discard_cons (uuNext_eq 11 (by decide) 77), show uuNext 11 77 = 12 from rfl, discard_app (uu_12 d hd),
    discard_cons (uuNext_eq 12 (by decide) c), show uuNext 12 c = 11 from if_neg hc]
  rfl

theorem uu_datas : ∀ l : List Str, (∀ m ∈ l, DataLine m) → discard uuencode 11 11 l.flatten = some (11, [])
  | [], _ => rfl
  | m :: l, h => by
    rw [List.flatten_cons, discard_app (uu_data (h m List.mem_cons_self)), uu_datas l (fun x hx => h x (List.mem_cons_of_mem _ hx))]
    rfl

theorem uu_after {c : UInt8} (hc : c ≠ 77) (r : Str) : discard uuencode 11 11 (c :: r) = discard uuencode 11 0 r := by
  rw [discard_cons (uuNext_eq 11 (by decide) c), show uuNext 11 c = 0 from if_neg hc]
  simp

theorem data_split : ∀ s : Str, (∀ x ∈ s, 32 ≤ x ∧ x ≤ 96) ∨ ∃ d c r, (∀ x ∈ d, 32 ≤ x ∧ x ≤ 96) ∧ ¬ (32 ≤ c ∧ c ≤ 96) ∧ s = d ++ c :: r
  | [] => .inl (by simp)
  | c :: s => by
    by_cases hc : 32 ≤ c ∧ c ≤ 96
    · rcases data_split s with h | ⟨d, c', r, h, h', rfl⟩
      · exact .inl (by intro x hx; rcases List.mem_cons.mp hx with rfl | hx; exact hc; exact h x hx)
      · refine .inr ⟨c :: d, c', r, ?_, h', rfl⟩
        intro x hx; rcases List.mem_cons.mp hx with rfl | hx; exact hc; exact h x hx
    · exact .inr ⟨[], c, s, by simp, hc, rfl⟩

theorem uu_lines (s : Str) : ∃ (l : List Str) (rest : Str), (∀ m ∈ l, DataLine m) ∧ s = l.flatten ++ rest ∧
    (rest = [] ∨ (∃ d, (∀ x ∈ d, 32 ≤ x ∧ x ≤ 96) ∧ rest = 77 :: d) ∨ ∃ c r, c ≠ 77 ∧ rest = c :: r) := by
  generalize hn : s.length = n
  induction n using Nat.strongRecOn generalizing s with
  | _ n ih =>
    match s with
    | [] => exact ⟨[], [], by simp, rfl, .inl rfl⟩
    | c :: s =>
      by_cases hc : c = 77
      · subst hc
        rcases data_split s with h | ⟨d, c', r, h, h', rfl⟩
        · exact ⟨[], 77 :: s, by simp, rfl, .inr (.inl ⟨s, h, rfl⟩)⟩
        · obtain ⟨l, rest, hl, rfl, hr⟩ := ih r.length (by subst hn; simp; omega) r rfl
          refine ⟨(77 :: (d ++ [c'])) :: l, rest, ?_, by simp, hr⟩
          intro m hm
          rcases List.mem_cons.mp hm with rfl | hm
          · exact ⟨d, c', h, h', rfl⟩
          · exact hl m hm
      · exact ⟨[], c :: s, by simp, rfl, .inr (.inr ⟨c, s, hc, rfl⟩)⟩

/-- A begin line is found in state 0. -/
theorem uu_begin {b : Str} (h : Begin b) : discard uuencode 11 0 b = some (11, b) := by
  obtain ⟨d1, d2, d3, name, hd, hn, rfl⟩ := h
  have hname : ∀ n : Str, 10 ∉ n → discard uuencode 11 10 (n ++ [10]) = some (11, n ++ [10]) := by
    intro n
    induction n with
    | nil => intro _; rw [List.nil_append, discard_cons (uuNext_eq 10 (by decide) 10)]; rfl
    | cons c n ih =>
      intro h
      have hc : c ≠ 10 := fun e => h (e ▸ List.mem_cons_self)
      rw [List.cons_append, discard_cons (uuNext_eq 10 (by decide) c), show uuNext 10 c = 10 from if_neg hc, ih (fun m => h (List.mem_cons_of_mem _ m))]
      rfl
  have e1 : bs "begin " = [98, 101, 103, 105, 110, 32] := by decide +kernel
  have e2 : bs " " = [32] := by decide +kernel
  rw [e1, e2, List.append_assoc, List.append_assoc]
  show discard uuencode 11 0 (98 :: 101 :: 103 :: 105 :: 110 :: 32 :: d1 :: d2 :: d3 :: 32 :: (name ++ [10])) = _
  rw [discard_cons (uuNext_eq 0 (by decide) 98), show uuNext 0 98 = 1 from rfl,
    discard_cons (uuNext_eq 1 (by decide) 101), show uuNext 1 101 = 2 from rfl,
    discard_cons (uuNext_eq 2 (by decide) 103), show uuNext 2 103 = 3 from rfl,
    discard_cons (uuNext_eq 3 (by decide) 105), show uuNext 3 105 = 4 from rfl,
    discard_cons (uuNext_eq 4 (by decide) 110), show uuNext 4 110 = 5 from rfl,
    discard_cons (uuNext_eq 5 (by decide) 32), show uuNext 5 32 = 6 from rfl,
    discard_cons (uuNext_eq 6 (by decide) d1), show uuNext 6 d1 = 7 from if_pos (hd d1 (by simp)),
    discard_cons (uuNext_eq 7 (by decide) d2), show uuNext 7 d2 = 8 from if_pos (hd d2 (by simp)),
    discard_cons (uuNext_eq 8 (by decide) d3), show uuNext 8 d3 = 9 from if_pos (hd d3 (by simp)),
    discard_cons (uuNext_eq 9 (by decide) 32), show uuNext 9 32 = 10 from rfl, hname name hn]
  simp

theorem uu_no_begin {s : Str} (h : ¬ ∃ b, Begin b ∧ b <:+: s) : ∃ e, e ≤ 10 ∧ Seen e s ∧ discard uuencode 11 0 s = some (e, s) := by
  rcases uu_scan s 0 [] (by decide) trivial with ⟨e, he, hs, hd⟩ | ⟨a, y, b, rfl, _, hb, hs, _⟩
  · exact ⟨e, he, by simpa using hs, hd⟩
  · exact absurd ⟨b, hb, List.IsInfix.trans hs.isInfix ⟨[], y, by simp⟩⟩ h

/-- After the end of a line that is not a begin line the scan starts afresh. -/
theorem uu_line_end {x : Str} (h : ¬ ∃ b, Begin b ∧ b <:+: (x ++ [10])) : discard uuencode 11 0 (x ++ [10]) = some (0, x ++ [10]) := by
  have hx : ¬ ∃ b, Begin b ∧ b <:+: x := by
    rintro ⟨b, hb, hi⟩
    exact h ⟨b, hb, hi.trans ⟨[], [10], by simp⟩⟩
  obtain ⟨e, he, hs, hd⟩ := uu_no_begin hx
  rcases uu_seen he hs 10 with ⟨hle, _⟩ | ⟨_, b, hb, hi⟩
  · have h0 : uuNext e 10 = 0 := by
      have : ∀ e ≤ 10, uuNext e 10 ≤ 10 → uuNext e 10 = 0 := by decide
      exact this e he hle
    rw [discard_app hd, discard_cons (uuNext_eq e (by omega) 10), h0]
    simp [discard, Nat.lt_succ_of_le he]
  · exact absurd ⟨b, hb, hi.isInfix⟩ h

end Notmuch.Filter
