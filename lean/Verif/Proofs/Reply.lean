import Verif.Spec.Reply

namespace Notmuch.Reply

open Notmuch.Address (Addr Mbx)
open Notmuch.StringUtil (strcaseEqual)

theorem casePrefix_iff : ∀ (p s : Str), casePrefix p s = true ↔ ∃ b c, s = b ++ c ∧ SameAddr b p
  | [], s => by
    simp only [casePrefix, true_iff]
    exact ⟨[], s, rfl, rfl⟩
  | x :: p, [] => by
    simp only [casePrefix, Bool.false_eq_true, false_iff]
    rintro ⟨b, c, h, h2⟩
    obtain ⟨rfl, rfl⟩ := List.append_eq_nil_iff.1 h.symm
    cases h2
  | x :: p, y :: s => by
    simp only [casePrefix, Bool.and_eq_true, beq_iff_eq, casePrefix_iff p s]
    constructor
    · rintro ⟨h, b, c, rfl, h2⟩
      refine ⟨y :: b, c, rfl, ?_⟩
      unfold SameAddr at h2 ⊢
      simp [h, h2]
    · rintro ⟨b, c, h, h2⟩
      cases b with
      | nil => cases h2
      | cons z b =>
        injection h with h h3
        subst h
        unfold SameAddr at h2
        simp only [List.map_cons, List.cons.injEq] at h2
        exact ⟨h2.1.symm, b, c, h3, h2.2⟩

theorem caseContains_iff (u : Str) : ∀ (s : Str), caseContains u s = true ↔ ContainsCase u s
  | [] => by
    unfold caseContains
    rw [casePrefix_iff]
    constructor
    · rintro ⟨b, c, h, h2⟩; exact ⟨[], b, c, h, h2⟩
    · rintro ⟨a, b, c, h, h2⟩
      have h := h.symm
      simp only [List.append_eq_nil_iff] at h
      obtain ⟨⟨rfl, rfl⟩, rfl⟩ := h
      exact ⟨[], [], rfl, h2⟩
  | x :: s => by
    unfold caseContains
    rw [Bool.or_eq_true, casePrefix_iff, caseContains_iff u s]
    constructor
    · rintro (⟨b, c, h, h2⟩ | ⟨a, b, c, rfl, h2⟩)
      · exact ⟨[], b, c, h, h2⟩
      · exact ⟨x :: a, b, c, rfl, h2⟩
    · rintro ⟨a, b, c, h, h2⟩
      cases a with
      | nil => exact Or.inl ⟨b, c, h, h2⟩
      | cons y a =>
        injection h with _ h
        exact Or.inr ⟨a, b, c, h, h2⟩

theorem matchOther_mem {s : Str} {mode : MatchMode} : ∀ {l : List Str} {a : Str}, matchOther s mode l = some a → a ∈ l ∧ matchAddress s a mode = true
  | [], a, h => by cases h
  | b :: l, a, h => by
    unfold matchOther at h
    split at h
    · rename_i hm
      injection h with h
      subst h
      exact ⟨List.mem_cons_self, hm⟩
    · obtain ⟨h1, h2⟩ := matchOther_mem h
      exact ⟨List.mem_cons_of_mem _ h1, h2⟩

theorem matchOther_none {s : Str} {mode : MatchMode} : ∀ {l : List Str}, matchOther s mode l = none → ∀ a ∈ l, matchAddress s a mode = false
  | [], _, a, ha => by cases ha
  | b :: l, h, a, ha => by
    unfold matchOther at h
    split at h
    · cases h
    · rename_i hm
      rcases List.mem_cons.mp ha with rfl | ha
      · exact Bool.eq_false_iff.mpr hm
      · exact matchOther_none h a ha

/-- Whatever is matched, the result is a configured address, and it matches. -/
theorem addressMatch_some {s : Option Str} {cfg : Config} {mode : MatchMode} {a : Str} (h : addressMatch s cfg mode = some a) :
    Configured cfg a ∧ ∃ t, s = some t ∧ t ≠ [] ∧ matchAddress t a mode = true := by
  unfold addressMatch at h
  cases s with
  | none => cases h
  | some t =>
    simp only at h
    split at h
    · cases h
    · rename_i hne
      split at h
      · rename_i hm
        injection h with h
        subst h
        exact ⟨Or.inl rfl, t, rfl, hne, hm⟩
      · obtain ⟨h1, h2⟩ := matchOther_mem h
        exact ⟨Or.inr h1, t, rfl, hne, h2⟩

theorem addressMatch_none {t : Str} {cfg : Config} {mode : MatchMode} (hne : t ≠ []) (h : addressMatch (some t) cfg mode = none) :
    ∀ a, Configured cfg a → matchAddress t a mode = false := by
  unfold addressMatch at h
  simp only at h
  rw [if_neg hne] at h
  split at h
  · cases h
  · rename_i hm
    rintro a (rfl | ha)
    · exact Bool.eq_false_iff.mpr hm
    · exact matchOther_none h a ha

theorem strcase_iff (a b : Str) : strcaseEqual a b = true ↔ SameAddr a b := by
  unfold strcaseEqual SameAddr
  exact beq_iff_eq

theorem isUsers_iff (a : Str) (cfg : Config) : isUsers a cfg = true ↔ Mine cfg a := by
  unfold isUsers
  constructor
  · intro h
    cases e : addressMatch (some a) cfg .stringIsUserAddress with
    | none => rw [e] at h; cases h
    | some u =>
      obtain ⟨h1, t, h2, h3, h4⟩ := addressMatch_some e
      injection h2 with h2
      subst h2
      exact ⟨h3, u, h1, (strcase_iff _ _).mp h4⟩
  · rintro ⟨h1, u, h2, h3⟩
    cases e : addressMatch (some a) cfg .stringIsUserAddress with
    | some u => rfl
    | none =>
      have := addressMatch_none h1 e u h2
      have h4 := (strcase_iff _ _).mpr h3
      unfold matchAddress at this
      rw [h4] at this
      cases this

/-! ## Scanning -/

mutual
theorem scanAddr_flat (cfg : Config) (reply : Bool) (t : RType) : ∀ (a : Addr) (st : Scan), scanAddr cfg reply t st a = (mailboxes a).foldl (scanMailbox cfg reply t) st
  | .mailbox name addr, st => by simp [scanAddr, mailboxes]
  | .group none, st => by simp [scanAddr, mailboxes]
  | .group (some l), st => by
    rw [scanAddr, mailboxes]
    exact scanList_flat cfg reply t l st

theorem scanList_flat (cfg : Config) (reply : Bool) (t : RType) : ∀ (l : List Addr) (st : Scan), scanList cfg reply t st l = (mailboxesL l).foldl (scanMailbox cfg reply t) st
  | [], st => by simp [scanList, mailboxesL]
  | a :: l, st => by
    rw [scanList, mailboxesL, List.foldl_append, scanAddr_flat cfg reply t a st, scanList_flat cfg reply t l]
end

theorem scan_fold (cfg : Config) (reply : Bool) (t : RType) : ∀ (l : List Mbx) (st : Scan),
    l.foldl (scanMailbox cfg reply t) st =
      ⟨st.added ++ (if reply then (l.filter (fun m => ¬ Mine cfg m.2)).map (fun m => (t, m)) else []),
       st.n + (if reply then (l.filter (fun m => ¬ Mine cfg m.2)).length else 0), st.userFrom.or (firstMine cfg l)⟩
  | [], st => by cases reply <;> simp [firstMine]
  | m :: l, st => by
    rw [List.foldl_cons, scan_fold cfg reply t l]
    unfold scanMailbox
    by_cases hm : Mine cfg m.2
    · rw [if_pos ((isUsers_iff _ _).mpr hm)]
      rw [List.filter_cons_of_neg (by simp [hm])]
      have hf : firstMine cfg (m :: l) = some m.2 := by
        unfold firstMine
        rw [List.find?_cons_of_pos (by simp [hm])]
        rfl
      rw [hf]
      cases hu : st.userFrom with
      | none => simp
      | some u => simp [hu]
    · rw [if_neg (fun h => hm ((isUsers_iff _ _).mp h))]
      have hf : firstMine cfg (m :: l) = firstMine cfg l := by
        unfold firstMine
        rw [List.find?_cons_of_neg (by simp [hm])]
      rw [hf, List.filter_cons_of_pos (by simp [hm])]
      cases reply with
      | false => simp
      | true =>
        simp
        omega

theorem scanHeader (cfg : Config) (reply : Bool) (t : RType) (h : Option (List Addr)) (st : Scan) :
    scanList cfg reply t st (h.getD []) =
      ⟨st.added ++ (if reply then others cfg h t else []), st.n + (if reply then (others cfg h t).length else 0), st.userFrom.or (firstMine cfg (mbxs h))⟩ := by
  rw [scanList_flat, scan_fold]
  unfold others mbxs
  simp

theorem firstMine_append (cfg : Config) (a b : List Mbx) : firstMine cfg (a ++ b) = (firstMine cfg a).or (firstMine cfg b) := by
  unfold firstMine
  rw [List.find?_append]
  cases a.find? (fun m => decide (Mine cfg m.2)) <;> rfl

/-- All the mailboxes of some headers. -/
def allMbxs (hs : List (Option (List Addr) × RType)) : List Mbx := hs.flatMap (fun h => mbxs h.1)

theorem loop_all (cfg : Config) : ∀ (hs : List (Option (List Addr) × RType)) (st : Scan),
    recipientsLoop cfg true true st hs =
      (true, ⟨st.added ++ hs.flatMap (fun h => others cfg h.1 h.2), st.n + (hs.flatMap (fun h => others cfg h.1 h.2)).length, st.userFrom.or (firstMine cfg (allMbxs hs))⟩)
  | [], st => by simp [recipientsLoop, allMbxs, firstMine]
  | (h, t) :: hs, st => by
    unfold recipientsLoop
    simp only [Bool.not_true, Bool.false_and, Bool.false_eq_true, if_false]
    rw [scanHeader, loop_all cfg hs]
    simp only [if_true, List.flatMap_cons, List.append_assoc, List.length_append]
    rw [show allMbxs ((h, t) :: hs) = mbxs h ++ allMbxs hs from rfl, firstMine_append, Option.or_assoc]
    simp [Nat.add_assoc]

theorem loop_done (cfg : Config) : ∀ (hs : List (Option (List Addr) × RType)) (st : Scan), st.n ≠ 0 →
    recipientsLoop cfg false false st hs = (false, ⟨st.added, st.n, st.userFrom.or (firstMine cfg (allMbxs hs))⟩)
  | [], st, _ => by simp [recipientsLoop, allMbxs, firstMine]
  | (h, t) :: hs, st, hn => by
    unfold recipientsLoop
    rw [scanHeader]
    have hcond : (!false && decide (st.n + 0 ≠ 0)) = true := by simp [hn]
    simp only [Bool.false_eq_true, if_false, List.append_nil]
    rw [if_pos hcond]
    rw [show allMbxs ((h, t) :: hs) = mbxs h ++ allMbxs hs from rfl, firstMine_append]
    split
    · rename_i hs1
      have hs1 : (st.userFrom.or (firstMine cfg (mbxs h))).isSome = true := hs1
      rw [← Option.or_assoc]
      cases e : st.userFrom.or (firstMine cfg (mbxs h)) with
      | none => rw [e] at hs1; cases hs1
      | some u => simp
    · rw [loop_done cfg hs _ (by simpa using hn)]
      simp [Option.or_assoc]

theorem loop_sender (cfg : Config) : ∀ (hs : List (Option (List Addr) × RType)) (u : Option Str),
    recipientsLoop cfg false true ⟨[], 0, u⟩ hs =
      (decide (firstNonempty (hs.map (fun h => others cfg h.1 h.2)) = []),
       ⟨firstNonempty (hs.map (fun h => others cfg h.1 h.2)), (firstNonempty (hs.map (fun h => others cfg h.1 h.2))).length, u.or (firstMine cfg (allMbxs hs))⟩)
  | [], u => by simp [recipientsLoop, allMbxs, firstMine, firstNonempty]
  | (h, t) :: hs, u => by
    unfold recipientsLoop
    rw [scanHeader]
    simp only [if_true, List.nil_append, Nat.zero_add, List.map_cons]
    rw [show allMbxs ((h, t) :: hs) = mbxs h ++ allMbxs hs from rfl, firstMine_append]
    by_cases ho : others cfg h t = []
    · rw [ho]
      simp only [List.length_nil, ne_eq, not_true_eq_false, decide_false, Bool.and_false, Bool.false_eq_true, if_false]
      rw [loop_sender cfg hs]
      simp [firstNonempty, Option.or_assoc]
    · have hl : (others cfg h t).length ≠ 0 := fun hh => ho (List.eq_nil_of_length_eq_zero hh)
      have hcond : (!false && decide ((others cfg h t).length ≠ 0)) = true := by simp [ho]
      rw [if_pos hcond]
      have hf : firstNonempty (others cfg h t :: hs.map (fun h => others cfg h.1 h.2)) = others cfg h t := by simp [firstNonempty, ho]
      rw [hf]
      split
      · rename_i hs1
        have hs1 : (u.or (firstMine cfg (mbxs h))).isSome = true := hs1
        rw [← Option.or_assoc]
        cases e : u.or (firstMine cfg (mbxs h)) with
        | none => rw [e] at hs1; cases hs1
        | some u => simp [ho]
      · rw [loop_done cfg hs _ hl]
        simp [Option.or_assoc, ho]

/-! ## The sender -/

theorem hasMailbox_iff (addr : Str) : ∀ (l : List Addr), hasMailbox addr l = true ↔ ∃ name, Addr.mailbox name addr ∈ l
  | [] => by simp [hasMailbox]
  | .mailbox name a :: l => by
    rw [hasMailbox, Bool.or_eq_true, hasMailbox_iff addr l]
    simp only [decide_eq_true_eq, List.mem_cons, Addr.mailbox.injEq]
    constructor
    · rintro (h | ⟨n, h⟩)
      · exact ⟨name, Or.inl ⟨rfl, h.symm⟩⟩
      · exact ⟨n, Or.inr h⟩
    · rintro ⟨n, (⟨_, h⟩ | h)⟩
      · exact Or.inl h.symm
      · exact Or.inr ⟨n, h⟩
  | .group g :: l => by
    rw [hasMailbox, hasMailbox_iff addr l]
    simp

theorem redundant_iff (m : Msg) (l : List Addr) (hl : m.replyTo = some l) : redundant m l = true ↔ Munged m := by
  constructor
  · intro h
    unfold redundant at h
    split at h
    · rename_i name addr
      exact ⟨name, addr, hl, (hasMailbox_iff _ _).mp h⟩
    · cases h
  · rintro ⟨name, addr, h1, h2⟩
    rw [hl] at h1
    injection h1 with h1
    subst h1
    exact (hasMailbox_iff _ _).mpr h2

theorem getSender_spec (m : Msg) : IsSender m (getSender m) := by
  unfold IsSender getSender
  cases hr : m.replyTo with
  | none =>
    refine ⟨fun h => absurd rfl h.1, fun _ => rfl⟩
  | some l =>
    cases l with
    | nil => exact ⟨fun h => absurd rfl h.1, fun _ => rfl⟩
    | cons a l =>
      simp only
      have hi := redundant_iff m (a :: l) hr
      constructor
      · rintro ⟨_, h⟩
        rw [if_neg (fun hh => h (hi.mp hh))]
      · rintro (h | h)
        · cases h
        · rw [if_pos (hi.mpr h)]

theorem sender_unique {m : Msg} {s : Option (List Addr)} (h : IsSender m s) : s = getSender m := by
  have h' := getSender_spec m
  by_cases hc : m.replyTo.getD [] ≠ [] ∧ ¬ Munged m
  · rw [h.1 hc, h'.1 hc]
  · have : m.replyTo.getD [] = [] ∨ Munged m := by
      by_cases h1 : m.replyTo.getD [] = []
      · exact Or.inl h1
      · by_cases h2 : Munged m
        · exact Or.inr h2
        · exact absurd ⟨h1, h2⟩ hc
    rw [h.2 this, h'.2 this]

/-! ## The address in From -/

theorem fromInTo_conf (cfg : Config) : ∀ {l : List (Option Str)} {a : Str}, fromInToHeaders cfg l = some a → Configured cfg a
  | [], a, h => by cases h
  | x :: l, a, h => by
    unfold fromInToHeaders at h
    split at h
    · rename_i e
      injection h with h
      subst h
      exact (addressMatch_some e).1
    · exact fromInTo_conf cfg h

theorem guessBy_conf (cfg : Config) : ∀ (n : Nat) (s : Str), s.length ≤ n → ∀ {a : Str}, guessBy cfg s = some a → Configured cfg a
  | n, s, hn, a, h => by
    unfold guessBy at h
    split at h
    · cases h
    · rename_i p hp
      have hlen := strstr_len hp
      split at h
      · cases h
      · rename_i hne
        have hpl : p.length ≠ 0 := by
          intro h0
          exact hne (by rw [List.drop_eq_nil_iff]; omega)
        split at h
        · cases h
        · split at h
          · rename_i b e
            injection h with h
            subst h
            cases ed : domainOf _ with
            | none => rw [ed] at e; cases e
            | some d =>
              rw [ed] at e
              have e : addressMatch (some d) cfg .stringInUserAddress = some _ := e
              exact (addressMatch_some e).1
          · match n, hn with
            | 0, hn => exact absurd hpl (by omega)
            | n + 1, hn => exact guessBy_conf cfg n (p.drop 4) (by rw [List.length_drop]; omega) h

theorem guessReceived_conf (cfg : Config) (r : Option Str) {a : Str} (h : guessReceived cfg r = some a) : Configured cfg a := by
  unfold guessReceived at h
  split at h
  · cases h
  · rename_i s
    split at h
    · rename_i b e
      injection h with h
      subst h
      unfold guessFor at e
      split at e
      · cases e
      · exact (addressMatch_some e).1
    · exact guessBy_conf cfg _ _ (Nat.le_refl _) h

theorem isPrefixOf_true : ∀ (p b : Str), p.isPrefixOf (p ++ b) = true
  | [], _ => rfl
  | x :: p, b => by
    rw [List.cons_append, List.isPrefixOf, isPrefixOf_true p b]
    simp

theorem strstr_found {p : Str} (hp : p ≠ []) : ∀ (a b : Str), ∃ x y, a = x ++ y ∧ strstr p (a ++ p ++ b) = some (y ++ p ++ b) ∨ ∃ c t, strstr p (a ++ p ++ b) = some t ∧ t = c ++ b ∧ t <:+ a ++ p ++ b
  | [], b => by
    refine ⟨[], [], Or.inl ⟨rfl, ?_⟩⟩
    cases p with
    | nil => exact absurd rfl hp
    | cons c p =>
      unfold strstr
      simp only [List.nil_append, List.cons_append]
      rw [if_pos]
      have := isPrefixOf_true (c :: p) b
      rwa [List.cons_append] at this
  | z :: a, b => by
    refine ⟨[], [], Or.inr ?_⟩
    simp only [List.cons_append]
    unfold strstr
    split
    · exact ⟨z :: a ++ p, _, rfl, by simp, List.suffix_refl _⟩
    · obtain ⟨x, y, ⟨rfl, h⟩ | ⟨c, t, h, h2, h3⟩⟩ := strstr_found hp a b
      · exact ⟨y ++ p, _, h, by simp, ⟨z :: x, by simp⟩⟩
      · exact ⟨c, t, h, h2, List.IsSuffix.trans h3 (List.suffix_cons _ _)⟩

theorem strstr_some {p : Str} (hp : p ≠ []) (a b : Str) : ∃ c, strstr p (a ++ p ++ b) = some (c ++ b) ∧ c ++ b <:+ a ++ p ++ b := by
  obtain ⟨x, y, ⟨rfl, h⟩ | ⟨c, t, h, rfl, h3⟩⟩ := strstr_found hp a b
  · exact ⟨y ++ p, h, ⟨x, by simp⟩⟩
  · exact ⟨c, h, h3⟩

theorem containsCase_mono {u s t : Str} (h : ContainsCase u s) {c d : Str} (e : t = c ++ s ++ d) : ContainsCase u t := by
  obtain ⟨a, b, e', rfl, h2⟩ := h
  exact ⟨c ++ a, b, e' ++ d, by rw [e]; simp, h2⟩

theorem fields_sep (x : UInt8) (hx : x = 46 ∨ x = 32 ∨ x = 9) : ∀ (a b : Str), fields (a ++ x :: b) = fields a ++ fields b
  | [], b => by
    show (if x = 46 ∨ x = 32 ∨ x = 9 then [] :: fields b else _) = [[]] ++ fields b
    rw [if_pos hx]
    rfl
  | c :: a, b => by
    rw [List.cons_append, fields, fields]
    rw [fields_sep x hx a b]
    split
    · rfl
    · cases e : fields a with
      | nil =>
        cases a with
        | nil => cases e
        | cons y a =>
          unfold fields at e
          split at e
          · cases e
          · split at e <;> cases e
      | cons f l => rfl

theorem fields_plain : ∀ (a : Str), (∀ c ∈ a, ¬ (c = 46 ∨ c = 32 ∨ c = 9)) → fields a = [a]
  | [], _ => rfl
  | c :: a, h => by
    rw [fields, if_neg (h c List.mem_cons_self), fields_plain a (fun d hd => h d (List.mem_cons_of_mem _ hd))]

end Notmuch.Reply
