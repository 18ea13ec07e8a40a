import Verif.Proofs.Reply
import Verif.Props.MessageId

/-! # C49: whom a reply goes to, from whom, and where it is threaded -/

namespace Notmuch.Props

open Notmuch.Reply
open Notmuch.Address (Addr Mbx)
open Notmuch.MessageIdSpec (PlainId Before Blank)

private theorem others_nil (cfg : Config) (h : Option (List Addr)) (t : RType) : others cfg h t = [] ↔ ∀ m ∈ mbxs h, Mine cfg m.2 := by
  unfold others
  simp [List.filter_eq_nil_iff]

private theorem firstMine_none {cfg : Config} {l : List Mbx} (h : firstMine cfg l = none) : ∀ m ∈ l, ¬ Mine cfg m.2 := by
  unfold firstMine at h
  intro m hm hc
  rw [Option.map_eq_none_iff, List.find?_eq_none] at h
  exact h m hm (by simpa using hc)

private theorem firstMine_some {cfg : Config} {l : List Mbx} {a : Str} (h : firstMine cfg l = some a) : Mine cfg a ∧ ∃ m ∈ l, m.2 = a := by
  unfold firstMine at h
  rw [Option.map_eq_some_iff] at h
  obtain ⟨m, hm, rfl⟩ := h
  exact ⟨by simpa using List.find?_some hm, m, List.mem_of_find?_eq_some hm, rfl⟩

private theorem map_mbxs (m : Msg) : allMbxs (replyToMap m) = mbxs (getSender m) ++ mbxs m.to ++ mbxs m.cc ++ mbxs m.bcc := by
  simp [allMbxs, replyToMap, List.flatMap_cons]

private theorem map_others (cfg : Config) (m : Msg) :
    (replyToMap m).flatMap (fun h => others cfg h.1 h.2) = others cfg (getSender m) .to ++ others cfg m.to .to ++ others cfg m.cc .cc ++ others cfg m.bcc .bcc := by
  simp [replyToMap, List.flatMap_cons]

/-- C49: a reply to all goes to everyone in Reply-To (or From), To, Cc and Bcc but the user, in order, each in the header they were in; if nobody is left it goes to
the first of the user's own addresses there; the user's address is the first of theirs in those headers. -/
theorem C49_reply_all (cfg : Config) (m : Msg) (sender : Option (List Addr)) (hs : IsSender m sender) :
    let all := others cfg sender .to ++ others cfg m.to .to ++ others cfg m.cc .cc ++ others cfg m.bcc .bcc
    let mine := firstMine cfg (mbxs sender ++ mbxs m.to ++ mbxs m.cc ++ mbxs m.bcc)
    addRecipients cfg m true = some (if all = [] then mine.toList.map (fun a => (RType.to, ((none : Option Str), a))) else all, mine) := by
  obtain rfl := sender_unique hs
  simp only
  unfold addRecipients
  rw [loop_all]
  simp only [map_mbxs, map_others, List.nil_append, Nat.zero_add, Option.none_or]
  generalize others cfg (getSender m) .to ++ others cfg m.to .to ++ others cfg m.cc .cc ++ others cfg m.bcc .bcc = all
  cases firstMine cfg (mbxs (getSender m) ++ mbxs m.to ++ mbxs m.cc ++ mbxs m.bcc) with
  | none =>
    simp only [Option.toList]
    split
    · rename_i h; rw [h]; rfl
    · rfl
  | some a =>
    simp only [Option.toList]
    by_cases h : all = []
    · subst h; simp
    · have : all.length ≠ 0 := fun hh => h (List.eq_nil_of_length_eq_zero hh)
      rw [if_neg this, if_neg h]

/-- C49: a reply to the sender goes to the others in the first of Reply-To (or From), To, Cc and Bcc that has any, and to the user if none does; nothing is ever
added to a message that is not there. -/
theorem C49_reply_sender (cfg : Config) (m : Msg) (sender : Option (List Addr)) (hs : IsSender m sender) :
    let first := firstNonempty [others cfg sender .to, others cfg m.to .to, others cfg m.cc .cc, others cfg m.bcc .bcc]
    let mine := firstMine cfg (mbxs sender ++ mbxs m.to ++ mbxs m.cc ++ mbxs m.bcc)
    addRecipients cfg m false = some (if first = [] then mine.toList.map (fun a => (RType.to, ((none : Option Str), a))) else first, mine) := by
  obtain rfl := sender_unique hs
  simp only
  unfold addRecipients
  rw [loop_sender]
  simp only [replyToMap, List.map_cons, List.map_nil, Option.none_or]
  rw [show allMbxs [(getSender m, RType.to), (m.to, .to), (m.cc, .cc), (m.bcc, .bcc)] = _ from map_mbxs m]
  generalize firstNonempty [others cfg (getSender m) .to, others cfg m.to .to, others cfg m.cc .cc, others cfg m.bcc .bcc] = first
  cases firstMine cfg (mbxs (getSender m) ++ mbxs m.to ++ mbxs m.cc ++ mbxs m.bcc) with
  | none =>
    simp only [Option.toList]
    split
    · rename_i h; rw [h]; rfl
    · rfl
  | some a =>
    simp only [Option.toList]
    by_cases h : first = []
    · subst h; simp
    · have : first.length ≠ 0 := fun hh => h (List.eq_nil_of_length_eq_zero hh)
      rw [if_neg this, if_neg h]

/-- C49: whom to answer is determined. -/
theorem C49_sender (m : Msg) : ∃ s, IsSender m s ∧ ∀ s', IsSender m s' → s' = s :=
  ⟨getSender m, getSender_spec m, fun _ h => sender_unique h⟩

private theorem firstNonempty_mem {l : List Recipients} {x : RType × Mbx} (h : x ∈ firstNonempty l) : ∃ a ∈ l, x ∈ a := by
  induction l with
  | nil => cases h
  | cons a l ih =>
    unfold firstNonempty at h
    split at h
    · obtain ⟨b, hb, hx⟩ := ih h
      exact ⟨b, List.mem_cons_of_mem _ hb, hx⟩
    · exact ⟨a, List.mem_cons_self, h⟩

private theorem firstNonempty_nil {l : List Recipients} (h : firstNonempty l = []) : ∀ a ∈ l, a = [] := by
  induction l with
  | nil => intro a ha; cases ha
  | cons b l ih =>
    unfold firstNonempty at h
    intro a ha
    by_cases hb : b = []
    · rw [if_pos hb] at h
      rcases List.mem_cons.1 ha with rfl | ha
      · exact hb
      · exact ih h a ha
    · rw [if_neg hb] at h
      exact absurd h hb

/-- C49: whatever the message and the addresses, the reply has a recipient if the message has any address at all, and the user is not among its recipients unless
everyone in the headers is the user. -/
theorem C49_not_self (cfg : Config) (m : Msg) (all : Bool) (sender : Option (List Addr)) (hs : IsSender m sender) :
    ∃ rs mine, addRecipients cfg m all = some (rs, mine) ∧
      (rs = [] ↔ mbxs sender ++ mbxs m.to ++ mbxs m.cc ++ mbxs m.bcc = []) ∧
      ((∃ x ∈ rs, Mine cfg x.2.2) → ∀ x ∈ mbxs sender ++ mbxs m.to ++ mbxs m.cc ++ mbxs m.bcc, Mine cfg x.2) ∧
      ∀ x ∈ rs, ∃ y ∈ mbxs sender ++ mbxs m.to ++ mbxs m.cc ++ mbxs m.bcc, y.2 = x.2.2 := by
  have oth : ∀ (h : Option (List Addr)) (t : RType) (x : RType × Mbx), x ∈ others cfg h t → ¬ Mine cfg x.2.2 ∧ x.2 ∈ mbxs h := by
    intro h t x hx
    unfold others at hx
    simp only [List.mem_map, List.mem_filter, decide_eq_true_eq] at hx
    obtain ⟨y, ⟨hy, hm⟩, rfl⟩ := hx
    exact ⟨hm, hy⟩
  -- a list of others that is empty only if all are the user's
  have key : ∀ (l : Recipients), (∀ x ∈ l, ¬ Mine cfg x.2.2 ∧ x.2 ∈ mbxs sender ++ mbxs m.to ++ mbxs m.cc ++ mbxs m.bcc) →
      (l = [] → ∀ x ∈ mbxs sender ++ mbxs m.to ++ mbxs m.cc ++ mbxs m.bcc, Mine cfg x.2) →
      let mine := firstMine cfg (mbxs sender ++ mbxs m.to ++ mbxs m.cc ++ mbxs m.bcc)
      let rs := if l = [] then mine.toList.map (fun a => (RType.to, ((none : Option Str), a))) else l
      (rs = [] ↔ mbxs sender ++ mbxs m.to ++ mbxs m.cc ++ mbxs m.bcc = []) ∧
      ((∃ x ∈ rs, Mine cfg x.2.2) → ∀ x ∈ mbxs sender ++ mbxs m.to ++ mbxs m.cc ++ mbxs m.bcc, Mine cfg x.2) ∧
      ∀ x ∈ rs, ∃ y ∈ mbxs sender ++ mbxs m.to ++ mbxs m.cc ++ mbxs m.bcc, y.2 = x.2.2 := by
    intro l hl hn
    simp only
    generalize mbxs sender ++ mbxs m.to ++ mbxs m.cc ++ mbxs m.bcc = bxs at *
    by_cases h : l = []
    · rw [if_pos h]
      cases e : firstMine cfg bxs with
      | none =>
        refine ⟨⟨fun _ => ?_, fun _ => rfl⟩, fun ⟨x, hx, _⟩ => (by cases hx), fun x hx => (by cases hx)⟩
        cases bxs with
        | nil => rfl
        | cons b bxs => exact absurd (hn h b List.mem_cons_self) (firstMine_none e b List.mem_cons_self)
      | some a =>
        obtain ⟨_, y, hy, hya⟩ := firstMine_some e
        refine ⟨⟨fun hh => by simp at hh, fun hh => ?_⟩, fun _ => hn h, fun x hx => ?_⟩
        · subst hh; cases hy
        · obtain rfl : x = (RType.to, (none, a)) := by simpa using hx
          exact ⟨y, hy, hya⟩
    · rw [if_neg h]
      refine ⟨⟨fun hh => absurd hh h, fun hh => ?_⟩, fun ⟨x, hx, hm⟩ => absurd hm (hl x hx).1, fun x hx => ⟨x.2, (hl x hx).2, rfl⟩⟩
      cases l with
      | nil => exact absurd rfl h
      | cons x l =>
        have := (hl x List.mem_cons_self).2
        rw [hh] at this
        cases this
  cases all with
  | true =>
    refine ⟨_, _, C49_reply_all cfg m sender hs, key _ ?_ ?_⟩
    · intro x hx
      simp only [List.mem_append] at hx ⊢
      rcases hx with ((hx | hx) | hx) | hx <;> have := oth _ _ _ hx <;> exact ⟨this.1, by simp [this.2]⟩
    · intro hn x hx
      simp only [List.append_eq_nil_iff, others_nil] at hn
      simp only [List.mem_append] at hx
      rcases hx with ((hx | hx) | hx) | hx
      · exact hn.1.1.1 x hx
      · exact hn.1.1.2 x hx
      · exact hn.1.2 x hx
      · exact hn.2 x hx
  | false =>
    refine ⟨_, _, C49_reply_sender cfg m sender hs, key _ ?_ ?_⟩
    · intro x hx
      obtain ⟨a, ha, hx⟩ := firstNonempty_mem hx
      simp only [List.mem_cons, List.not_mem_nil, or_false] at ha
      simp only [List.mem_append]
      rcases ha with rfl | rfl | rfl | rfl <;> have := oth _ _ _ hx <;> exact ⟨this.1, by simp [this.2]⟩
    · intro hn x hx
      have hn := firstNonempty_nil hn
      simp only [List.mem_cons, List.not_mem_nil, or_false, forall_eq_or_imp, forall_eq, others_nil] at hn
      simp only [List.mem_append] at hx
      rcases hx with ((hx | hx) | hx) | hx
      · exact hn.1 x hx
      · exact hn.2.1 x hx
      · exact hn.2.2.1 x hx
      · exact hn.2.2.2 x hx

private theorem mem_mailboxesL {l : List Addr} {name : Option Str} {addr : Str} (h : Addr.mailbox name addr ∈ l) : (name, addr) ∈ mailboxesL l := by
  induction l with
  | nil => cases h
  | cons a l ih =>
    unfold mailboxesL
    rcases List.mem_cons.1 h with rfl | h
    · simp [mailboxes]
    · exact List.mem_append_right _ (ih h)

/-- C49: a reply to all reaches every address of Reply-To, even when the header is disregarded because a mailing list put it there, unless it is the user's. -/
theorem C49_reply_to (cfg : Config) (m : Msg) (l : List Addr) (hl : m.replyTo = some l) (b : Mbx) (hb : b ∈ mailboxesL l) (hm : ¬ Mine cfg b.2) :
    ∃ rs mine, addRecipients cfg m true = some (rs, mine) ∧ ∃ x ∈ rs, x.2.2 = b.2 := by
  have inAll : ∀ (h : Option (List Addr)) (t : RType) (y : Mbx), y ∈ mbxs h → y.2 = b.2 → (t, y) ∈ others cfg h t := by
    intro h t y hy he
    unfold others
    simp only [List.mem_map, List.mem_filter, decide_eq_true_eq]
    exact ⟨y, ⟨hy, he ▸ hm⟩, rfl⟩
  refine ⟨_, _, C49_reply_all cfg m _ (getSender_spec m), ?_⟩
  have fin : ∀ (x : RType × Mbx), x ∈ others cfg (getSender m) .to ++ others cfg m.to .to ++ others cfg m.cc .cc ++ others cfg m.bcc .bcc → x.2.2 = b.2 →
      ∃ x ∈ (if others cfg (getSender m) .to ++ others cfg m.to .to ++ others cfg m.cc .cc ++ others cfg m.bcc .bcc = [] then
        (firstMine cfg (mbxs (getSender m) ++ mbxs m.to ++ mbxs m.cc ++ mbxs m.bcc)).toList.map (fun a => (RType.to, ((none : Option Str), a)))
        else others cfg (getSender m) .to ++ others cfg m.to .to ++ others cfg m.cc .cc ++ others cfg m.bcc .bcc), x.2.2 = b.2 := by
    intro x hx he
    rw [if_neg (fun h => by rw [h] at hx; cases hx)]
    exact ⟨x, hx, he⟩
  by_cases hmun : Munged m
  · obtain ⟨name, addr, he, name', hin⟩ := hmun
    rw [hl] at he
    injection he with he
    subst he
    obtain rfl : b = (name, addr) := by simpa [mailboxesL, mailboxes] using hb
    simp only [List.mem_append] at hin
    rcases hin with (hin | hin) | hin
    · exact fin (.to, (name', addr)) (by simp [inAll m.to .to (name', addr) (mem_mailboxesL hin) rfl]) rfl
    · exact fin (.cc, (name', addr)) (by simp [inAll m.cc .cc (name', addr) (mem_mailboxesL hin) rfl]) rfl
    · exact fin (.bcc, (name', addr)) (by simp [inAll m.bcc .bcc (name', addr) (mem_mailboxesL hin) rfl]) rfl
  · have hne : m.replyTo.getD [] ≠ [] := by
      rw [hl]
      rintro h
      simp only [Option.getD_some] at h
      subst h
      cases hb
    have hs := (getSender_spec m).1 ⟨hne, hmun⟩
    refine fin (.to, b) ?_ rfl
    simp only [List.mem_append]
    exact Or.inl (Or.inl (Or.inl (inAll _ _ b (by rw [hs, hl]; exact hb) rfl)))

/-- C49: the reply is made for every message, and it is from the user: from an address of the configuration, or one that differs from it only in case. -/
theorem C49_from (cfg : Config) (o : Original) (all : Bool) :
    ∃ r a, createReply cfg o all false = some r ∧ r.fromAddr = some a ∧ (Mine cfg a ∨ Configured cfg a) := by
  obtain ⟨rs, mine, h, _⟩ := C49_not_self cfg o.msg all _ (getSender_spec o.msg)
  have hmine : mine = firstMine cfg (mbxs (getSender o.msg) ++ mbxs o.msg.to ++ mbxs o.msg.cc ++ mbxs o.msg.bcc) := by
    cases all with
    | true => rw [C49_reply_all cfg o.msg _ (getSender_spec o.msg)] at h; injection h with h; exact (congrArg Prod.snd h).symm
    | false => rw [C49_reply_sender cfg o.msg _ (getSender_spec o.msg)] at h; injection h with h; exact (congrArg Prod.snd h).symm
  unfold createReply
  rw [h]
  simp only [Bool.false_eq_true, if_false]
  refine ⟨_, _, rfl, rfl, ?_⟩
  cases mine with
  | some a => exact Or.inl (firstMine_some hmine.symm).1
  | none =>
    simp only [Option.isNone_none, if_true]
    cases e : fromInToHeaders cfg [o.envelopeTo, o.originalTo, o.deliveredTo] with
    | some a => exact Or.inr (fromInTo_conf cfg e)
    | none =>
      simp only [Option.isNone_none, if_true]
      cases e2 : guessReceived cfg o.received with
      | some a => exact Or.inr (guessReceived_conf cfg _ e2)
      | none => exact Or.inr (Or.inl rfl)

/-- C49: in order: the first of the user's addresses in Reply-To (or From), To, Cc and Bcc; if there is none and one of Envelope-To, X-Original-To and Delivered-To
is there, a configured address that is in it; if none of these headers has any and nothing is in Received, the primary address. -/
theorem C49_from_choice (cfg : Config) (o : Original) (all : Bool) (sender : Option (List Addr)) (hs : IsSender o.msg sender) (r : ReplyMsg)
    (h : createReply cfg o all false = some r) :
    (∀ a, firstMine cfg (mbxs sender ++ mbxs o.msg.to ++ mbxs o.msg.cc ++ mbxs o.msg.bcc) = some a → r.fromAddr = some a) ∧
    (firstMine cfg (mbxs sender ++ mbxs o.msg.to ++ mbxs o.msg.cc ++ mbxs o.msg.bcc) = none →
      (∀ pre t post, [o.envelopeTo, o.originalTo, o.deliveredTo] = pre ++ some t :: post →
        (∀ p ∈ pre, ∀ s, p = some s → ∀ u, Configured cfg u → ¬ ContainsCase u s) → t ≠ [] → (∃ u, Configured cfg u ∧ ContainsCase u t) →
        ∃ u, Configured cfg u ∧ ContainsCase u t ∧ r.fromAddr = some u) ∧
      ((∀ p ∈ [o.envelopeTo, o.originalTo, o.deliveredTo], ∀ s, p = some s → s ≠ [] → ∀ u, Configured cfg u → ¬ ContainsCase u s) →
        o.received = none → r.fromAddr = some cfg.primary)) := by
  have hrec : ∃ rs, addRecipients cfg o.msg all = some (rs, firstMine cfg (mbxs sender ++ mbxs o.msg.to ++ mbxs o.msg.cc ++ mbxs o.msg.bcc)) := by
    cases all with
    | true => exact ⟨_, C49_reply_all cfg o.msg sender hs⟩
    | false => exact ⟨_, C49_reply_sender cfg o.msg sender hs⟩
  obtain ⟨rs, hrec⟩ := hrec
  unfold createReply at h
  rw [hrec] at h
  simp only [Bool.false_eq_true, if_false] at h
  injection h with h
  subst h
  simp only
  have none_of : ∀ (s : Option Str), (∀ t, s = some t → t ≠ [] → ∀ u, Configured cfg u → ¬ ContainsCase u t) → addressMatch s cfg .userAddressInString = none := by
    intro s hno
    cases e : addressMatch s cfg .userAddressInString with
    | none => rfl
    | some a =>
      obtain ⟨hc, t, rfl, hne, hm⟩ := addressMatch_some e
      exact absurd ((caseContains_iff _ _).1 hm) (hno t rfl hne a hc)
  constructor
  · intro a ha
    rw [ha]
    simp
  · intro hn
    rw [hn]
    simp only [Option.isNone_none, if_true]
    constructor
    · intro pre t post heq hpre hne hex
      have step : ∀ (pre : List (Option Str)), (∀ p ∈ pre, ∀ s, p = some s → ∀ u, Configured cfg u → ¬ ContainsCase u s) →
          ∃ u, Configured cfg u ∧ ContainsCase u t ∧ fromInToHeaders cfg (pre ++ some t :: post) = some u := by
        intro pre
        induction pre with
        | nil =>
          intro _
          rw [List.nil_append]
          unfold fromInToHeaders
          cases e : addressMatch (some t) cfg .userAddressInString with
          | none =>
            obtain ⟨u, hu, hc⟩ := hex
            have := addressMatch_none hne e u hu
            unfold matchAddress at this
            rw [(caseContains_iff _ _).2 hc] at this
            cases this
          | some a =>
            obtain ⟨hc, t', ht', _, hm⟩ := addressMatch_some e
            injection ht' with ht'
            subst ht'
            exact ⟨a, hc, (caseContains_iff _ _).1 hm, rfl⟩
        | cons p pre ih =>
          intro hpre
          rw [List.cons_append]
          unfold fromInToHeaders
          rw [none_of p (fun s hs _ => hpre p List.mem_cons_self s hs)]
          exact ih (fun q hq => hpre q (List.mem_cons_of_mem _ hq))
      obtain ⟨u, hu, hc, he⟩ := step pre hpre
      rw [← heq] at he
      rw [he]
      exact ⟨u, hu, hc, rfl⟩
    · intro hno hr
      have : fromInToHeaders cfg [o.envelopeTo, o.originalTo, o.deliveredTo] = none := by
        simp only [fromInToHeaders]
        rw [none_of _ (hno _ (by simp)), none_of _ (hno _ (by simp)), none_of _ (hno _ (by simp))]
      rw [this, hr]
      simp [guessReceived]

/-- C49: otherwise, if " for " in the Received headers is followed by a configured address, the reply is from a configured address that is there. -/
theorem C49_from_received (cfg : Config) (o : Original) (all : Bool) (sender : Option (List Addr)) (hs : IsSender o.msg sender) (r : ReplyMsg)
    (h : createReply cfg o all false = some r)
    (h1 : firstMine cfg (mbxs sender ++ mbxs o.msg.to ++ mbxs o.msg.cc ++ mbxs o.msg.bcc) = none)
    (h2 : o.envelopeTo = none ∧ o.originalTo = none ∧ o.deliveredTo = none) (rec : Str) (hrec : o.received = some rec)
    (a b : Str) (hab : Notmuch.StringUtil.sanitize rec = a ++ bs " for " ++ b) (hb : b ≠ []) (hu : ∃ u, Configured cfg u ∧ ContainsCase u b) :
    ∃ u, Configured cfg u ∧ ContainsCase u (Notmuch.StringUtil.sanitize rec) ∧ r.fromAddr = some u := by
  obtain ⟨rs, hadd⟩ : ∃ rs, addRecipients cfg o.msg all = some (rs, none) := by
    rw [← h1]
    cases all with
    | true => exact ⟨_, C49_reply_all cfg o.msg sender hs⟩
    | false => exact ⟨_, C49_reply_sender cfg o.msg sender hs⟩
  unfold createReply at h
  rw [hadd] at h
  simp only [Bool.false_eq_true, if_false] at h
  injection h with h
  subst h
  simp only [Option.isNone_none, if_true, h2.1, h2.2.1, h2.2.2, hrec, fromInToHeaders, addressMatch]
  obtain ⟨c, hc, hsuf⟩ := strstr_some (p := bs " for ") (by decide +kernel) a b
  rw [← hab] at hc hsuf
  obtain ⟨v, hv, hvc⟩ : ∃ v, guessFor cfg (Notmuch.StringUtil.sanitize rec) = some v ∧ Configured cfg v ∧ ContainsCase v (Notmuch.StringUtil.sanitize rec) := by
    unfold guessFor
    rw [hc]
    simp only
    cases e : addressMatch (some (c ++ b)) cfg .userAddressInString with
    | none =>
      obtain ⟨u, hu, hub⟩ := hu
      have := addressMatch_none (by simp [hb]) e u hu
      unfold matchAddress at this
      rw [(caseContains_iff _ _).2 (containsCase_mono hub (c := c) (d := []) (by simp))] at this
      cases this
    | some v =>
      obtain ⟨hcv, t, ht, _, hm⟩ := addressMatch_some e
      injection ht with ht
      subst ht
      obtain ⟨pre, hpre⟩ := hsuf
      exact ⟨v, rfl, hcv, containsCase_mono ((caseContains_iff _ _).1 hm) (c := pre) (d := []) (by rw [← hpre]; simp)⟩
  refine ⟨v, hvc.1, hvc.2, ?_⟩
  unfold guessReceived
  simp [hv]

/-- C49: the domain of a host is its last two words, whatever is before them. -/
theorem C49_domain (pre d tld : Str) (hd : d ≠ [] ∧ ∀ c ∈ d, ¬ (c = 46 ∨ c = 32 ∨ c = 9)) (ht : tld ≠ [] ∧ ∀ c ∈ tld, ¬ (c = 46 ∨ c = 32 ∨ c = 9)) :
    domainOf (pre ++ bs "." ++ d ++ bs "." ++ tld) = some (d ++ bs "." ++ tld) ∧ domainOf (d ++ bs "." ++ tld) = some (d ++ bs "." ++ tld) := by
  have e : bs "." = [46] := by decide +kernel
  rw [e]
  constructor
  · unfold domainOf
    rw [show pre ++ [46] ++ d ++ [46] ++ tld = (pre ++ 46 :: d) ++ 46 :: tld from by simp, fields_sep 46 (Or.inl rfl), fields_sep 46 (Or.inl rfl), fields_plain d hd.2,
      fields_plain tld ht.2, List.foldl_append, List.foldl_append]
    simp only [List.foldl_cons, List.foldl_nil]
    unfold domStep
    simp [hd.1, ht.1, e]
  · unfold domainOf
    rw [show d ++ [46] ++ tld = d ++ 46 :: tld from by simp, fields_sep 46 (Or.inl rfl), fields_plain d hd.2, fields_plain tld ht.2]
    simp [domStep, hd.1, ht.1, e]

/-- C49: the subject of the reply starts with "Re:", in whatever case, and keeps the original; another one is not put before it. -/
theorem C49_subject (cfg : Config) (o : Original) (all : Bool) (s : Str) (hs : o.subject = some s) (r : ReplyMsg) (h : createReply cfg o all false = some r) :
    ∃ t, r.subject = some t ∧ (t.take 3).map toLower = bs "re:" ∧ s <:+ t ∧ ((s.take 3).map toLower = bs "re:" → t = s) ∧
      ((s.take 3).map toLower ≠ bs "re:" → t = bs "Re: " ++ s) := by
  unfold createReply at h
  cases hadd : addRecipients cfg o.msg all with
  | none => rw [hadd] at h; cases h
  | some p =>
    rw [hadd] at h
    simp only [Bool.false_eq_true, if_false] at h
    injection h with h
    subst h
    simp only [hs, Option.map_some]
    refine ⟨_, rfl, ?_⟩
    by_cases hr : (s.take 3).map toLower = bs "re:"
    · have : hasRe s = true := by unfold hasRe; rw [hr]; exact beq_self_eq_true _
      rw [if_pos this]
      exact ⟨hr, List.suffix_refl _, fun _ => rfl, fun hh => absurd hr hh⟩
    · have : ¬ hasRe s = true := by unfold hasRe; simpa using hr
      rw [if_neg this]
      refine ⟨?_, List.suffix_append _ _, fun hh => absurd hh hr, fun _ => rfl⟩
      rw [show bs "Re: " = [82, 101, 58, 32] from by decide +kernel]
      show [toLower 82, toLower 101, toLower 58] = bs "re:"
      decide +kernel

private theorem blank_append {a b : Str} (ha : Blank a) (hb : Blank b) : Blank (a ++ b) := by
  induction ha with
  | nil => exact hb
  | space h _ ih => exact .space h ih
  | comment h _ ih =>
    rename_i s t _
    have : (40 :: s ++ 41 :: t) ++ b = 40 :: s ++ 41 :: (t ++ b) := by simp
    rw [this]
    exact .comment h ih

private theorem before_space {t : Str} (h : Before t) : Before (t ++ [32]) := by
  obtain ⟨b, other, rfl, hb, ho, hh⟩ := h
  cases other with
  | nil =>
    refine ⟨b ++ [32], [], by simp, blank_append hb (.space (by decide) .nil), by simp, by simp⟩
  | cons c other =>
    refine ⟨b, c :: other ++ [32], by simp, hb, ?_, ?_⟩
    · intro x hx
      rcases List.mem_append.1 hx with hx | hx
      · exact ho x hx
      · obtain rfl : x = 32 := by simpa using hx
        decide
    · intro x hx
      exact hh x (by simpa using hx)

private theorem plain_nul {i : Str} (h : PlainId i) : 0 ∉ bs "<" ++ i ++ bs ">" := by
  intro hc
  simp only [List.mem_append] at hc
  rcases hc with (hc | hc) | hc
  · revert hc; decide +kernel
  · exact (h.2.1 0 hc).1 rfl
  · revert hc; decide +kernel

private theorem plain_strict {i : Str} (h : PlainId i) : Notmuch.MessageId.parseStrict (some (bs "<" ++ i ++ bs ">")) = some i := by
  rw [C26_strict _ _ (plain_nul h)]
  refine ⟨[], [], ?_, by simp, by simp, fun c hc => ⟨(h.2.1 c hc).2.1, (h.2.1 c hc).2.2⟩⟩
  rw [show bs "<" = [60] from by decide +kernel, show bs ">" = [62] from by decide +kernel]
  simp

/-- C49: when the reply comes back, it is threaded below the message it answers: whatever the references of the original are, its parent is the original and
the original is among its references. -/
theorem C49_threading (cfg : Config) (o : Original) (all limited : Bool) (hp : PlainId o.messageId) (h0 : ∀ t, o.references = some t → 0 ∉ t)
    (newId : Str) (hnew : newId ≠ o.messageId) :
    ∃ r hs, createReply cfg o all limited = some r ∧
      Notmuch.MessageId.parents newId (some r.references) (some r.inReplyTo) = some (hs, some o.messageId) ∧ o.messageId ∈ hs := by
  obtain ⟨rs, mine, h, _⟩ := C49_not_self cfg o.msg all _ (getSender_spec o.msg)
  have hr : ∃ r, createReply cfg o all limited = some r ∧ r.inReplyTo = bs "<" ++ o.messageId ++ bs ">" ∧ 0 ∉ r.references := by
    have h00 : 0 ∉ (match o.references with
        | some r => if r = [] then bs "<" ++ o.messageId ++ bs ">" else r ++ bs " " ++ (bs "<" ++ o.messageId ++ bs ">")
        | none => bs "<" ++ o.messageId ++ bs ">") := by
      cases e : o.references with
      | none => exact plain_nul hp
      | some t =>
        simp only
        split
        · exact plain_nul hp
        · intro hc
          rcases List.mem_append.1 hc with hc | hc
          · rcases List.mem_append.1 hc with hc | hc
            · exact h0 t e hc
            · revert hc; decide +kernel
          · exact plain_nul hp hc
    unfold createReply
    rw [h]
    simp only
    cases limited with
    | true => exact ⟨_, rfl, rfl, h00⟩
    | false => exact ⟨_, rfl, rfl, h00⟩
  obtain ⟨r, hr, hi, hn⟩ := hr
  obtain ⟨hs, parent, hpar, _, _⟩ := C26_parents_total newId (some r.references) (some r.inReplyTo) (fun t ht => by injection ht with ht; rw [← ht]; exact hn)
    (fun t ht => by injection ht with ht; rw [← ht, hi]; exact plain_nul hp)
  have hst : Notmuch.MessageId.parseStrict (some r.inReplyTo) = some o.messageId := by rw [hi]; exact plain_strict hp
  obtain rfl := (C26_parent newId _ _ hs parent hpar).1 _ hst
  refine ⟨r, hs, hr, hpar, ?_⟩
  -- the original is in the table
  have hone : ∀ l, Notmuch.MessageId.parseReferences newId (some r.inReplyTo) l = some (l ++ [o.messageId], some o.messageId) := by
    intro l
    rw [hi]
    have e : bs "<" ++ o.messageId ++ bs ">" = [] ++ [60] ++ [] ++ o.messageId ++ [62] ++ [] := by
      rw [show bs "<" = [60] from by decide +kernel, show bs ">" = [62] from by decide +kernel]
      simp
    have hpe := C26_parse_exact [] [] o.messageId [] ⟨[], [], rfl, .nil, by simp, by simp⟩ .nil hp (by simp)
    rw [← e] at hpe
    have hd : Notmuch.MessageId.deref (bs "<" ++ o.messageId ++ bs ">") = 60 := by
      rw [show bs "<" = [60] from by decide +kernel]; rfl
    unfold Notmuch.MessageId.parseReferences
    simp only
    rw [hd, if_neg (by decide)]
    have hlen : (bs "<" ++ o.messageId ++ bs ">").length = (o.messageId.length + 1) + 1 := by
      rw [show bs "<" = [60] from by decide +kernel, show bs ">" = [62] from by decide +kernel]
      simp
    rw [hlen]
    unfold Notmuch.MessageId.referencesLoop
    rw [hd, if_pos (by decide), hpe]
    simp only [Option.getD_some]
    rw [if_pos (fun hh => hnew hh.symm)]
    unfold Notmuch.MessageId.referencesLoop
    rw [if_neg (by decide)]
  unfold Notmuch.MessageId.parents at hpar
  cases e1 : Notmuch.MessageId.parseReferences newId (some r.references) [] with
  | none => rw [e1] at hpar; simp at hpar
  | some p =>
    obtain ⟨r1, l1⟩ := p
    rw [e1] at hpar
    simp only at hpar
    rw [hone] at hpar
    simp only [Option.some.injEq, Prod.mk.injEq] at hpar
    rw [← hpar.1]
    simp

/-- C49: if the references of the original are a list of ids, those of the reply are that list with the original at its end. -/
theorem C49_references (cfg : Config) (o : Original) (all limited : Bool) (hp : PlainId o.messageId) (ids : List (Str × Str)) (tail : Str)
    (hids : ∀ p ∈ ids, Before p.1 ∧ PlainId p.2) (htail : Before tail)
    (href : o.references = some (ids.flatMap (fun p : Str × Str => p.1 ++ [60] ++ p.2 ++ [62]) ++ tail)) (newId : Str) (hnew : newId ∉ ids.map (·.2)) (hne : newId ≠ o.messageId) :
    ∃ r, createReply cfg o all limited = some r ∧
      Notmuch.MessageId.parseReferences newId (some r.references) [] = some (ids.map (·.2) ++ [o.messageId], some o.messageId) := by
  obtain ⟨rs, mine, h, _⟩ := C49_not_self cfg o.msg all _ (getSender_spec o.msg)
  have hb0 : Before [] := ⟨[], [], rfl, .nil, by simp, by simp⟩
  have key : ∃ ids' : List (Str × Str), (∀ p ∈ ids', Before p.1 ∧ PlainId p.2) ∧ ids'.map (·.2) = ids.map (·.2) ++ [o.messageId] ∧
      (match o.references with
        | some r => if r = [] then bs "<" ++ o.messageId ++ bs ">" else r ++ bs " " ++ (bs "<" ++ o.messageId ++ bs ">")
        | none => bs "<" ++ o.messageId ++ bs ">") = ids'.flatMap (fun p : Str × Str => p.1 ++ [60] ++ p.2 ++ [62]) ++ [] := by
    rw [href]
    simp only
    have e1 : bs "<" = [60] := by decide +kernel
    have e2 : bs ">" = [62] := by decide +kernel
    have e3 : bs " " = [32] := by decide +kernel
    rw [e1, e2, e3]
    split
    · rename_i hnil
      simp only [List.append_eq_nil_iff, List.flatMap_eq_nil_iff] at hnil
      have : ids = [] := by
        cases ids with
        | nil => rfl
        | cons p ids => have := hnil.1 p List.mem_cons_self; simp at this
      subst this
      exact ⟨[([], o.messageId)], by intro p hpm; obtain rfl : p = ([], o.messageId) := by simpa using hpm
                                     exact ⟨hb0, hp⟩, rfl, by simp⟩
    · refine ⟨ids ++ [(tail ++ [32], o.messageId)], ?_, by simp, by simp⟩
      intro p hpm
      rcases List.mem_append.1 hpm with hpm | hpm
      · exact hids p hpm
      · obtain rfl : p = (tail ++ [32], o.messageId) := by simpa using hpm
        exact ⟨before_space htail, hp⟩
  obtain ⟨ids', h1, h2, h3⟩ := key
  obtain ⟨refs, hrefs, hparse⟩ := C26_references newId ids' [] h1 hb0
  rw [← h3] at hrefs
  have hfil : (ids'.map (·.2)).filter (· ≠ newId) = ids'.map (·.2) := by
    rw [List.filter_eq_self]
    intro a ha
    rw [h2] at ha
    simp only [decide_eq_true_eq]
    rintro rfl
    rcases List.mem_append.1 ha with ha | ha
    · exact hnew ha
    · exact hne (by simpa using ha)
  rw [hfil, h2, hrefs] at hparse
  unfold createReply
  rw [h]
  simp only
  cases limited with
  | true => exact ⟨_, rfl, hparse.trans (by simp)⟩
  | false => exact ⟨_, rfl, hparse.trans (by simp)⟩

/-- The host that got the mail is looked for in the addresses as text; with two dots in its name only the word before them is, and any address with that
word in it is taken for the user's address at that host. -/
theorem C49_counterexample_domain :
    domainOf (bs "mail.example.org") = some (bs "example.org") ∧ domainOf (bs "mail.example..org") = some (bs "example") ∧
    addressMatch (domainOf (bs "mail.example..org")) ⟨bs "u@x.com", [bs "example-list@other.net"]⟩ .stringInUserAddress = some (bs "example-list@other.net") := by
  refine ⟨?_, ?_, ?_⟩ <;> decide +kernel

/-- A reply to all to a message from a list that set Reply-To to itself. -/
example :
    let cfg : Config := ⟨bs "me@x.org", [bs "me@y.org"]⟩
    let m : Msg := ⟨some [.mailbox none (bs "bob@a.org")], some [.mailbox none (bs "list@l.org")], some [.mailbox none (bs "list@l.org"), .mailbox none (bs "ME@y.org")],
      some [.group (some [.mailbox none (bs "eve@b.org")])], none⟩
    Munged m ∧ addRecipients cfg m true =
      some ([(.to, (none, bs "bob@a.org")), (.to, (none, bs "list@l.org")), (.cc, (none, bs "eve@b.org"))], some (bs "ME@y.org")) ∧
    addRecipients cfg m false = some ([(.to, (none, bs "bob@a.org"))], some (bs "ME@y.org")) := by
  exact ⟨⟨none, _, rfl, none, by simp⟩, rfl, rfl⟩

example : PlainId (bs "a@b.org") := by unfold PlainId; decide +kernel

end Notmuch.Props
