import Verif.Spec.Words
import Verif.Props.TermList

/-! # Words: a mail is a list of texts with prefixes -/

namespace Notmuch.Words

open Notmuch.TermList (findPrefix userPrefix)
open Notmuch.Mime (Eff)

/-- One text is indexed. -/
def put (G : Gen) (m : Msg) (s : Str × Str) : Msg := ⟨(indexText G m.doc m.termpos s.2 s.1).1, (indexText G m.doc m.termpos s.2 s.1).2 + 100⟩

def genSegs (user : List (Str × Str)) (name text : Str) : List (Str × Str) :=
  match databasePrefix user name with
  | none => []
  | some p => [(p, text)]

theorem gen_segs (G : Gen) (user : List (Str × Str)) (m : Msg) (name text : Str) : (genTerms G user m (some name) (some text)).2 = (genSegs user name text).foldl (put G) m := by
  unfold genTerms genSegs
  dsimp only
  cases databasePrefix user name <;> rfl

mutual
def addrSegs (user : List (Str × Str)) (field : Str) : Addr → List (Str × Str)
  | .mailbox n a =>
    match combined n a with
    | none => []
    | some t => genSegs user field t
  | .group none => []
  | .group (some l) => addrsSegs user field l

def addrsSegs (user : List (Str × Str)) (field : Str) : List Addr → List (Str × Str)
  | [] => []
  | a :: l => addrSegs user field a ++ addrsSegs user field l
end

mutual
theorem addr_segs (G : Gen) (user : List (Str × Str)) (field : Str) (m : Msg) : ∀ a : Addr, indexAddr G user field m a = (addrSegs user field a).foldl (put G) m
  | .mailbox n a => by
    unfold indexAddr addrSegs
    cases combined n a with
    | none => rfl
    | some t => exact gen_segs G user m field t
  | .group none => by unfold indexAddr addrSegs; rfl
  | .group (some l) => by
    unfold indexAddr addrSegs
    exact addrs_segs G user field m l

theorem addrs_segs (G : Gen) (user : List (Str × Str)) (field : Str) (m : Msg) : ∀ l : List Addr, indexAddrs G user field m l = (addrsSegs user field l).foldl (put G) m
  | [] => by unfold indexAddrs addrsSegs; rfl
  | a :: l => by
    unfold indexAddrs addrsSegs
    rw [List.foldl_append, ← addr_segs G user field m a]
    exact addrs_segs G user field _ l
end

def userSegs (user all : List (Str × Str)) (mail : Mail) : List (Str × Str) :=
  match user with
  | [] => []
  | e :: l =>
    (match mail.header e.2 with
    | none => []
    | some h => genSegs all e.1 h) ++ userSegs l all mail

theorem user_segs (G : Gen) (all : List (Str × Str)) (mail : Mail) : ∀ (user : List (Str × Str)) (m : Msg),
    user.foldl (fun m e => match mail.header e.2 with | none => m | some h => (genTerms G all m (some e.1) (some h)).2) m = (userSegs user all mail).foldl (put G) m
  | [], _ => rfl
  | e :: l, m => by
    unfold userSegs
    rw [List.foldl_cons, List.foldl_append, user_segs G all mail l]
    cases mail.header e.2 with
    | none => rfl
    | some h => rw [← gen_segs]

def effSegs (user : List (Str × Str)) : Eff → List (Str × Str)
  | .mimetype s => genSegs user (bs "mimetype") s
  | .attachment s => genSegs user (bs "attachment") s
  | .body s => [([], s)]
  | .subject s => genSegs user (bs "subject") s
  | _ => []

theorem eff_segs (G : Gen) (user : List (Str × Str)) (m : Msg) (e : Eff) : indexEff G user m e = (effSegs user e).foldl (put G) m := by
  cases e <;> first | rfl | exact gen_segs ..

theorem effs_segs (G : Gen) (user : List (Str × Str)) : ∀ (l : List Eff) (m : Msg), l.foldl (indexEff G user) m = (l.flatMap (effSegs user)).foldl (put G) m
  | [], _ => rfl
  | e :: l, m => by
    rw [List.foldl_cons, List.flatMap_cons, List.foldl_append, effs_segs G user l, eff_segs]

def optSegs (f : List Addr → List (Str × Str)) : Option (List Addr) → List (Str × Str)
  | none => []
  | some l => f l

def subjectSegs (user : List (Str × Str)) : Option Str → List (Str × Str)
  | none => []
  | some t => genSegs user (bs "subject") t

/-- The texts of a mail. -/
def segs (user : List (Str × Str)) (mail : Mail) : List (Str × Str) :=
  optSegs (addrsSegs user (bs "from")) mail.sender ++ (optSegs (addrsSegs user (bs "to")) mail.recipients ++ (subjectSegs user mail.subject ++
    (userSegs user user mail ++ mail.parts.flatMap (effSegs user))))

theorem file_segs (G : Gen) (user : List (Str × Str)) (m : Msg) (mail : Mail) : indexFile G user m mail = (segs user mail).foldl (put G) m := by
  have h2 : ∀ (m : Msg) (o : Option Str), (genTerms G user m (some (bs "subject")) o).2 = (subjectSegs user o).foldl (put G) m := by
    intro m o
    cases o with
    | none => rfl
    | some l => exact gen_segs ..
  have h3 : ∀ m, indexUserHeaders G user mail m = (userSegs user user mail).foldl (put G) m := fun m => user_segs G user mail user m
  unfold indexFile segs
  simp only [List.foldl_append]
  rw [effs_segs, h3, h2]
  cases mail.sender <;> cases mail.recipients <;> simp only [optSegs, addrs_segs, List.foldl_nil]

theorem files_segs (G : Gen) (user : List (Str × Str)) : ∀ (mails : List Mail) (m : Msg), mails.foldl (indexFile G user) m = (mails.flatMap (segs user)).foldl (put G) m
  | [], _ => rfl
  | e :: l, m => by rw [List.foldl_cons, List.flatMap_cons, List.foldl_append, files_segs G user l, file_segs]

/-! ## Which texts -/

theorem mem_gen {user : List (Str × Str)} {name text p t : Str} : (p, t) ∈ genSegs user name text ↔ databasePrefix user name = some p ∧ t = text := by
  unfold genSegs
  cases databasePrefix user name with
  | none => simp
  | some q =>
    simp only [List.mem_singleton, Prod.mk.injEq, Option.some.injEq]
    constructor
    · rintro ⟨rfl, rfl⟩; exact ⟨rfl, rfl⟩
    · rintro ⟨rfl, rfl⟩; exact ⟨rfl, rfl⟩

theorem combined_iff {n a : Option Str} {t : Str} : combined n a = some t ↔ AddressText n a t := by
  constructor
  · intro h
    cases n with
    | none => cases a with
      | none => cases h
      | some a => injection h with h; subst h; exact .addr _
    | some n => cases a with
      | none => injection h with h; subst h; exact .name _
      | some a => injection h with h; subst h; exact .both _ _
  · intro h
    cases h <;> rfl

mutual
theorem mem_addr (user : List (Str × Str)) (f p t : Str) : ∀ a : Addr, (p, t) ∈ addrSegs user f a ↔ databasePrefix user f = some p ∧ ∃ n b, Within n b [a] ∧ AddressText n b t
  | .mailbox n b => by
    unfold addrSegs
    constructor
    · intro h
      cases hc : combined n b with
      | none => rw [hc] at h; cases h
      | some s =>
        rw [hc] at h
        obtain ⟨h1, rfl⟩ := mem_gen.1 h
        exact ⟨h1, n, b, .here, combined_iff.1 hc⟩
    · rintro ⟨h, n', b', hw, ht⟩
      cases hw with
      | here => rw [combined_iff.2 ht]; exact mem_gen.2 ⟨h, rfl⟩
      | there h => cases h
  | .group none => by
    unfold addrSegs
    constructor
    · intro h; cases h
    · rintro ⟨_, n, b, hw, _⟩
      cases hw with
      | there h => cases h
  | .group (some l) => by
    unfold addrSegs
    rw [mem_addrs user f p t l]
    constructor
    · rintro ⟨h, n, b, hw, ht⟩; exact ⟨h, n, b, .group hw, ht⟩
    · rintro ⟨h, n, b, hw, ht⟩
      cases hw with
      | group hw => exact ⟨h, n, b, hw, ht⟩
      | there h => cases h

theorem mem_addrs (user : List (Str × Str)) (f p t : Str) : ∀ l : List Addr, (p, t) ∈ addrsSegs user f l ↔ databasePrefix user f = some p ∧ ∃ n b, Within n b l ∧ AddressText n b t
  | [] => by
    unfold addrsSegs
    constructor
    · intro h; cases h
    · rintro ⟨_, n, b, hw, _⟩; cases hw
  | a :: l => by
    unfold addrsSegs
    rw [List.mem_append, mem_addr user f p t a, mem_addrs user f p t l]
    constructor
    · rintro (⟨h, n, b, hw, ht⟩ | ⟨h, n, b, hw, ht⟩)
      · refine ⟨h, n, b, ?_, ht⟩
        cases hw with
        | here => exact .here
        | group hw => exact .group hw
        | there h => cases h
      · exact ⟨h, n, b, .there hw, ht⟩
    · rintro ⟨h, n, b, hw, ht⟩
      cases hw with
      | here => exact .inl ⟨h, n, b, .here, ht⟩
      | group hw => exact .inl ⟨h, n, b, .group hw, ht⟩
      | there hw => exact .inr ⟨h, n, b, hw, ht⟩
end

theorem mem_user (all : List (Str × Str)) (mail : Mail) (p t : Str) : ∀ user : List (Str × Str), (p, t) ∈ userSegs user all mail ↔
    ∃ e ∈ user, mail.header e.2 = some t ∧ databasePrefix all e.1 = some p
  | [] => by simp [userSegs]
  | e :: l => by
    unfold userSegs
    rw [List.mem_append, mem_user all mail p t l]
    have hc : (∃ x ∈ e :: l, mail.header x.2 = some t ∧ databasePrefix all x.1 = some p) ↔ (mail.header e.2 = some t ∧ databasePrefix all e.1 = some p) ∨ ∃ x ∈ l, mail.header x.2 = some t ∧ databasePrefix all x.1 = some p := by simp
    rw [hc]
    refine or_congr ?_ Iff.rfl
    cases hh : mail.header e.2 with
    | none => simp
    | some h =>
      rw [mem_gen]
      constructor
      · rintro ⟨h1, rfl⟩; exact ⟨rfl, h1⟩
      · rintro ⟨h1, h2⟩; injection h1 with h1; exact ⟨h2, h1.symm⟩

theorem mem_opt {user : List (Str × Str)} {f p t : Str} {o : Option (List Addr)} : (p, t) ∈ optSegs (addrsSegs user f) o ↔
    databasePrefix user f = some p ∧ ∃ l n b, o = some l ∧ Within n b l ∧ AddressText n b t := by
  cases o with
  | none =>
    constructor
    · intro h; cases h
    · rintro ⟨_, l, n, b, h, _⟩; cases h
  | some l =>
    show (p, t) ∈ addrsSegs user f l ↔ _
    rw [mem_addrs]
    constructor
    · rintro ⟨h, n, b, hw, ht⟩; exact ⟨h, l, n, b, rfl, hw, ht⟩
    · rintro ⟨h, l', n, b, e, hw, ht⟩; injection e with e; subst e; exact ⟨h, n, b, hw, ht⟩

theorem body_prefix (user : List (Str × Str)) : databasePrefix user (bs "body") = some [] := by
  have : findPrefix (bs "body") = some (some []) := by decide +kernel
  unfold databasePrefix
  rw [this]

theorem mem_segs {user : List (Str × Str)} {mail : Mail} {p t : Str} : (p, t) ∈ segs user mail ↔ ∃ f, FieldText user mail f t ∧ databasePrefix user f = some p := by
  unfold segs
  rw [List.mem_append, List.mem_append, List.mem_append, List.mem_append, mem_opt, mem_opt, mem_user, List.mem_flatMap]
  constructor
  · rintro (⟨h, l, n, b, e, hw, ht⟩ | ⟨h, l, n, b, e, hw, ht⟩ | h | ⟨e, he, hh, hp⟩ | ⟨e, he, h⟩)
    · exact ⟨_, .sender e hw ht, h⟩
    · exact ⟨_, .recipient e hw ht, h⟩
    · cases hs : mail.subject with
      | none => rw [hs] at h; cases h
      | some s =>
        rw [hs] at h
        have h : (p, t) ∈ genSegs user (bs "subject") s := h
        obtain ⟨h', rfl⟩ := mem_gen.1 h
        exact ⟨_, .subject hs, h'⟩
    · exact ⟨e.1, .header he hh, hp⟩
    · cases e with
      | mimetype s => have h : (p, t) ∈ genSegs user (bs "mimetype") s := h; obtain ⟨h', rfl⟩ := mem_gen.1 h; exact ⟨_, .mimetype he, h'⟩
      | attachment s => have h : (p, t) ∈ genSegs user (bs "attachment") s := h; obtain ⟨h', rfl⟩ := mem_gen.1 h; exact ⟨_, .attachment he, h'⟩
      | subject s => have h : (p, t) ∈ genSegs user (bs "subject") s := h; obtain ⟨h', rfl⟩ := mem_gen.1 h; exact ⟨_, .hidden he, h'⟩
      | body s =>
        have h : (p, t) ∈ [(([] : Str), s)] := h
        rw [List.mem_singleton, Prod.mk.injEq] at h
        obtain ⟨rfl, rfl⟩ := h
        exact ⟨_, .body he, body_prefix user⟩
      | _ => cases h
  · rintro ⟨f, hf, hp⟩
    cases hf with
    | sender e hw ht => exact .inl ⟨hp, _, _, _, e, hw, ht⟩
    | recipient e hw ht => exact .inr (.inl ⟨hp, _, _, _, e, hw, ht⟩)
    | subject hs => refine .inr (.inr (.inl ?_)); rw [hs]; exact mem_gen.2 ⟨hp, rfl⟩
    | hidden h => exact .inr (.inr (.inr (.inr ⟨_, h, mem_gen.2 ⟨hp, rfl⟩⟩)))
    | mimetype h => exact .inr (.inr (.inr (.inr ⟨_, h, mem_gen.2 ⟨hp, rfl⟩⟩)))
    | attachment h => exact .inr (.inr (.inr (.inr ⟨_, h, mem_gen.2 ⟨hp, rfl⟩⟩)))
    | body h =>
      rw [body_prefix] at hp
      injection hp with hp
      subst hp
      exact .inr (.inr (.inr (.inr ⟨_, h, List.mem_singleton.2 rfl⟩)))
    | header he hh => exact .inr (.inr (.inr (.inl ⟨_, he, hh, hp⟩)))

/-! ## Fields are apart -/

theorem asks_prefix {user : List (Str × Str)} (hu : GoodNames user) {f p : Str} (h : Asks user f p) : databasePrefix user f = some p := by
  cases h with
  | table _ h => unfold databasePrefix; rw [h]
  | user he =>
    rename_i e
    show databasePrefix user e.1 = some (userPrefix e.1)
    unfold databasePrefix
    rw [(hu e he).1]
    dsimp only
    rw [if_pos]
    rw [List.any_eq_true]
    exact ⟨e, he, beq_self_eq_true _⟩

theorem text_asks {user : List (Str × Str)} {mail : Mail} {f t : Str} (h : FieldText user mail f t) : ∃ p, Asks user f p := by
  have key : ∀ f ∈ [bs "from", bs "to", bs "subject", bs "mimetype", bs "attachment", bs "body"], ∃ p, Asks user f p := by
    intro f hf
    have : ∀ f ∈ [bs "from", bs "to", bs "subject", bs "mimetype", bs "attachment", bs "body"], ∃ p, findPrefix f = some (some p) := by
      intro f hf
      have : ∀ f ∈ [bs "from", bs "to", bs "subject", bs "mimetype", bs "attachment", bs "body"], ((findPrefix f).bind id).isSome = true := by decide +kernel
      have := this f hf
      cases hq : findPrefix f with
      | none => rw [hq] at this; cases this
      | some q =>
        cases q with
        | none => rw [hq] at this; cases this
        | some p => exact ⟨p, rfl⟩
    obtain ⟨p, hp⟩ := this f hf
    exact ⟨p, .table hf hp⟩
  cases h with
  | sender => exact key _ (by simp)
  | recipient => exact key _ (by simp)
  | subject => exact key _ (by simp)
  | hidden => exact key _ (by simp)
  | mimetype => exact key _ (by simp)
  | attachment => exact key _ (by simp)
  | body => exact key _ (by simp)
  | header he _ => exact ⟨_, .user he⟩

theorem good_cap {w : Str} (h : GoodWord w) : ∃ c r, w = c :: r ∧ c ∉ bs "TXGKQP" := by
  obtain ⟨c, r, e, hc⟩ := h
  refine ⟨c, r, e, fun h => hc ?_⟩
  have : ∀ c ∈ bs "TXGKQP", c ∈ bs "TXGKQPZ" := by decide +kernel
  exact this c h

theorem user_head (n w : Str) : userPrefix n ++ w = 88 :: (85 :: (n ++ (58 :: w))) := by
  show (bs "XU" ++ n ++ bs ":") ++ w = _
  have h1 : bs "XU" = [88, 85] := by decide +kernel
  have h2 : bs ":" = [58] := by decide +kernel
  rw [h1, h2]
  simp

theorem apart {user : List (Str × Str)} (hu : GoodNames user) {f f' p p' w w' : Str} (h : Asks user f p) (h' : Asks user f' p') (hw : GoodWord w) (hw' : GoodWord w')
    (he : p ++ w = p' ++ w') : p = p' ∧ w = w' := by
  have nx : ∀ {n v r : Str} {c : UInt8}, c ∉ bs "TXGKQP" → userPrefix n ++ v ≠ c :: r := by
    intro n v r c hc e
    rw [user_head] at e
    injection e with e _
    subst e
    exact hc (by decide +kernel)
  cases h with
  | table hf hp =>
    cases h' with
    | table hf' hp' =>
      by_cases e1 : p = []
      · by_cases e2 : p' = []
        · subst e1; subst e2; exact ⟨rfl, he⟩
        · subst e1
          obtain ⟨c, r, rfl, hc⟩ := good_cap hw
          exact absurd he.symm (Props.C36_body hp' e2 hc)
      · by_cases e2 : p' = []
        · subst e2
          obtain ⟨c, r, rfl, hc⟩ := good_cap hw'
          exact absurd he (Props.C36_body hp e1 hc)
        · exact Props.C36_prefixes hp hp' e1 e2 he
    | user hu' =>
      by_cases e1 : p = []
      · subst e1
        obtain ⟨c, r, rfl, hc⟩ := good_cap hw
        exact absurd he.symm (nx hc)
      · exact absurd he (Props.C36_user_other hp e1)
  | user hue =>
    cases h' with
    | table hf' hp' =>
      by_cases e1 : p' = []
      · subst e1
        obtain ⟨c, r, rfl, hc⟩ := good_cap hw'
        exact absurd he (nx hc)
      · exact absurd he.symm (Props.C36_user_other hp' e1)
    | user hue' =>
      rename_i e e'
      obtain ⟨h1, h2⟩ := Props.C36_user_user (hu e hue).2 (hu e' hue').2 he
      exact ⟨by show userPrefix e.1 = userPrefix e'.1; rw [h1], h2⟩

theorem asks_same {user : List (Str × Str)} (hu : GoodNames user) {f f' p : Str} (h : Asks user f p) (h' : Asks user f' p) : f = f' := by
  cases h with
  | table hf hp =>
    generalize hq : p = q at *
    cases h' with
    | table hf' hp' =>
      rcases Props.C36_names hp hp' with e | ⟨e, _⟩ | ⟨e, _⟩ | ⟨e, _⟩ | ⟨e, _⟩
      · exact e
      all_goals (subst e; exact absurd hf (by decide +kernel))
    | user hu' =>
      rename_i e
      by_cases e1 : p = []
      · rw [e1] at hq
        have := user_head e.1 []
        rw [List.append_nil] at this
        have hq : [] = userPrefix e.1 := hq
        rw [← hq] at this
        cases this
      · exact absurd (by rw [hq]; rfl) (Props.C36_user_other (v := []) (w := []) (name := e.1) (hq ▸ hp) e1)
  | user hue =>
    rename_i e
    generalize hq : (queryField e).2 = q at *
    have hq : userPrefix e.1 = q := hq
    cases h' with
    | table hf' hp' =>
      by_cases e1 : q = []
      · have := user_head e.1 []
        rw [List.append_nil, hq, e1] at this
        cases this
      · exact absurd (by rw [hq]) (Props.C36_user_other (v := []) (w := []) (name := e.1) hp' e1)
    | user hue' =>
      rename_i e' _
      have hq : userPrefix e.1 = userPrefix e'.1 := hq
      exact (Props.C36_user_user (v1 := []) (v2 := []) (hu e hue).2 (hu e' hue').2 (by rw [List.append_nil, List.append_nil]; exact hq)).1

end Notmuch.Words
