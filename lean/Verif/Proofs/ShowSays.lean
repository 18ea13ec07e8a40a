import Verif.Proofs.ShowSchema

/-! # notmuch show: what the values say (C55) -/

namespace Notmuch.Show

open Notmuch.Sprinter

/-! ## Messages fit the schema -/

theorem crypto_ok {version : Int} (hv : 4 ≤ version) (h : Headers) (c : Crypto) : IsCrypto (cryptoVal version h c) := by
  unfold cryptoVal IsCrypto
  refine isObj_of ([bs "signed"] ++ [bs "decrypted"]) ((Keys.opt _ _).app (Keys.opt _ _)) (by decide +kernel) (by simp)
    ((Fits.opt (IsObj [(bs "status", IsSigStatus)] [(bs "encrypted", IsBool), (bs "headers", IsList IsStr)] Never) (by simp) ?_).app
      (Fits.opt (IsObj [(bs "status", fun v => v = .str (bs "full") ∨ v = .str (bs "partial"))] [(bs "header-mask", IsObj [] [] (fun v => IsStr v ∨ v = .null))] Never) (by simp) ?_))
  · intro v hx
    cases hs : c.sigs with
    | none => rw [hs] at hx; simp at hx
    | some l =>
      rw [hs] at hx
      simp at hx
      subst hx
      unfold signedVal
      refine isObj_of ([bs "status"] ++ [bs "encrypted"] ++ [bs "headers"]) (((Keys.one _ _).app (Keys.opt _ _)).app (Keys.opt _ _)) (by decide +kernel) ?_
        (((Fits.one IsSigStatus (by simp) (sigStatus_ok hv _)).app (Fits.opt IsBool (by simp) ?_)).app (Fits.opt (IsList IsStr) (by simp) ?_))
      · simp only [List.mem_singleton]
        rintro f rfl
        exact ((Has.one _ _).left _).left _
      · intro v h
        split at h
        · simp at h; exact ⟨_, h.symm⟩
        · simp at h
      · intro v h
        split at h
        · simp at h
          subst h
          exact ⟨_, rfl, by intro x hx; rw [List.mem_singleton] at hx; subst hx; exact ⟨_, rfl⟩⟩
        · simp at h
  · intro v hx
    split at hx
    · simp at hx
    · simp at hx
      subst hx
      unfold decryptedVal
      refine isObj_of ([bs "status"] ++ [bs "header-mask"]) ((Keys.one _ _).app (Keys.opt _ _)) (by decide +kernel) ?_
        ((Fits.one (fun v => v = .str (bs "full") ∨ v = .str (bs "partial")) (by simp) ?_).app (Fits.opt (IsObj [] [] (fun v => IsStr v ∨ v = .null)) (by simp) ?_))
      · simp only [List.mem_singleton]
        rintro f rfl
        exact (Has.one _ _).left _
      · split
        · exact Or.inl rfl
        · exact Or.inr rfl
      · intro v h
        split at h
        · simp at h
          subst h
          refine ⟨_, rfl, by simp [one], by simp, ?_⟩
          intro x hx
          right
          refine ⟨by simp, ?_⟩
          rw [one, List.mem_singleton] at hx
          subst hx
          cases h.subject
          · exact Or.inr rfl
          · exact Or.inl ⟨_, rfl⟩
        · simp at h

def messageKeys : List Str :=
  [bs "id"] ++ [bs "match"] ++ [bs "excluded"] ++ [bs "filename"] ++ [bs "timestamp"] ++ [bs "date_relative"] ++ [bs "tags"] ++ [bs "duplicate"] ++ [bs "body"] ++ [bs "crypto"] ++ [bs "headers"]

theorem metaV_keys (version : Int) (m : Msg) :
    Keys (metaV version m) ([bs "id"] ++ [bs "match"] ++ [bs "excluded"] ++ [bs "filename"] ++ [bs "timestamp"] ++ [bs "date_relative"] ++ [bs "tags"]) :=
  ((((((Keys.one _ _).app (Keys.one _ _)).app (Keys.one _ _)).app (Keys.one _ _)).app (Keys.one _ _)).app (Keys.one _ _)).app (Keys.one _ _)

theorem list_str {α : Type} (f : α → Str) (l : List α) : IsList IsStr (.list (l.map (fun x => str (f x)))) := by
  refine ⟨_, rfl, ?_⟩
  intro x hx
  obtain ⟨a, _, rfl⟩ := List.mem_map.1 hx
  exact text_isStr _

theorem message_ok {o : Opts} (hv : 4 ≤ o.version) (m : Msg) {r : Root} (hg : r.Good (NamesOk o.extra)) : IsMessage (messageVal o m r) := by
  unfold messageVal IsMessage
  have hc : cryptoV o.version r.headers r.crypto = one (bs "crypto") (cryptoVal o.version r.headers r.crypto) := by unfold cryptoV; rw [if_pos hv]
  have hf : (if o.version ≥ 3 then Val.list (m.files.map (fun f => str f.name)) else text (m.files.head?.map (·.name))) = .list (m.files.map (fun f => str f.name)) := by rw [if_pos (by omega)]
  rw [hc]
  refine isObj_of messageKeys (((((metaV_keys o.version m).app (Keys.one _ _)).app (Keys.opt _ _)).app (Keys.one _ _)).app (Keys.one _ _)) (by decide +kernel) ?_ ?_
  · intro f hf
    simp only [List.mem_cons, List.not_mem_nil, or_false] at hf
    have hm : ∀ k, Has (metaV o.version m) k → Has (metaV o.version m ++ one (bs "duplicate") (.int (if o.duplicate > 0 then o.duplicate else 1)) ++
        optV (bs "body") (if o.body then some (.list [partVal o r.body 1]) else none) ++ one (bs "crypto") (cryptoVal o.version r.headers r.crypto) ++
        one (bs "headers") (.obj (headersV o.extra r.headers false r.crypto.subject))) k := fun k h => (((h.left _).left _).left _).left _
    rcases hf with rfl | rfl | rfl | rfl | rfl | rfl | rfl | rfl | rfl | rfl
    · exact hm _ (((((((Has.one _ _).left _).left _).left _).left _).left _).left _)
    · exact hm _ (((((((Has.one _ _).right _).left _).left _).left _).left _).left _)
    · exact hm _ ((((((Has.one _ _).right _).left _).left _).left _).left _)
    · exact hm _ (((((Has.one _ _).right _).left _).left _).left _)
    · exact hm _ ((((Has.one _ _).right _).left _).left _)
    · exact hm _ (((Has.one _ _).right _).left _)
    · exact hm _ ((Has.one _ _).right _)
    · exact (Has.one _ _).right _
    · exact ((Has.one _ _).right _).left _
    · exact ((((Has.one _ _).right _).left _).left _).left _
  · refine ((((?_ : Fits _ (metaV o.version m)).app (Fits.one IsInt (by simp) ⟨_, rfl⟩)).app (Fits.opt (IsList IsPart) (by simp) ?_)).app (Fits.one IsCrypto (by simp) (crypto_ok hv _ _))).app
      (Fits.one IsHeaders (by simp) (headers_ok hg.1 _))
    · unfold metaV
      rw [hf]
      exact ((((((Fits.one IsStr (by simp) (text_isStr _)).app (Fits.one IsBool (by simp) ⟨_, rfl⟩)).app (Fits.one IsBool (by simp) ⟨_, rfl⟩)).app (Fits.one (IsList IsStr) (by simp) (list_str _ _))).app
        (Fits.one IsInt (by simp) ⟨_, rfl⟩)).app (Fits.one IsStr (by simp) (text_isStr _))).app (Fits.one (IsList IsStr) (by simp) (list_str (fun t => t) _))
    · intro v h
      split at h
      · simp at h
        subst h
        refine ⟨_, rfl, ?_⟩
        intro x hx
        rw [List.mem_singleton] at hx
        subst hx
        exact part_ok hv _ _ hg.2
      · simp at h

theorem reply_ok {o : Opts} (hv : 4 ≤ o.version) (reply : Headers) (m : Msg) {r : Root} (hg : r.Good (NamesOk o.extra)) : IsReply (replyVal o reply m r) := by
  unfold replyVal IsReply
  rw [show ([(bs "reply-headers", Val.obj (headersV o.extra reply true none)), (bs "original", messageVal { o with body := true, html := false } m r)] : List (Str × Val)) =
    one (bs "reply-headers") (Val.obj (headersV o.extra reply true none)) ++ one (bs "original") (messageVal { o with body := true, html := false } m r) from rfl]
  refine isObj_of ([bs "reply-headers"] ++ [bs "original"]) ((Keys.one _ _).app (Keys.one _ _)) (by decide +kernel) ?_
    ((Fits.one (IsObj [(bs "Subject", IsStr), (bs "From", IsStr), (bs "In-reply-to", IsStr), (bs "References", IsStr)]
      [(bs "To", IsStr), (bs "Cc", IsStr), (bs "Bcc", IsStr), (bs "Reply-To", IsStr)] Never) (by simp) ?_).app (Fits.one IsMessage (by simp) (message_ok (o := { o with body := true, html := false }) hv m hg)))
  · intro f hf
    simp only [List.mem_cons, List.not_mem_nil, or_false] at hf
    rcases hf with rfl | rfl
    · exact (Has.one _ _).left _
    · exact (Has.one _ _).right _
  · unfold headersV
    simp only [if_true]
    refine isObj_of ([bs "Subject"] ++ [bs "From"] ++ [bs "To"] ++ [bs "Cc"] ++ [bs "Bcc"] ++ [bs "Reply-To"] ++ ([bs "In-reply-to"] ++ [bs "References"]))
      (((((((Keys.one _ _).app (Keys.one _ _)).app (Keys.opt _ _)).app (Keys.opt _ _)).app (Keys.opt _ _)).app (Keys.opt _ _)).app ((Keys.one _ _).app (Keys.one _ _))) (by decide +kernel) ?_
      (((((((Fits.one IsStr (by simp) (text_isStr _)).app (Fits.one IsStr (by simp) (text_isStr _))).app (Fits.opt IsStr (by simp) str_isStr)).app (Fits.opt IsStr (by simp) str_isStr)).app
        (Fits.opt IsStr (by simp) str_isStr)).app (Fits.opt IsStr (by simp) str_isStr)).app ((Fits.one IsStr (by simp) (text_isStr _)).app (Fits.one IsStr (by simp) (text_isStr _))))
    intro f hf
    simp only [List.mem_cons, List.not_mem_nil, or_false] at hf
    rcases hf with rfl | rfl | rfl | rfl
    · exact ((((((Has.one _ _).left _).left _).left _).left _).left _).left _
    · exact ((((((Has.one _ _).right _).left _).left _).left _).left _).left _
    · exact ((Has.one _ _).left _).right _
    · exact ((Has.one _ _).right _).right _

/-! ## Looking up -/

theorem lookup_app (k : Str) : ∀ (a b : List (Str × Val)), lookup k (a ++ b) = (lookup k a).or (lookup k b)
  | [], b => by simp [lookup]
  | (x, v) :: a, b => by
    rw [List.cons_append, lookup, lookup]
    split
    · rfl
    · exact lookup_app k a b

theorem lookup_one (k x : Str) (v : Val) : lookup k (one x v) = if x = k then some v else none := by simp [one, lookup]

theorem lookup_opt (k x : Str) (o : Option Val) : lookup k (optV x o) = if x = k then o else none := by
  cases o <;> simp [optV, lookup]

theorem lookup_none {k : Str} : ∀ {l : List (Str × Val)}, (∀ x ∈ l, x.1 ≠ k) → lookup k l = none
  | [], _ => rfl
  | (a, v) :: l, h => by
    rw [lookup, if_neg (h (a, v) (by simp))]
    exact lookup_none (fun x hx => h x (by simp [hx]))

theorem lookup_one_eq (k : Str) (v : Val) : lookup k (one k v) = some v := by rw [lookup_one, if_pos rfl]
theorem lookup_opt_eq (k : Str) (o : Option Val) : lookup k (optV k o) = o := by rw [lookup_opt, if_pos rfl]
theorem lookup_one_ne {k x : Str} (h : x ≠ k) (v : Val) : lookup k (one x v) = none := by rw [lookup_one, if_neg h]
theorem lookup_opt_ne {k x : Str} (h : x ≠ k) (o : Option Val) : lookup k (optV x o) = none := by rw [lookup_opt, if_neg h]

macro "look" : tactic => `(tactic| simp (disch := decide +kernel) only [lookup_app, lookup_one_eq, lookup_opt_eq, lookup_one_ne, lookup_opt_ne, Option.none_or, Option.or_none])

theorem extra_lookup {extra : List Str} {h : Headers} (hn : NamesOk extra h) {k : Str} (hk : k ∈ headerKeys) : lookup k (extraV extra h) = none := by
  apply lookup_none
  intro x hx e
  obtain ⟨z, hz, rfl⟩ := List.mem_map.1 hx
  exact hn.2 z hz (by rw [show cstr (some z.1) = k from e]; exact hk)

theorem headers_say {extra : List Str} {h : Headers} (hn : NamesOk extra h) (subject : Option Str) : HeadersSay h subject (.obj (headersV extra h false subject)) := by
  have e := fun k (hk : k ∈ headerKeys) => extra_lookup hn hk
  have z : ∀ o : Option Str, o.map str = o.map (fun s => text (some s)) := fun o => rfl
  constructor <;> (unfold get headersV; simp only [Bool.false_eq_true, if_false])
  · look; simp
  · look; simp
  · look; simp
  · look; rw [e _ (by decide +kernel)]; simp [z]
  · look; rw [e _ (by decide +kernel)]; simp [z]
  · look; rw [e _ (by decide +kernel)]; simp [z]
  · look; rw [e _ (by decide +kernel)]; simp [z]

theorem testBit_iff (n k : Nat) : n.testBit k = true ↔ n / 2 ^ k % 2 = 1 := by
  rw [Nat.testBit_eq_decide_div_mod_eq]; simp

theorem good_iff (s : Sig) : s.good = true ↔ s.status < 4 := by
  unfold Sig.good
  have h := testBit_iff s.status 2
  cases hb : s.status.testBit 2 with
  | true =>
    rw [hb] at h
    simp at h ⊢
    omega
  | false =>
    rw [hb] at h
    simp at h ⊢
    omega

theorem bad_iff (s : Sig) : s.bad = true ↔ s.status / 4 % 2 = 1 := testBit_iff s.status 2

theorem error_iff (s : Sig) : s.error = true ↔ 8 ≤ s.status := by
  unfold Sig.error
  simp

theorem statusString_eq (s : Sig) : s.statusString = if s.status / 4 % 2 = 1 then bs "bad" else if 8 ≤ s.status then bs "error" else bs "good" := by
  unfold Sig.statusString
  by_cases h1 : s.status / 4 % 2 = 1
  · rw [if_pos ((bad_iff s).2 h1), if_pos h1]
  · rw [if_neg (fun h => h1 ((bad_iff s).1 h)), if_neg h1]
    by_cases h2 : 8 ≤ s.status
    · rw [if_pos ((error_iff s).2 h2), if_pos h2]
    · rw [if_neg (fun h => h2 ((error_iff s).1 h)), if_neg h2, if_pos ((good_iff s).2 (by omega))]

theorem errors_lookup (status : Nat) : ∀ (l : List (Nat × Str)), (l.map (·.2)).Nodup → ∀ b ∈ l,
    lookup b.2 ((l.filter (fun b => status.testBit b.1)).map (fun b => (b.2, Val.bool true))) = if status.testBit b.1 = true then some (.bool true) else none
  | [], _, b, hb => by simp at hb
  | a :: l, hn, b, hb => by
    rw [List.map_cons, List.nodup_cons] at hn
    rcases List.mem_cons.1 hb with rfl | hb
    · by_cases ht : status.testBit b.1 = true
      · rw [List.filter_cons, if_pos ht, List.map_cons, lookup, if_pos rfl, if_pos ht]
      · rw [List.filter_cons, if_neg ht, if_neg ht]
        apply lookup_none
        intro x hx he
        obtain ⟨y, hy, rfl⟩ := List.mem_map.1 hx
        exact hn.1 (List.mem_map.2 ⟨y, (List.mem_filter.1 hy).1, he⟩)
    · have ih := errors_lookup status l hn.2 b hb
      have hne : a.2 ≠ b.2 := fun h => hn.1 (List.mem_map.2 ⟨b, hb, h.symm⟩)
      by_cases ht : status.testBit a.1 = true
      · rw [List.filter_cons, if_pos ht, List.map_cons, lookup, if_neg hne, ih]
      · rw [List.filter_cons, if_neg ht, ih]

theorem sig_says {version : Int} (hv : 4 ≤ version) (s : Sig) : SigSays s (sigVal version s) := by
  have hg := good_iff s
  have he := error_iff s
  constructor
  · unfold sigVal get; simp only []; look; simp [statusString_eq]
  · unfold sigVal get sigErrorV certV; simp only []
    by_cases h : s.good = true
    · rw [if_pos h, if_pos (hg.1 h)]; look
    · rw [if_neg h, if_neg (fun x => h (hg.2 x))]; look
  · unfold sigVal get sigErrorV certV; simp only []
    by_cases h : s.good = true
    · rw [if_pos h]; have h4 := hg.1 h; look; simp [h4]
    · rw [if_neg h]; have h4 : ¬ s.status < 4 := (fun x => h (hg.2 x)); look; simp [h4]
  · unfold sigVal get sigErrorV certV; simp only []
    by_cases h : s.good = true
    · rw [if_pos h]; have h4 := hg.1 h; look; simp [h4]
    · rw [if_neg h]; have h4 : ¬ s.status < 4 := (fun x => h (hg.2 x)); look; simp [h4]
  · intro u
    unfold sigVal get sigErrorV certV; simp only []
    by_cases h : s.good = true
    · rw [if_pos h]; have h4 := hg.1 h; look; simp [h4, Cert.validUserid]
      cases s.cert with
      | none => simp
      | some c => cases hc : c.valid <;> cases hi : c.userid <;> simp [hc, hi, str, eq_comm (b := u)]
    · rw [if_neg h]; have h4 : ¬ s.status < 4 := (fun x => h (hg.2 x)); look; simp [h4]
  · intro u
    unfold sigVal get sigErrorV certV; simp only []
    by_cases h : s.good = true
    · rw [if_pos h]; have h4 := hg.1 h; look; simp [h4, Cert.validEmail]
      cases s.cert with
      | none => simp
      | some c => cases hc : c.valid <;> cases hi : c.email <;> simp [hc, hi, str, eq_comm (b := u)]
    · rw [if_neg h]; have h4 : ¬ s.status < 4 := (fun x => h (hg.2 x)); look; simp [h4]
  · intro u
    unfold sigVal get sigErrorV certV; simp only []
    by_cases h : s.good = true
    · rw [if_pos h]; have h4 := hg.1 h; look; simp [h4]
    · rw [if_neg h]; have h4 : ¬ s.status < 4 := (fun x => h (hg.2 x)); look; simp [h4, Cert.fpr16]
      have hd : ∀ f : Str, (if f.length < 16 then f else f.drop (f.length - 16)) = f.drop (f.length - 16) := by
        intro f
        split
        · rename_i h; rw [show f.length - 16 = 0 by omega]; rfl
        · rfl
      cases s.cert with
      | none => simp
      | some c => cases hi : c.fingerprint <;> simp [hi, hd, str, eq_comm (b := u)]
  · intro h
    have h' : s.error = false := by
      cases hx : s.error with
      | false => rfl
      | true => have := he.1 hx; omega
    have hc : lookup (bs "errors") (certV s) = none := by
      unfold certV
      split <;> (look)
    unfold sigVal get sigErrorV; simp only []
    rw [lookup_app, lookup_app, hc]
    look
    simp [h']
  · intro h
    refine ⟨errorsVal s.status, ?_, ?_⟩
    · have hc : lookup (bs "errors") (certV s) = none := by
        unfold certV
        split <;> (look)
      unfold sigVal get sigErrorV; simp only []
      rw [lookup_app, lookup_app, hc]
      look
      rw [if_pos (he.2 h), if_neg (by omega)]
    · intro b hb
      have := errors_lookup s.status errorBits (by decide +kernel) b hb
      unfold get errorsVal
      simp only []
      rw [this]
      by_cases ht : s.status.testBit b.1 = true
      · rw [if_pos ht, if_pos ((testBit_iff _ _).1 ht)]
      · rw [if_neg ht, if_neg (fun h => ht ((testBit_iff _ _).2 h))]

theorem sigs_say {version : Int} (hv : 4 ≤ version) : ∀ l : List Sig, SigsSay l (l.map (sigVal version))
  | [] => .nil
  | s :: l => .cons (sig_says hv s) (sigs_say hv l)

theorem crypto_says {version : Int} (hv : 4 ≤ version) (h : Headers) (c : Crypto) : CryptoSays h c (cryptoVal version h c) := by
  constructor
  · intro hs
    unfold get cryptoVal; simp only []; look; simp [hs]
  · intro l hs
    refine ⟨signedVal version c l, l.map (sigVal version), ?_, ?_, sigs_say hv l, ?_, ?_⟩
    · unfold get cryptoVal; simp only []; look; simp [hs]
    · unfold get signedVal; simp only []; look; simp [sigStatusVal]
    · unfold get signedVal; simp only []; look
    · unfold get signedVal; simp only []; look
  · intro hs
    unfold get cryptoVal; simp only []; look; simp [hs]
  · intro hs
    refine ⟨decryptedVal h c, ?_, ?_, ?_⟩
    · unfold get cryptoVal; simp only []; look; simp [hs]
    · unfold get decryptedVal; simp only []; look
    · unfold get decryptedVal; simp only []; look
      cases hc : c.subject with
      | none => simp
      | some x =>
        by_cases he : h.subject = some x
        · simp [he]
        · cases hh : h.subject with
          | none => simp [maskVal, one]
          | some y =>
            have : y ≠ x := fun e => he (by rw [hh, e])
            simp [this, maskVal, one, str]

/-- What follows the information about a part does not change it. -/
theorem info_says {o : Opts} (hv : 4 ≤ o.version) (i : Info) (n : Nat) (f : Option Str) (l : List (Str × Val)) (hl : ∀ x ∈ l, x.1 ∉ infoKeys) : InfoSays i n f (.obj (infoV o i n f ++ l)) := by
  have e : ∀ k ∈ infoKeys, lookup k l = none := by
    intro k hk
    apply lookup_none
    intro x hx h
    exact hl x hx (h ▸ hk)
  have z : ∀ o : Option Str, o.map str = o.map (fun s => text (some s)) := fun o => rfl
  constructor <;> (unfold get infoV; simp only [])
  · rw [lookup_app, e _ (by decide +kernel)]; look
  · rw [lookup_app, e _ (by decide +kernel)]; look; simp [str]
  · rw [lookup_app, e _ (by decide +kernel)]; look; simp [z]
  · rw [lookup_app, e _ (by decide +kernel)]; look; simp [z]
  · rw [lookup_app, e _ (by decide +kernel)]; look; simp [z]
  · rw [lookup_app, e _ (by decide +kernel)]; look; cases i.decrypt <;> rfl
  · intro hv; rw [lookup_app, e _ (by decide +kernel)]; look; simp [hv]
  · intro l hl
    refine ⟨(l.getD []).map (sigVal o.version), ?_, sigs_say hv _⟩
    rw [lookup_app, e _ (by decide +kernel)]; look; simp [hl, sigStatusVal]

theorem content_lookup (o : Opts) (i : Info) (n : Nat) (f : Option Str) {k : Str} (hk : k ∉ infoKeys) : lookup k (infoV o i n f) = none := by
  apply lookup_none
  intro x hx h
  have hx' := (infoV_keys o i n f).subset (List.mem_map_of_mem hx)
  exact hk (h ▸ hx')

theorem get_content (o : Opts) (i : Info) (n : Nat) (f : Option Str) (v : Val) : get (.obj (infoV o i n f ++ one (bs "content") v)) (bs "content") = some v := by
  unfold get
  simp only []
  rw [lookup_app, content_lookup o i n f (by decide +kernel), lookup_one, if_pos rfl]
  rfl

theorem content_notInfo (v : Val) : ∀ x ∈ one (bs "content") v, x.1 ∉ infoKeys := by
  intro x hx
  rw [one, List.mem_singleton] at hx
  subst hx
  show bs "content" ∉ infoKeys
  decide +kernel

mutual
theorem size_nodes : ∀ t : Node, t.size = t.nodes.length
  | .part i f t c e n kids => by rw [Node.size, Node.nodes, List.length_cons, sizes_nodes kids]; omega
  | .multipart i kids => by rw [Node.size, Node.nodes, List.length_cons, sizes_nodes kids]; omega
  | .message i h kids => by rw [Node.size, Node.nodes, List.length_cons, sizes_nodes kids]; omega

theorem sizes_nodes : ∀ l : List Node, Node.sizes l = (Node.nodesList l).length
  | [] => rfl
  | t :: l => by rw [Node.sizes, Node.nodesList, List.length_append, size_nodes t, sizes_nodes l]
end

theorem showText_iff (html : Bool) (i : Info) : i.showText html = true ↔ i.isText = true ∧ (html = true ∨ i.isHtml = false) := by
  unfold Info.showText
  cases i.isText <;> cases html <;> cases i.isHtml <;> simp

mutual
theorem part_says {o : Opts} (hv : 4 ≤ o.version) : ∀ (t : Node) (n : Nat), t.Good (NamesOk o.extra) → PartSays o.html t n (partVal o t n)
  | .part i filename text charset cte length kids, n, hg => by
    rw [Node.Good] at hg
    rw [partVal]
    by_cases hs : i.showText o.html = true
    · rw [if_pos hs]
      have hk := hg.1 (showText_text hs)
      subst hk
      exact .text (info_says hv _ _ _ _ (content_notInfo _)) ((showText_iff _ _).1 hs) (get_content _ _ _ _ _)
    · rw [if_neg hs]
      cases kids with
      | nil =>
        rw [if_neg (by simp)]
        have z : ∀ o : Option Str, o.map str = o.map (fun s => Show.text (some s)) := fun o => rfl
        refine .omitted (info_says hv _ _ _ _ ?_) (fun h => hs ((showText_iff _ _).2 h)) ?_ ?_ ?_
        · intro x hx
          have hx' := (omitted_keys charset cte length).subset (List.mem_map_of_mem hx)
          intro hi
          revert hi
          generalize x.1 = k at hx'
          revert k
          decide +kernel
        · unfold get omittedV; simp only []; rw [lookup_app, content_lookup _ _ _ _ (by decide +kernel)]; look
        · unfold get omittedV; simp only []; rw [lookup_app, content_lookup _ _ _ _ (by decide +kernel)]; look
        · unfold get omittedV; simp only []; rw [lookup_app, content_lookup _ _ _ _ (by decide +kernel)]; look; simp [z]
      | cons k kids =>
        rw [if_pos (by simp)]
        exact .wrapped (info_says hv _ _ _ _ (content_notInfo _)) (get_content _ _ _ _ _) (parts_say hv (k :: kids) (n + 1) hg.2)
  | .multipart i kids, n, hg => by
    rw [Node.Good] at hg
    rw [partVal]
    exact .multipart (info_says hv _ _ _ _ (content_notInfo _)) (get_content _ _ _ _ _) (parts_say hv kids (n + 1) hg)
  | .message i h kids, n, hg => by
    rw [Node.Good] at hg
    rw [partVal]
    exact .message (info_says hv _ _ _ _ (content_notInfo _)) (get_content _ _ _ _ _) (headers_say hg.1 none) (parts_say hv kids (n + 1) hg.2)

theorem parts_say {o : Opts} (hv : 4 ≤ o.version) : ∀ (l : List Node) (n : Nat), Node.GoodAll (NamesOk o.extra) l → PartsSay o.html l n (partsVal o l n)
  | [], _, _ => by rw [partsVal]; exact .nil
  | t :: l, n, hg => by
    rw [Node.GoodAll] at hg
    rw [partsVal]
    refine .cons (part_says hv t n hg.1) ?_
    have := parts_say hv l (n + t.size) hg.2
    rw [size_nodes] at this ⊢
    exact this
end

theorem message_says {o : Opts} (hv : 4 ≤ o.version) (m : Msg) {r : Root} (hg : r.Good (NamesOk o.extra)) : MessageSays o m r (messageVal o m r) := by
  have hc : cryptoV o.version r.headers r.crypto = one (bs "crypto") (cryptoVal o.version r.headers r.crypto) := by unfold cryptoV; rw [if_pos hv]
  have hf : (if o.version ≥ 3 then Val.list (m.files.map (fun f => str f.name)) else text (m.files.head?.map (·.name))) = .list (m.files.map (fun f => str f.name)) := by rw [if_pos (by omega)]
  have e : messageVal o m r = .obj (one (bs "id") (str m.id) ++ one (bs "match") (.bool m.isMatch) ++ one (bs "excluded") (.bool m.excluded) ++ one (bs "filename") (.list (m.files.map (fun f => str f.name))) ++
      one (bs "timestamp") (.int m.timestamp) ++ one (bs "date_relative") (str m.relative) ++ one (bs "tags") (.list (m.tags.map str)) ++
      one (bs "duplicate") (.int (if o.duplicate > 0 then o.duplicate else 1)) ++ optV (bs "body") (if o.body then some (.list [partVal o r.body 1]) else none) ++
      one (bs "crypto") (cryptoVal o.version r.headers r.crypto) ++ one (bs "headers") (.obj (headersV o.extra r.headers false r.crypto.subject))) := by
    unfold messageVal metaV
    rw [hc, hf]
  rw [e]
  constructor
  · unfold get; look; simp [str]
  · unfold get; look
  · unfold get; look
  · unfold get; look; simp [str]
  · unfold get; look
  · unfold get; look; simp [str]
  · unfold get; look; simp; intro a _; rfl
  · unfold get; look
  · refine ⟨_, ?_, crypto_says hv _ _⟩
    unfold get; look
  · refine ⟨_, ?_, headers_say hg.1 _⟩
    unfold get; look
  · intro hb
    refine ⟨partVal o r.body 1, ?_, part_says hv _ _ hg.2⟩
    rw [hb]; simp only [if_true]; unfold get; look
  · intro hb
    rw [hb]; simp only [Bool.false_eq_true, if_false]; unfold get; look

end Notmuch.Show
