import Verif.Proofs.ShowVal

/-! # notmuch show: the values are as devel/schemata says (C55) -/

namespace Notmuch.Show

open Notmuch.Sprinter

/-! ## Objects -/

/-- The names are among these, in this order. -/
def Keys (l : List (Str × Val)) (ks : List Str) : Prop := (l.map (·.1)).Sublist ks

theorem Keys.one (k : Str) (v : Val) : Keys (one k v) [k] := List.Sublist.refl _

theorem Keys.opt (k : Str) (o : Option Val) : Keys (optV k o) [k] := by
  cases o with
  | none => exact List.nil_sublist _
  | some v => exact List.Sublist.refl _

theorem Keys.nil (ks : List Str) : Keys [] ks := List.nil_sublist _

theorem Keys.app {a b : List (Str × Val)} {ka kb : List Str} (ha : Keys a ka) (hb : Keys b kb) : Keys (a ++ b) (ka ++ kb) := by
  unfold Keys at *
  rw [List.map_append]
  exact List.Sublist.append ha hb

/-- Every value is as its name says. -/
def Fits (fs : List (Str × (Val → Prop))) (l : List (Str × Val)) : Prop := ∀ x ∈ l, ∃ f ∈ fs, f.1 = x.1 ∧ f.2 x.2

theorem Fits.one {fs : List (Str × (Val → Prop))} {k : Str} {v : Val} (P : Val → Prop) (h : (k, P) ∈ fs) (hv : P v) : Fits fs (one k v) := by
  intro x hx
  rw [Show.one, List.mem_singleton] at hx
  subst hx
  exact ⟨_, h, rfl, hv⟩

theorem Fits.opt {fs : List (Str × (Val → Prop))} {k : Str} {o : Option Val} (P : Val → Prop) (h : (k, P) ∈ fs) (hv : ∀ v, o = some v → P v) : Fits fs (optV k o) := by
  intro x hx
  cases o with
  | none => simp [optV] at hx
  | some v =>
    rw [optV, List.mem_singleton] at hx
    subst hx
    exact ⟨_, h, rfl, hv v rfl⟩

theorem Fits.app {fs : List (Str × (Val → Prop))} {a b : List (Str × Val)} (ha : Fits fs a) (hb : Fits fs b) : Fits fs (a ++ b) := by
  intro x hx
  rcases List.mem_append.1 hx with hx | hx
  · exact ha x hx
  · exact hb x hx

theorem Fits.nil {fs : List (Str × (Val → Prop))} : Fits fs [] := by intro x hx; simp at hx

/-- The name is there. -/
def Has (l : List (Str × Val)) (k : Str) : Prop := ∃ w, (k, w) ∈ l

theorem Has.one (k : Str) (v : Val) : Has (one k v) k := ⟨v, by simp [Show.one]⟩
theorem Has.left {a : List (Str × Val)} {k : Str} (b : List (Str × Val)) (h : Has a k) : Has (a ++ b) k := by obtain ⟨w, hw⟩ := h; exact ⟨w, by simp [hw]⟩
theorem Has.right {b : List (Str × Val)} {k : Str} (a : List (Str × Val)) (h : Has b k) : Has (a ++ b) k := by obtain ⟨w, hw⟩ := h; exact ⟨w, by simp [hw]⟩

theorem isObj_of {req opt : List (Str × (Val → Prop))} {l : List (Str × Val)} (ks : List Str) (hk : Keys l ks) (hn : ks.Nodup) (hr : ∀ f ∈ req, Has l f.1) (hf : Fits (req ++ opt) l) :
    IsObj req opt Never (.obj l) :=
  ⟨l, rfl, hk.nodup hn, hr, fun x hx => Or.inl (hf x hx)⟩

theorem str_isStr {o : Option Str} : ∀ v, o.map str = some v → IsStr v := by
  intro v h
  cases o with
  | none => simp at h
  | some s => simp at h; exact ⟨_, h.symm⟩

theorem text_isStr (o : Option Str) : IsStr (text o) := ⟨_, rfl⟩

/-! ## Signatures -/

theorem errors_ok (status : Nat) : IsSigErrors (errorsVal status) := by
  refine isObj_of (errorBits.map (·.2)) ?_ (by decide +kernel) (by simp) ?_
  · unfold Keys
    rw [List.map_map]
    exact List.Sublist.map _ List.filter_sublist
  · intro x hx
    obtain ⟨b, hb, rfl⟩ := List.mem_map.1 hx
    have hb' := (List.mem_filter.1 hb).1
    refine ⟨(b.2, IsBool), ?_, rfl, ⟨true, rfl⟩⟩
    simp only [errorBits, List.mem_cons, List.not_mem_nil, or_false] at hb'
    rcases hb' with rfl | rfl | rfl | rfl | rfl | rfl | rfl | rfl | rfl <;> simp

def certKeys : List Str := [bs "fingerprint", bs "created", bs "expires", bs "userid", bs "email", bs "keyid"]

theorem certV_keys (s : Sig) : Keys (certV s) certKeys := by
  unfold certV
  split
  · have := ((((Keys.opt (bs "fingerprint") (s.cert.map (fun c => text c.fingerprint))).app (Keys.opt (bs "created") (if s.created ≠ -1 then some (.int s.created) else none))).app
      (Keys.opt (bs "expires") (if s.expires > 0 then some (.int s.expires) else none))).app ((Keys.opt (bs "userid") (s.cert.bind (fun c => c.validUserid.map str))).app (Keys.opt (bs "email") (s.cert.bind (fun c => c.validEmail.map str)))))
    exact List.Sublist.trans this (by exact (List.sublist_append_left [bs "fingerprint", bs "created", bs "expires", bs "userid", bs "email"] [bs "keyid"]))
  · exact List.Sublist.trans (Keys.opt _ _) (List.sublist_append_right [bs "fingerprint", bs "created", bs "expires", bs "userid", bs "email"] [bs "keyid"])

theorem bind_isStr {s : Option Cert} {f : Cert → Option Str} : ∀ v, (s.bind (fun c => (f c).map str)) = some v → IsStr v := by
  intro v h
  cases s with
  | none => simp at h
  | some c => exact str_isStr v h

theorem certV_fits (s : Sig) (fs : List (Str × (Val → Prop))) (h1 : (bs "fingerprint", IsStr) ∈ fs) (h2 : (bs "created", IsInt) ∈ fs) (h3 : (bs "expires", IsInt) ∈ fs) (h4 : (bs "userid", IsStr) ∈ fs)
    (h5 : (bs "email", IsStr) ∈ fs) (h6 : (bs "keyid", IsStr) ∈ fs) : Fits fs (certV s) := by
  unfold certV
  split
  · refine (((Fits.opt _ h1 ?_).app (Fits.opt _ h2 ?_)).app (Fits.opt _ h3 ?_)).app ((Fits.opt _ h4 bind_isStr).app (Fits.opt _ h5 bind_isStr))
    · intro v h
      cases hc : s.cert with
      | none => rw [hc] at h; simp at h
      | some c => rw [hc] at h; simp at h; exact ⟨_, h.symm⟩
    · intro v h
      split at h
      · simp at h; exact ⟨_, h.symm⟩
      · simp at h
    · intro v h
      split at h
      · simp at h; exact ⟨_, h.symm⟩
      · simp at h
  · exact Fits.opt _ h6 bind_isStr

theorem sig_ok {version : Int} (hv : 4 ≤ version) (s : Sig) : IsSignature (sigVal version s) := by
  unfold sigVal IsSignature
  refine isObj_of ([bs "status"] ++ certKeys ++ [bs "errors"]) (((Keys.one _ _).app (certV_keys s)).app (Keys.opt _ _)) (by decide +kernel) ?_ (((Fits.one (fun v => v = .str (bs "good") ∨ v = .str (bs "bad") ∨ v = .str (bs "error") ∨ v = .str (bs "unknown")) (by simp) ?_).app
    (certV_fits s _ (by simp) (by simp) (by simp) (by simp) (by simp) (by simp))).app (Fits.opt IsSigErrors (by simp) ?_))
  · simp only [List.mem_singleton]
    rintro f rfl
    exact ((Has.one _ _).left _).left _
  · unfold Sig.statusString
    repeat' split
    all_goals simp
  · intro v h
    split at h
    · rw [if_neg (by omega)] at h
      simp at h
      exact h ▸ errors_ok _
    · simp at h

theorem sigStatus_ok {version : Int} (hv : 4 ≤ version) (l : Option (List Sig)) : IsSigStatus (sigStatusVal version l) := by
  refine ⟨_, rfl, ?_⟩
  intro x hx
  obtain ⟨s, _, rfl⟩ := List.mem_map.1 hx
  exact sig_ok hv s

/-! ## Headers -/

def headerKeys : List Str := [bs "Subject", bs "From", bs "To", bs "Cc", bs "Bcc", bs "Reply-To", bs "Date"]

theorem headersV_split (extra : List Str) (h : Headers) (subject : Option Str) : ∃ a, headersV extra h false subject = a ++ extraV extra h ∧ Keys a headerKeys ∧
    Fits [(bs "Subject", IsStr), (bs "From", IsStr), (bs "Date", IsStr), (bs "To", IsStr), (bs "Cc", IsStr), (bs "Bcc", IsStr), (bs "Reply-To", IsStr)] a ∧
    Has a (bs "Subject") ∧ Has a (bs "From") ∧ Has a (bs "Date") := by
  refine ⟨one (bs "Subject") (text (subject.or h.subject)) ++ one (bs "From") (text h.sender) ++ optV (bs "To") (h.to.map str) ++ optV (bs "Cc") (h.cc.map str) ++ optV (bs "Bcc") (h.bcc.map str) ++
    optV (bs "Reply-To") (h.replyTo.map str) ++ one (bs "Date") (text (some h.date)), ?_, ?_, ?_, ?_, ?_, ?_⟩
  · unfold headersV
    simp
  · exact ((((((Keys.one _ _).app (Keys.one _ _)).app (Keys.opt _ _)).app (Keys.opt _ _)).app (Keys.opt _ _)).app (Keys.opt _ _)).app (Keys.one _ _)
  · exact ((((((Fits.one IsStr (by simp) (text_isStr _)).app (Fits.one IsStr (by simp) (text_isStr _))).app (Fits.opt IsStr (by simp) str_isStr)).app (Fits.opt IsStr (by simp) str_isStr)).app
      (Fits.opt IsStr (by simp) str_isStr)).app (Fits.opt IsStr (by simp) str_isStr)).app (Fits.one IsStr (by simp) (text_isStr _))
  · exact ((((((Has.one _ _).left _).left _).left _).left _).left _).left _
  · exact ((((((Has.one _ _).right _).left _).left _).left _).left _).left _
  · exact (Has.one _ _).right _

theorem headers_ok {extra : List Str} {h : Headers} (hn : NamesOk extra h) (subject : Option Str) : IsHeaders (.obj (headersV extra h false subject)) := by
  obtain ⟨a, ha, hk, hf, h1, h2, h3⟩ := headersV_split extra h subject
  have hkeys : (extraV extra h).map (·.1) = (extra.filterMap h.find).map (fun x => cstr (some x.1)) := by simp [extraV]
  refine ⟨_, rfl, ?_, ?_, ?_⟩
  · rw [ha, List.map_append, List.nodup_append]
    refine ⟨hk.nodup (by decide +kernel), by rw [hkeys]; exact hn.1, ?_⟩
    intro x hx y hy e
    subst e
    have hx' : x ∈ headerKeys := hk.subset hx
    rw [hkeys] at hy
    obtain ⟨z, hz, rfl⟩ := List.mem_map.1 hy
    exact hn.2 z hz hx'
  · rw [ha]
    intro f hf
    simp only [List.mem_cons, List.not_mem_nil, or_false] at hf
    rcases hf with rfl | rfl | rfl
    · exact h1.left _
    · exact h2.left _
    · exact h3.left _
  · intro x hx
    rw [ha] at hx
    rcases List.mem_append.1 hx with hx | hx
    · exact Or.inl (hf x hx)
    · right
      obtain ⟨z, hz, rfl⟩ := List.mem_map.1 hx
      refine ⟨?_, text_isStr _⟩
      intro f hf e
      apply hn.2 z hz
      rw [← show f.1 = cstr (some z.1) from e]
      simp only [List.cons_append, List.nil_append, List.mem_cons, List.not_mem_nil, or_false] at hf
      rcases hf with rfl | rfl | rfl | rfl | rfl | rfl | rfl <;> simp

/-! ## Parts -/

def infoKeys : List Str := [bs "id", bs "encstatus", bs "sigstatus", bs "content-type", bs "content-disposition", bs "content-id", bs "filename"]

theorem infoV_keys (o : Opts) (i : Info) (n : Nat) (f : Option Str) : Keys (infoV o i n f) infoKeys :=
  ((((((Keys.one _ _).app (Keys.opt _ _)).app (Keys.opt _ _)).app (Keys.one _ _)).app (Keys.opt _ _)).app (Keys.opt _ _)).app (Keys.opt _ _)

theorem infoV_fits {o : Opts} (hv : 4 ≤ o.version) (i : Info) (n : Nat) (f : Option Str) (fs : List (Str × (Val → Prop))) (hfs : ∀ x ∈ partRequired ++ partOptional, x ∈ fs) : Fits fs (infoV o i n f) := by
  have m : ∀ k P, (k, P) ∈ partRequired ++ partOptional → (k, P) ∈ fs := fun k P h => hfs _ h
  refine ((((((Fits.one IsInt (m _ _ (by simp [partRequired])) ⟨_, rfl⟩).app (Fits.opt IsEncStatus (m _ _ (by simp [partOptional])) ?_)).app (Fits.opt IsSigStatus (m _ _ (by simp [partOptional])) ?_)).app
    (Fits.one IsStr (m _ _ (by simp [partRequired])) (text_isStr _))).app (Fits.opt IsStr (m _ _ (by simp [partOptional])) str_isStr)).app (Fits.opt IsStr (m _ _ (by simp [partOptional])) str_isStr)).app
    (Fits.opt IsStr (m _ _ (by simp [partOptional])) str_isStr)
  · intro v h
    cases hd : i.decrypt with
    | none => rw [hd] at h; simp at h
    | some ok =>
      rw [hd] at h
      simp at h
      subst h
      refine ⟨_, rfl, ?_⟩
      cases ok <;> simp
  · intro v h
    cases hd : i.verify with
    | none => rw [hd] at h; simp at h
    | some l =>
      rw [hd] at h
      simp at h
      subst h
      exact sigStatus_ok hv l

theorem infoV_has (o : Opts) (i : Info) (n : Nat) (f : Option Str) : ∀ x ∈ partRequired, Has (infoV o i n f) x.1 := by
  intro x hx
  simp only [partRequired, List.mem_cons, List.not_mem_nil, or_false] at hx
  rcases hx with rfl | rfl
  · exact ((((((Has.one _ _).left _).left _).left _).left _).left _).left _
  · exact ((((Has.one _ _).right _).left _).left _).left _

theorem omitted_keys (charset cte : Option Str) (length : Int) : Keys (omittedV charset cte length) [bs "content-charset", bs "content-transfer-encoding", bs "content-length"] :=
  ((Keys.opt _ _).app (Keys.opt _ _)).app (Keys.opt _ _)

mutual
theorem part_ok {o : Opts} (hv : 4 ≤ o.version) : ∀ (t : Node) (n : Nat), t.Good (NamesOk o.extra) → IsPart (partVal o t n)
  | .part i filename text charset cte length kids, n, hg => by
    rw [Node.Good] at hg
    rw [partVal]
    by_cases hs : i.showText o.html = true
    · rw [if_pos hs]
      refine .leaf (isObj_of (infoKeys ++ [bs "content"]) ((infoV_keys _ _ _ _).app (Keys.one _ _)) (by decide +kernel) (fun x hx => (infoV_has o i n filename x hx).left _)
        ((infoV_fits hv i n filename _ ?_).app (Fits.one IsStr (by simp) ⟨_, rfl⟩)))
      intro x hx
      simp only [List.mem_append] at hx ⊢
      rcases hx with hx | hx
      · exact Or.inl hx
      · exact Or.inr (Or.inl hx)
    · rw [if_neg hs]
      by_cases hk : kids = []
      · rw [if_neg (by simp [hk])]
        refine .leaf (isObj_of (infoKeys ++ [bs "content-charset", bs "content-transfer-encoding", bs "content-length"]) ((infoV_keys _ _ _ _).app (omitted_keys _ _ _)) (by decide +kernel)
          (fun x hx => (infoV_has o i n filename x hx).left _) ((infoV_fits hv i n filename _ ?_).app (((Fits.opt IsStr (by simp) str_isStr).app (Fits.opt IsStr (by simp) str_isStr)).app
            (Fits.opt IsInt (by simp) ?_))))
        · intro x hx
          simp only [List.mem_append] at hx ⊢
          rcases hx with hx | hx
          · exact Or.inl hx
          · exact Or.inr (Or.inl hx)
        · intro v h
          split at h
          · simp at h; exact ⟨_, h.symm⟩
          · simp at h
      · rw [if_pos (by simp [hk])]
        exact isPart_parts hv (parts_ok hv kids (n + 1) hg.2)
  | .multipart i kids, n, hg => by
    rw [Node.Good] at hg
    rw [partVal]
    exact isPart_parts hv (parts_ok hv kids (n + 1) hg)
  | .message i h kids, n, hg => by
    rw [Node.Good] at hg
    rw [partVal]
    refine .message (isObj_of (infoKeys ++ [bs "content"]) ((infoV_keys _ _ _ _).app (Keys.one _ _)) (by decide +kernel) ?_ ((infoV_fits hv i n none _ ?_).app (Fits.one (fun w => w = .list [.obj [(bs "headers", .obj (headersV o.extra h false none)), (bs "body", .list (partsVal o kids (n + 1)))]]) (by simp) rfl)))
      (headers_ok hg.1 none) (parts_ok hv kids (n + 1) hg.2)
    · intro x hx
      rcases List.mem_append.1 hx with hx | hx
      · exact (infoV_has o i n none x hx).left _
      · rw [List.mem_singleton] at hx
        subst hx
        exact (Has.one _ _).right _
    · intro x hx
      simp only [List.mem_append] at hx ⊢
      rcases hx with hx | hx
      · exact Or.inl (Or.inl hx)
      · exact Or.inr hx

theorem parts_ok {o : Opts} (hv : 4 ≤ o.version) : ∀ (l : List Node) (n : Nat), Node.GoodAll (NamesOk o.extra) l → ∀ x ∈ partsVal o l n, IsPart x
  | [], _, _ => by intro x hx; simp [partsVal] at hx
  | t :: l, n, hg => by
    rw [Node.GoodAll] at hg
    intro x hx
    rw [partsVal, List.mem_cons] at hx
    rcases hx with rfl | hx
    · exact part_ok hv t n hg.1
    · exact parts_ok hv l (n + t.size) hg.2 x hx

theorem isPart_parts {o : Opts} (hv : 4 ≤ o.version) {i : Info} {n : Nat} {f : Option Str} {l : List Val} (h : ∀ x ∈ l, IsPart x) : IsPart (.obj (infoV o i n f ++ one (bs "content") (.list l))) := by
  refine .parts (l := l) (isObj_of (infoKeys ++ [bs "content"]) ((infoV_keys _ _ _ _).app (Keys.one _ _)) (by decide +kernel) ?_ ((infoV_fits hv i n f _ ?_).app (Fits.one (fun w => w = .list l) (by simp) rfl))) h
  · intro x hx
    rcases List.mem_append.1 hx with hx | hx
    · exact (infoV_has o i n f x hx).left _
    · rw [List.mem_singleton] at hx
      subst hx
      exact (Has.one _ _).right _
  · intro x hx
    simp only [List.mem_append] at hx ⊢
    rcases hx with hx | hx
    · exact Or.inl (Or.inl hx)
    · exact Or.inr hx
end

end Notmuch.Show
