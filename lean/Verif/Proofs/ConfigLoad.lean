import Verif.Proofs.ConfigCmd
import Verif.Proofs.ConfigOpen

namespace Notmuch.ConfigCmd

open Notmuch.Config Notmuch.Cli Notmuch.StringMap Notmuch.StringMapSpec
open Notmuch.Props

theorem default_none (e : Env) (pwName pwUser : Str) (k : Str) (hk : k ∉ defaultKeys) : default e pwName pwUser k = none := by
  unfold defaultKeys at hk
  simp only [List.mem_cons, List.not_mem_nil, or_false, not_or] at hk
  obtain ⟨a, b, c, d, e, f, g, h⟩ := hk
  unfold Config.default
  rw [if_neg a, if_neg b, if_neg c, if_neg d, if_neg e, if_neg f, if_neg g, if_neg h]

variable {qs : List Pair → List Pair} (hq : QSort cmppair qs)

theorem pathDefault_eq (e : Env) : pathDefault e = defaultPath e := by
  unfold pathDefault defaultPath
  cases e.get (bs "MAILDIR") <;> rfl

/-- The defaults over what there is. -/
def withDefaults (e : Env) (pwName pwUser : Str) (f : Str → Option Str) (k : Str) : Option Str :=
  ((f k).or (if k = bs "database.path" then some (defaultPath e) else none)).or
    ((if k = bs "database.mail_root" then (f (bs "database.path")).or (some (defaultPath e)) else none).or (default e pwName pwUser k))

include hq

theorem rep_allDefaults (W : World) (split : Bool) {m : Map} {f : Str → Option Str} (h : Rep m f) :
    ∃ m', allDefaults qs W split m = some ((f (bs "database.mail_root")).isSome || !split, m') ∧ Rep m' (withDefaults W.env W.pwName W.pwUser f) := by
  unfold allDefaults
  obtain ⟨m1, e1, h1⟩ := rep_default hq h (bs "database.path") (fun m => some (m, some (pathDefault W.env))) (some (defaultPath W.env)) (fun m hm => ⟨m, by rw [pathDefault_eq], hm⟩)
  rw [e1]
  simp only [Option.bind_some]
  obtain ⟨m2, e2, h2⟩ := rep_get hq h1 (bs "database.mail_root")
  have n1 : bs "database.mail_root" ≠ bs "database.path" := by decide +kernel
  rw [e2]
  simp only [Option.bind_some, if_neg n1]
  unfold loadDefaults
  obtain ⟨m3, e3, h3⟩ := rep_default hq h2 (bs "database.mail_root") (fun m => StringMap.get qs m (bs "database.path")) _ (fun m hm => rep_get hq hm _)
  rw [e3]
  simp only [Option.bind_some]
  obtain ⟨m4, e4, h4⟩ := rep_rest hq W.env W.pwName W.pwUser defaultKeys m3 _ h3 (by decide +kernel)
  rw [e4]
  refine ⟨m4, rfl, rep_congr h4 (fun k => ?_)⟩
  unfold withDefaults
  by_cases hp : k = bs "database.path"
  · subst hp
    have hd : bs "database.path" ∉ defaultKeys := by decide +kernel
    rw [if_neg hd, if_neg (Ne.symm n1), if_pos rfl, if_pos rfl, if_neg (Ne.symm n1)]
    cases f (bs "database.path") <;> rfl
  · by_cases hm : k = bs "database.mail_root"
    · subst hm
      have hd : bs "database.mail_root" ∉ defaultKeys := by decide +kernel
      rw [if_neg hd, if_pos rfl, if_neg n1, if_pos rfl, if_neg n1, if_pos rfl, default_none _ _ _ _ hd]
      cases f (bs "database.mail_root") <;> simp
    · simp only [hp, hm, if_false]
      by_cases hk : k ∈ defaultKeys
      · rw [if_pos hk]; simp
      · rw [if_neg hk, default_none _ _ _ _ hk]; simp

omit hq in
theorem firstSome_or {α : Type} (a : Option α) (l : List (Option α)) : firstSome (a :: l) = a.or (firstSome l) := by
  cases a <;> rfl

/-- Before the defaults. -/
theorem rep_before (W : World) (s : State) (hdb : GoodDbs s) (file : List (Str × Str × Str)) (pl : Status × Option Str × Bool) :
    ∃ m0 m f, loadBase qs W s file pl = some m0 ∧ loadFile qs W.env false m0 file = some m ∧ Rep m f ∧
      (∀ k, withDefaults W.env W.pwName W.pwUser f k = valueOf W.env W.pwName W.pwUser file (base W s pl) k) ∧
      ((f (bs "database.mail_root")).isSome = ((xapianAt W pl).isSome || (fileValue file (bs "database.mail_root")).isSome)) := by
  have n1 : bs "database.mail_root" ≠ bs "database.path" := by decide +kernel
  have hfile : ∀ (m0 : Map) (f0 : Str → Option Str), Rep m0 f0 → ∃ m, loadFile qs W.env false m0 file = some m ∧ Rep m (fun k => ((fileValue file k).map (expandPath W.env k)).or (f0 k)) := by
    intro m0 f0 h0
    obtain ⟨m, e, h⟩ := rep_loadFile hq W.env false file m0 f0 h0
    exact ⟨m, e, rep_congr h (fun k => by simp)⟩
  -- without a database
  have hno : ∀ (m0 : Map) (f0 : Str → Option Str), Rep m0 f0 → f0 = base W s pl → xapianAt W pl = none → f0 (bs "database.mail_root") = none →
      loadBase qs W s file pl = some m0 →
      ∃ m0 m f, loadBase qs W s file pl = some m0 ∧ loadFile qs W.env false m0 file = some m ∧ Rep m f ∧
      (∀ k, withDefaults W.env W.pwName W.pwUser f k = valueOf W.env W.pwName W.pwUser file (base W s pl) k) ∧
      ((f (bs "database.mail_root")).isSome = ((xapianAt W pl).isSome || (fileValue file (bs "database.mail_root")).isSome)) := by
    intro m0 f0 h0 hb hx hmr hl
    obtain ⟨m, e, h⟩ := hfile m0 f0 h0
    refine ⟨m0, m, _, hl, e, h, ?_, ?_⟩
    · intro k
      subst hb
      unfold withDefaults valueOf found
      simp only [firstSome_or, firstSome, Option.or_none, if_true]
      simp only [Option.or_assoc]
    · rw [hx, hmr]; simp
  unfold base at *
  unfold loadBase at *
  cases hx : xapianAt W pl with
  | none =>
    simp only [hx] at hno ⊢
    obtain ⟨st, op, sp⟩ := pl
    cases st with
    | success =>
      cases op with
      | some p =>
        obtain ⟨m1, e1, h1⟩ := rep_set hq rep_create (bs "database.path") (StringUtil.stripTrailing p 47)
        refine hno m1 _ h1 ?_ trivial ?_ e1
        · funext k; unfold put; rfl
        · unfold put; rw [if_neg n1]
      | none => exact hno _ _ rep_create rfl trivial rfl rfl
    | noDatabase => exact hno _ _ rep_create rfl trivial rfl rfl
    | pathError => exact hno _ _ rep_create rfl trivial rfl rfl
    | noMailRoot => exact hno _ _ rep_create rfl trivial rfl rfl
    | fileError => exact hno _ _ rep_create rfl trivial rfl rfl
  | some x =>
    obtain ⟨st, op, sp⟩ := pl
    have hp : ∃ p, op = some p := by
      unfold xapianAt at hx
      cases st <;> cases op <;> simp_all
    obtain ⟨p, rfl⟩ := hp
    simp only
    obtain ⟨m0, e0, h0⟩ := rep_open hq ⟨W.env, none, false, p, x, file, s.dbs x, W.isThere, W.pwName, W.pwUser⟩ (hdb x).1 (Or.inr (hdb x).2)
    obtain ⟨m, e, h⟩ := hfile m0 _ h0
    refine ⟨m0, m, _, e0, e, h, ?_, ?_⟩
    · intro k
      unfold withDefaults valueOf found value configured
      simp only [firstSome_or, firstSome, Option.or_none, Bool.false_eq_true, and_false, if_false, if_true, Option.none_or]
      by_cases hk : k = bs "database.path"
      · subst hk
        simp only [if_true, if_neg (Ne.symm n1)]
        cases (fileValue file (bs "database.path")) <;> cases (dbValue (s.dbs x) (bs "database.path")) <;> simp
      · by_cases hm : k = bs "database.mail_root"
        · subst hm
          have n2 : bs "database.mail_root" ≠ bs "database.hook_dir" := by decide +kernel
          have n3 : bs "database.mail_root" ≠ bs "database.backup_dir" := by decide +kernel
          simp only [n1, n2, n3, if_true, if_false]
          cases (fileValue file (bs "database.mail_root")) <;> cases (dbValue (s.dbs x) (bs "database.mail_root")) <;> simp
        · simp only [hk, hm, if_false, Option.none_or, Option.or_none]
          cases (fileValue file k) <;> cases (dbValue (s.dbs x) k) <;> simp
          cases Config.default W.env W.pwName W.pwUser k <;> simp [Option.or_assoc]
    · unfold value configured
      simp only [firstSome_or, firstSome, Option.or_none, Bool.false_eq_true, and_false, if_false, if_true, Option.none_or, n1]
      simp

/-- The configuration is read. -/
theorem load_spec (W : World) (s : State) (arg : Option Str) (hdb : GoodDbs s) (file : List (Str × Str × Str)) (h : Loads W s arg file) :
    ∃ m, load qs W s arg = some (if (configPath W s arg).isSome && ((configPath W s arg).bind s.files).isNone then .noConfig
        else if (xapianAt W (place W (theFile W s arg))).isSome then .success else .noDatabase, m, xapianAt W (place W (theFile W s arg))) ∧
      Rep m (conf W s arg file) := by
  obtain ⟨h1, h2, h3⟩ := h
  unfold load
  unfold theFile at h1 h2 h3 ⊢
  simp only [if_neg h2, h1]
  obtain ⟨m0, m, f, e0, e1, hf, hv, hs⟩ := rep_before hq W s hdb file (place W (((configPath W s arg).bind s.files).getD []))
  rw [e0]
  simp only [Option.bind_some]
  rw [e1]
  simp only [Option.bind_some]
  obtain ⟨m', e2, h'⟩ := rep_allDefaults hq W (place W (((configPath W s arg).bind s.files).getD [])).2.2 hf
  rw [e2]
  refine ⟨m', ?_, rep_congr h' hv⟩
  simp only [Option.map_some]
  rw [hs]
  have : ((xapianAt W (place W (((configPath W s arg).bind s.files).getD []))).isSome || (fileValue file (bs "database.mail_root")).isSome ||
      !(place W (((configPath W s arg).bind s.files).getD [])).2.2) = true := by
    cases hsp : (place W (((configPath W s arg).bind s.files).getD [])).2.2 with
    | false => simp
    | true =>
      cases hx : xapianAt W (place W (((configPath W s arg).bind s.files).getD [])) with
      | some x => simp
      | none => rw [h3 hsp hx]; simp
  rw [this]
  simp only [Bool.not_true, Bool.false_eq_true, if_false]
  cases hx : xapianAt W (place W (((configPath W s arg).bind s.files).getD [])) with
  | some x => simp only [Option.isSome_some, if_true]; split <;> rfl
  | none => simp only [Option.isSome_none, Bool.false_eq_true, if_false]; split <;> rfl

/-- Or it cannot be read. -/
theorem load_fails (W : World) (s : State) (arg : Option Str) (hdb : GoodDbs s) (h : ¬∃ file, Loads W s arg file) :
    ∃ m x, load qs W s arg = some (.failed, m, x) := by
  unfold load
  simp only
  split
  · exact ⟨_, _, rfl⟩
  · rename_i hp
    cases hd : decode (entriesOf (((configPath W s arg).bind s.files).getD [])) with
    | none => exact ⟨_, _, rfl⟩
    | some file =>
      simp only
      obtain ⟨m0, m, f, e0, e1, hf, hv, hs⟩ := rep_before hq W s hdb file (place W (((configPath W s arg).bind s.files).getD []))
      rw [e0]
      simp only [Option.bind_some]
      rw [e1]
      simp only [Option.bind_some]
      obtain ⟨m', e2, h'⟩ := rep_allDefaults hq W (place W (((configPath W s arg).bind s.files).getD [])).2.2 hf
      rw [e2]
      simp only [Option.map_some]
      rw [hs]
      refine ⟨create, none, ?_⟩
      rw [if_pos]
      cases hsp : (place W (((configPath W s arg).bind s.files).getD [])).2.2 with
      | false => exact absurd ⟨file, hd, hp, fun h => by rw [show (place W (theFile W s arg)).2.2 = false from hsp] at h; cases h⟩ h
      | true =>
        cases hx : xapianAt W (place W (((configPath W s arg).bind s.files).getD [])) with
        | some x => exact absurd ⟨file, hd, hp, fun _ h => by rw [show xapianAt W (place W (theFile W s arg)) = some x from hx] at h; cases h⟩ h
        | none =>
          cases hm : fileValue file (bs "database.mail_root") with
          | some v => exact absurd ⟨file, hd, hp, fun _ _ => by rw [hm]; rfl⟩ h
          | none => rfl

end Notmuch.ConfigCmd
