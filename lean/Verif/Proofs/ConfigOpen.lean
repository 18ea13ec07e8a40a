import Verif.Proofs.Config

namespace Notmuch.Config

open Notmuch.StringMap Notmuch.StringMapSpec
open Notmuch.Props
open Notmuch.StringUtil (stripTrailing)

variable {qs : List Pair → List Pair} (hq : QSort cmppair qs)
include hq

theorem rep_open (o : Opening) (hnd : (o.mdata.map (·.1)).Nodup) (ha : o.arg = true ∨ bs "database.path" ∉ o.mdata.map (·.1)) :
    ∃ m, openConfig qs o = some m ∧ Rep m (value o) := by
  unfold openConfig
  obtain ⟨m1, e1, h1⟩ := rep_set hq rep_create (bs "database.path") (stripTrailing o.path 47)
  rw [e1]
  simp only [Option.bind_some]
  have h2 := rep_loadDb o.env o.arg o.mdata m1 _ h1 hnd (fun x hx => by
    by_cases hk : x.1 = bs "database.path"
    · rcases ha with h | h
      · exact Or.inl ⟨hk, h⟩
      · exact absurd (List.mem_map.2 ⟨x, hx, hk⟩) h
    · right; unfold put; rw [if_neg hk])
  obtain ⟨m3, e3, h3⟩ := rep_loadFile hq o.env o.arg o.file _ _ h2
  rw [e3]
  simp only [Option.bind_some]
  have h3' : Rep m3 (configured o) := by
    refine rep_congr h3 (fun k => ?_)
    unfold configured put
    by_cases hk : k = bs "database.path"
    · by_cases harg : o.arg = true
      · simp only [hk, harg, and_self, if_true, firstSome]
      · rw [if_neg (fun h => harg h.2), if_neg (fun h => harg h.2), if_pos hk, if_neg (fun h => harg h.2)]
        cases fileValue o.file k <;> cases dbValue o.mdata k <;> rfl
    · rw [if_neg (fun h => hk h.1), if_neg (fun h => hk h.1), if_neg hk, if_neg (fun h => hk h.1)]
      cases fileValue o.file k <;> cases dbValue o.mdata k <;> rfl
  obtain ⟨m4, e4, h4⟩ := rep_default hq h3' (bs "database.hook_dir") (fun m => some (m, some (dirDefault o.env o.profile o.isThere o.xapian (bs "XDG_CONFIG_HOME") (bs ".config") (bs "hooks")))) _ (fun m hm => ⟨m, rfl, hm⟩)
  rw [e4]
  simp only [Option.bind_some]
  obtain ⟨m5, e5, h5⟩ := rep_default hq h4 (bs "database.backup_dir") (fun m => some (m, some (dirDefault o.env o.profile o.isThere o.xapian (bs "XDG_DATA_HOME") (bs ".local/share") (bs "backups")))) _ (fun m hm => ⟨m, rfl, hm⟩)
  rw [e5]
  simp only [Option.bind_some]
  unfold loadDefaults
  obtain ⟨m6, e6, h6⟩ := rep_default hq h5 (bs "database.mail_root") (fun m => StringMap.get qs m (bs "database.path")) _ (fun m hm => rep_get hq hm _)
  rw [e6]
  simp only [Option.bind_some]
  obtain ⟨m7, e7, h7⟩ := rep_rest hq o.env o.pwName o.pwUser defaultKeys m6 _ h6 (by decide +kernel)
  refine ⟨m7, e7, rep_congr h7 (fun k => ?_)⟩
  have n1 : bs "database.path" ≠ bs "database.hook_dir" := by decide +kernel
  have n2 : bs "database.path" ≠ bs "database.backup_dir" := by decide +kernel
  have n3 : bs "database.mail_root" ≠ bs "database.hook_dir" := by decide +kernel
  have n4 : bs "database.mail_root" ≠ bs "database.backup_dir" := by decide +kernel
  have n5 : bs "database.backup_dir" ≠ bs "database.hook_dir" := by decide +kernel
  have n6 : bs "database.backup_dir" ≠ bs "database.mail_root" := by decide +kernel
  have n7 : bs "database.hook_dir" ≠ bs "database.mail_root" := by decide +kernel
  have n8 : bs "database.hook_dir" ≠ bs "database.backup_dir" := by decide +kernel
  have hdef : ∀ k, k ∉ defaultKeys → default o.env o.pwName o.pwUser k = none := by
    intro k hk
    unfold defaultKeys at hk
    simp only [List.mem_cons, List.not_mem_nil, or_false, not_or] at hk
    obtain ⟨a, b, c, d, e, f, g, h⟩ := hk
    unfold default
    rw [if_neg a, if_neg b, if_neg c, if_neg d, if_neg e, if_neg f, if_neg g, if_neg h]
  unfold value
  by_cases hh : k = bs "database.hook_dir"
  · subst hh
    have : bs "database.hook_dir" ∉ defaultKeys := by decide +kernel
    simp only [this, if_false, n7, n8, if_true]
    cases configured o (bs "database.hook_dir") <;> rfl
  by_cases hb : k = bs "database.backup_dir"
  · subst hb
    have : bs "database.backup_dir" ∉ defaultKeys := by decide +kernel
    simp only [this, if_false, n5, n6, if_true]
    cases configured o (bs "database.backup_dir") <;> rfl
  by_cases hm : k = bs "database.mail_root"
  · subst hm
    have : bs "database.mail_root" ∉ defaultKeys := by decide +kernel
    simp only [this, if_false, n1, n2, n3, n4, if_true, hdef _ this]
    cases configured o (bs "database.mail_root") <;> cases configured o (bs "database.path") <;> rfl
  simp only [hh, hb, hm, if_false]
  by_cases hk : k ∈ defaultKeys
  · simp only [hk, if_true]
    cases configured o k <;> simp only [firstSome, Option.or] <;> cases default o.env o.pwName o.pwUser k <;> rfl
  · simp only [hk, if_false, hdef k hk]
    cases configured o k <;> rfl

end Notmuch.Config
