import Verif.Spec.Config
import Verif.Props.StringMap

namespace Notmuch.Config

open Notmuch.StringMap Notmuch.StringMapSpec
open Notmuch.Props

/-! ## The map as a function -/

/-- The map has each key at most once, with the value that `f` gives. -/
def Rep (m : Map) (f : Str → Option Str) : Prop := StringMap.Inv m ∧ (m.pairs.map (·.1)).Nodup ∧ ∀ k v, (k, v) ∈ m.pairs ↔ f k = some v

def put (f : Str → Option Str) (k v : Str) : Str → Option Str := fun x => if x = k then some v else f x

theorem rep_congr {m : Map} {f g : Str → Option Str} (h : Rep m f) (e : ∀ k, f k = g k) : Rep m g := by
  have : f = g := funext e
  exact this ▸ h

theorem rep_create : Rep create (fun _ => none) := ⟨smInv_create, by simp [create], by simp [create]⟩

variable {qs : List Pair → List Pair} (hq : QSort cmppair qs)
include hq

theorem rep_get {m : Map} {f : Str → Option Str} (h : Rep m f) (k : Str) : ∃ m', StringMap.get qs m k = some (m', f k) ∧ Rep m' f := by
  obtain ⟨h1, h2, h3⟩ := h
  obtain ⟨m', r, hg, hm', hin, hnone, _⟩ := smGet_spec hq h1 k
  have hr : r = f k := by
    cases r with
    | some v => exact ((h3 k v).1 (hin v rfl)).symm
    | none =>
      cases hf : f k with
      | none => rfl
      | some v => exact absurd ((h3 k v).2 hf) (hnone rfl v)
  have hp := (sort_spec hq h1).2.1
  refine ⟨m', by rw [hg, hr], ?_, ?_, ?_⟩
  · rw [hm']; exact (sort_spec hq h1).2.2
  · rw [hm']; exact (hp.map _).nodup_iff.2 h2
  · intro k' v; rw [hm', hp.mem_iff]; exact h3 k' v

theorem rep_set {m : Map} {f : Str → Option Str} (h : Rep m f) (k v : Str) : ∃ m', StringMap.set qs m k v = some m' ∧ Rep m' (put f k v) := by
  obtain ⟨h1, h2, h3⟩ := h
  obtain ⟨m', hs, hi, hc⟩ := smSet_spec hq h1 k v
  refine ⟨m', hs, hi, ?_, ?_⟩
  · rcases hc with ⟨habs, hp⟩ | ⟨w, rest, hp1, hp2⟩
    · rw [(hp.map _).nodup_iff, List.map_cons, List.nodup_cons]
      refine ⟨?_, h2⟩
      intro hmem
      obtain ⟨p, hp, hpe⟩ := List.mem_map.1 hmem
      exact habs p.2 (by have e : p.1 = k := hpe; rw [← e]; exact hp)
    · rw [(hp2.map _).nodup_iff]
      have := (hp1.map (fun p : Pair => p.1)).nodup_iff.1 h2
      simpa using this
  · intro k' v'
    unfold put
    rcases hc with ⟨habs, hp⟩ | ⟨w, rest, hp1, hp2⟩
    · rw [hp.mem_iff]
      by_cases hk : k' = k
      · subst hk
        simp only [List.mem_cons, Prod.mk.injEq, true_and, if_true, Option.some.injEq]
        constructor
        · rintro (h | h)
          · exact h.symm
          · exact absurd h (habs _)
        · rintro rfl; simp
      · simp [hk, h3]
    · rw [hp2.mem_iff]
      have hnd2 := (hp1.map (fun p : Pair => p.1)).nodup_iff.1 h2
      rw [List.map_cons, List.nodup_cons] at hnd2
      by_cases hk : k' = k
      · subst hk
        simp only [List.mem_cons, Prod.mk.injEq, true_and, if_true, Option.some.injEq]
        constructor
        · rintro (h | h)
          · exact h.symm
          · exact absurd (List.mem_map_of_mem (f := fun p : Pair => p.1) h) hnd2.1
        · rintro rfl; simp
      · rw [if_neg hk, ← h3, hp1.mem_iff]
        simp [hk]

omit hq in
theorem rep_append {m : Map} {f : Str → Option Str} (h : Rep m f) (k v : Str) (hn : f k = none) : Rep (append m k v) (put f k v) := by
  obtain ⟨h1, h2, h3⟩ := h
  refine ⟨(fun hs => by cases hs), ?_, ?_⟩
  · show ((m.pairs ++ [(k, v)]).map (·.1)).Nodup
    rw [List.map_append, List.nodup_append]
    refine ⟨h2, by simp, ?_⟩
    intro a ha b hb hab
    obtain rfl : b = k := by simpa using hb
    subst hab
    obtain ⟨p, hp, hpe⟩ := List.mem_map.1 ha
    have := (h3 p.1 p.2).1 hp
    rw [hpe, hn] at this
    cases this
  · intro k' v'
    show (k', v') ∈ m.pairs ++ [(k, v)] ↔ _
    unfold put
    rw [List.mem_append, h3]
    by_cases hk : k' = k
    · subst hk
      simp [hn, eq_comm]
    · simp [hk]

theorem rep_default {m : Map} {f : Str → Option Str} (h : Rep m f) (k : Str) (val : Map → Option (Map × Option Str)) (v : Option Str)
    (hv : ∀ m, Rep m f → ∃ m', val m = some (m', v) ∧ Rep m' f) :
    ∃ m', setDefault qs m k val = some m' ∧ Rep m' (fun x => if x = k then (f k).or v else f x) := by
  obtain ⟨m1, hg, h1⟩ := rep_get hq h k
  unfold setDefault
  rw [hg]
  simp only [Option.bind_some]
  cases hf : f k with
  | some w =>
    refine ⟨m1, by simp, ?_⟩
    have : (fun x => if x = k then (some w).or v else f x) = f := by
      funext x
      by_cases hx : x = k
      · rw [if_pos hx, hx, hf]; rfl
      · rw [if_neg hx]
    rw [this]
    exact h1
  | none =>
    obtain ⟨m2, hv2, h2⟩ := hv m1 h1
    rw [hv2]
    simp only [Option.isSome_none, Bool.false_eq_true, if_false, Option.bind_some]
    cases v with
    | none =>
      refine ⟨m2, by simp, ?_⟩
      have : (fun x => if x = k then (none : Option Str).or none else f x) = f := by
        funext x
        by_cases hx : x = k
        · rw [if_pos hx, hx, hf]; rfl
        · rw [if_neg hx]
      rw [this]
      exact h2
    | some w =>
      obtain ⟨m3, hs, h3⟩ := rep_set hq h2 k w
      refine ⟨m3, by simpa using hs, ?_⟩
      have : (fun x => if x = k then (none : Option Str).or (some w) else f x) = put f k w := by
        funext x
        unfold put
        by_cases hx : x = k
        · rw [if_pos hx, if_pos hx]; rfl
        · rw [if_neg hx, if_neg hx]
      rw [this]
      exact h3

omit hq in
/-- What `loadDb` makes of `f`. -/
theorem rep_loadDb (e : Env) (arg : Bool) : ∀ (l : List (Str × Str)) (m : Map) (f : Str → Option Str), Rep m f → (l.map (·.1)).Nodup →
    (∀ x ∈ l, (x.1 = bs "database.path" ∧ arg = true) ∨ f x.1 = none) →
    Rep (loadDb e arg m l) (fun k => if k = bs "database.path" ∧ arg = true then f k else ((dbValue l k).map (expandPath e k)).or (f k))
  | [], m, f, h, _, _ => by
    have : (fun k => if k = bs "database.path" ∧ arg = true then f k else ((dbValue [] k).map (expandPath e k)).or (f k)) = f := by
      funext k
      simp [dbValue]
    rw [this]
    exact h
  | x :: l, m, f, h, hnd, hn => by
    rw [List.map_cons, List.nodup_cons] at hnd
    unfold loadDb
    rw [List.foldl_cons]
    by_cases hx : x.1 = bs "database.path" ∧ arg = true
    · rw [if_pos hx]
      have := rep_loadDb e arg l m f h hnd.2 (fun y hy => hn y (List.mem_cons_of_mem _ hy))
      unfold loadDb at this
      refine rep_congr this (fun k => ?_)
      split
      · rfl
      · rename_i hk
        have : x.1 ≠ k := fun he => hk ⟨he ▸ hx.1, hx.2⟩
        simp [dbValue, this]
    · rw [if_neg hx]
      have hf : f x.1 = none := (hn x List.mem_cons_self).resolve_left hx
      have hr := rep_append h x.1 (expandPath e x.1 x.2) hf
      have := rep_loadDb e arg l _ _ hr hnd.2 (fun y hy => ?_)
      · unfold loadDb at this
        refine rep_congr this (fun k => ?_)
        unfold put
        by_cases hk : k = x.1
        · subst hk
          rw [if_neg hx, if_neg hx]
          have hl : dbValue l x.1 = none := by
            unfold dbValue
            rw [Option.map_eq_none_iff, List.find?_eq_none]
            intro y hy he
            exact hnd.1 (List.mem_map.2 ⟨y, hy, by simpa using he⟩)
          rw [hl]
          simp [dbValue]
        · have : x.1 ≠ k := fun he => hk he.symm
          simp [hk, dbValue, this]
      · rcases hn y (List.mem_cons_of_mem _ hy) with h1 | h1
        · exact Or.inl h1
        · refine Or.inr ?_
          unfold put
          rw [if_neg]
          · exact h1
          · intro he
            exact hnd.1 (List.mem_map.2 ⟨y, hy, he⟩)

/-- What `loadFile` makes of `f`. -/
theorem rep_loadFile (e : Env) (arg : Bool) : ∀ (l : List (Str × Str × Str)) (m : Map) (f : Str → Option Str), Rep m f →
    ∃ m', loadFile qs e arg m l = some m' ∧
      Rep m' (fun k => if k = bs "database.path" ∧ arg = true then f k else ((fileValue l k).map (expandPath e k)).or (f k))
  | [], m, f, h => by
    refine ⟨m, rfl, ?_⟩
    have : (fun k => if k = bs "database.path" ∧ arg = true then f k else ((fileValue [] k).map (expandPath e k)).or (f k)) = f := by
      funext k
      simp [fileValue]
    rw [this]
    exact h
  | x :: l, m, f, h => by
    have hfv : ∀ k, fileValue (x :: l) k = (fileValue l k).or (if absoluteKey x = k then some x.2.2 else none) := by
      intro k
      unfold fileValue absoluteKey
      rw [List.filter_cons]
      by_cases hk : x.1 ++ bs "." ++ x.2.1 = k
      · rw [if_pos hk, if_pos (by simpa using hk)]
        cases hl : l.filter (fun x => decide (x.1 ++ bs "." ++ x.2.1 = k)) with
        | nil => rfl
        | cons y ys =>
          rw [List.getLast?_cons_cons]
          cases hg : (y :: ys).getLast? with
          | none => simp at hg
          | some z => rfl
      · rw [if_neg hk, if_neg (by simpa using hk)]
        simp
    unfold loadFile
    by_cases hx : absoluteKey x = bs "database.path" ∧ arg = true
    · rw [if_pos hx]
      obtain ⟨m', h1, h2⟩ := rep_loadFile e arg l m f h
      refine ⟨m', h1, ?_⟩
      refine rep_congr h2 (fun k => ?_)
      split
      · rfl
      · rename_i hk
        have : absoluteKey x ≠ k := fun he => hk ⟨he ▸ hx.1, hx.2⟩
        rw [hfv, if_neg this]
        simp
    · rw [if_neg hx]
      obtain ⟨m1, hs, h1⟩ := rep_set hq h (absoluteKey x) (expandPath e (absoluteKey x) x.2.2)
      rw [hs]
      simp only [Option.bind_some]
      obtain ⟨m', h2, h3⟩ := rep_loadFile e arg l m1 _ h1
      refine ⟨m', h2, ?_⟩
      refine rep_congr h3 (fun k => ?_)
      rw [hfv]
      unfold put
      by_cases hk : k = absoluteKey x
      · subst hk
        rw [if_neg hx, if_neg hx]
        simp only [if_true]
        cases fileValue l (absoluteKey x) <;> rfl
      · have hk' : absoluteKey x ≠ k := fun he => hk he.symm
        simp only [hk, hk', if_false, Option.or_none]

theorem rep_rest (e : Env) (pwName pwUser : Str) : ∀ (l : List Str) (m : Map) (f : Str → Option Str), Rep m f → l.Nodup →
    ∃ m', loadRest qs e pwName pwUser m l = some m' ∧ Rep m' (fun k => if k ∈ l then (f k).or (default e pwName pwUser k) else f k)
  | [], m, f, h, _ => ⟨m, rfl, by simpa using h⟩
  | k :: l, m, f, h, hnd => by
    rw [List.nodup_cons] at hnd
    obtain ⟨m1, h1, h2⟩ := rep_default hq h k (fun m => some (m, default e pwName pwUser k)) (default e pwName pwUser k) (fun m hm => ⟨m, rfl, hm⟩)
    obtain ⟨m2, h3, h4⟩ := rep_rest e pwName pwUser l m1 _ h2 hnd.2
    refine ⟨m2, by unfold loadRest; rw [h1]; exact h3, ?_⟩
    refine rep_congr h4 (fun x => ?_)
    by_cases hx : x = k
    · subst hx
      simp [hnd.1]
    · simp [hx]

end Notmuch.Config
