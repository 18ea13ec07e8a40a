import Verif.Proofs.NewRun

/-! # `notmuch new`: small mail stores for the examples -/

namespace Notmuch.New
open Notmuch.StringMap Notmuch.StringMapSpec
open Notmuch.TermList (lt_irrefl' lt_trans' not_lt_iff)

def insertName (n : Str) : List Str → List Str
  | [] => [n]
  | m :: l => if strcmp n m ≠ .gt then n :: m :: l else m :: insertName n l

def sortNames : List Str → List Str
  | [] => []
  | n :: l => insertName n (sortNames l)

theorem insertName_perm (n : Str) : ∀ l, (insertName n l).Perm (n :: l)
  | [] => List.Perm.refl _
  | m :: l => by
    unfold insertName
    split
    · exact List.Perm.refl _
    · exact ((insertName_perm n l).cons m).trans (List.Perm.swap n m l)

theorem sortNames_perm : ∀ l, (sortNames l).Perm l
  | [] => List.Perm.refl _
  | n :: l => (insertName_perm n _).trans ((sortNames_perm l).cons n)

theorem not_gt_trans {a b c : Str} (h : strcmp a b ≠ .gt) (g : strcmp b c ≠ .gt) : strcmp a c ≠ .gt := by
  have key : ∀ x y : Str, strcmp x y ≠ .gt ↔ LexLe x y := fun x y => by rw [Ne, strcmp_gt_lt]; exact not_lt_iff y x
  rw [key] at *
  exact lexLe_trans _ _ _ h g

theorem insertName_sorted {n : Str} : ∀ {l : List Str}, l.Pairwise (fun a b => strcmp a b ≠ .gt) → (insertName n l).Pairwise (fun a b => strcmp a b ≠ .gt)
  | [], _ => List.pairwise_singleton _ _
  | m :: l, h => by
    unfold insertName
    split
    · rename_i c
      refine List.pairwise_cons.2 ⟨?_, h⟩
      intro x hx
      rcases List.mem_cons.1 hx with rfl | hx
      · exact c
      · exact not_gt_trans c ((List.pairwise_cons.1 h).1 x hx)
    · rename_i c
      refine List.pairwise_cons.2 ⟨?_, insertName_sorted (List.pairwise_cons.1 h).2⟩
      intro x hx
      rcases List.mem_cons.1 ((insertName_perm n l).mem_iff.1 hx) with rfl | hx
      · rw [Ne, strcmp_gt_lt]
        intro h1
        exact c (by rw [Ne, strcmp_gt_lt]; intro h2; exact lt_irrefl' _ (lt_trans' h1 h2))
      · exact (List.pairwise_cons.1 h).1 x hx

theorem sortNames_sorted : ∀ l, (sortNames l).Pairwise (fun a b => strcmp a b ≠ .gt)
  | [] => List.Pairwise.nil
  | _ :: l => insertName_sorted (sortNames_sorted l)

/-- A mail store: directories with their names and mtimes, and files. -/
def tree (dirs : List (Path × List Str × Nat)) (files : List Path) (other : Nat) : Fs where
  kind p := if p ∈ dirs.map (·.1) then .dir else if p ∈ files then .file else .other
  list p := ((dirs.find? (·.1 = p)).map (·.2.1)).getD []
  mtime p := ((dirs.find? (·.1 = p)).map (·.2.2)).getD other
  nlink _ := 3

def envOf (fs : Fs) (t : Nat) : Env := ⟨fs, sortNames, fun _ => id, fun _ _ => false, fun _ _ => .added, fun _ => t, false⟩

theorem sane_tree (dirs : List (Path × List Str × Nat)) (files : List Path) (other t : Nat) (h1 : ∀ d ∈ dirs, d.2.1.Nodup) (h2 : ∀ d ∈ dirs, d.2.2 ≠ 0)
    (h3 : other ≠ 0) : Sane (envOf (tree dirs files other) t) := by
  refine ⟨⟨sortNames_perm, sortNames_sorted, fun _ _ => List.Perm.refl _, ?_⟩, ?_, ?_⟩
  · intro p
    show (((dirs.find? (·.1 = p)).map (·.2.1)).getD []).Nodup
    cases e : dirs.find? (·.1 = p) with
    | none => simp
    | some d => exact h1 d (List.mem_of_find?_eq_some e)
  · intro p
    show ((dirs.find? (·.1 = p)).map (·.2.2)).getD other ≠ 0
    cases e : dirs.find? (·.1 = p) with
    | none => exact h3
    | some d => exact h2 d (List.mem_of_find?_eq_some e)
  · intro p n h
    cases h

theorem run_of {α : Type} {o : Option (Bool × St)} {f : Bool × St → α} {v : α} (h : o.map f = some v) : ∃ ok st, o = some (ok, st) ∧ f (ok, st) = v := by
  cases o with
  | none => cases h
  | some r => exact ⟨r.1, r.2, rfl, by simpa using h⟩

theorem dbOk_empty : DbOk emptyDb := by
  refine ⟨fun _ => List.Pairwise.nil, fun _ => List.Pairwise.nil, ?_, ?_, ?_⟩ <;> simp [emptyDb]

theorem fresh_empty (E : Env) : Fresh E emptyDb := by simp [emptyDb, Fresh]

end Notmuch.New
