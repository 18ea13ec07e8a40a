import Verif.Proofs.Draft

namespace Notmuch.Draft
variable {fold : UInt8 → UInt8} {tags : List Str}

theorem firstLine_eq : ∀ (t l rest : Str), firstLine t = some (l, rest) → t = l ++ 10 :: rest
  | [], _, _, h => by cases h
  | c :: t, l, rest, h => by
    unfold firstLine at h
    split at h
    · rename_i hc; cases h; rw [hc]; rfl
    · cases ht : firstLine t with
      | none => rw [ht] at h; cases h
      | some p =>
        rw [ht] at h
        cases h
        have := firstLine_eq t p.1 p.2 ht
        rw [List.cons_append, ← this]

theorem firstLine_no : ∀ (t l rest : Str), firstLine t = some (l, rest) → 10 ∉ l
  | [], _, _, h => by cases h
  | c :: t, l, rest, h => by
    unfold firstLine at h
    split at h
    · cases h; simp
    · rename_i hc
      cases ht : firstLine t with
      | none => rw [ht] at h; cases h
      | some p =>
        rw [ht] at h
        cases h
        intro hm
        rcases List.mem_cons.1 hm with hm | hm
        · exact hc hm.symm
        · exact firstLine_no t p.1 p.2 ht hm

theorem secureTag_eq {t l rest : Str} (h : secureTag fold t = some (l, rest)) : t = l ++ 10 :: rest := by
  unfold secureTag at h
  cases hf : firstLine t with
  | none => rw [hf] at h; cases h
  | some p =>
    rw [hf] at h
    dsimp only at h
    split at h
    · cases h; exact firstLine_eq t _ _ hf
    · cases h

theorem body_roundtrip (hf : FoldOk fold) (ht : ∀ g ∈ tags, 60 ∉ g) (t : Str) :
    (if tags.isEmpty then (if tags.isEmpty then t else quote fold tags t.length t) else
      unquote fold tags (if tags.isEmpty then t else quote fold tags t.length t).length (if tags.isEmpty then t else quote fold tags t.length t)) = t := by
  cases tags.isEmpty with
  | true => rfl
  | false => exact unquote_quote hf ht _ _ _ (Nat.le_refl _) (Nat.le_refl _)

theorem removeHeader_append (a b : List (Str × Str)) (n : Str) : removeHeader (a ++ b) n = removeHeader a n ++ removeHeader b n := by
  unfold removeHeader; rw [List.filter_append]

theorem removeHeader_of_not {hs : List (Str × Str)} {n : Str} (h : hasHeader hs n = false) : removeHeader hs n = hs := by
  unfold removeHeader
  rw [List.filter_eq_self]
  intro a ha
  have := (List.any_eq_false.1 h) a ha
  simpa using this

theorem hasHeader_remove_self (hs : List (Str × Str)) (n : Str) : hasHeader (removeHeader hs n) n = false := by
  unfold hasHeader removeHeader
  rw [List.any_eq_false]
  intro a ha
  have := (List.mem_filter.1 ha).2
  simpa using this

theorem hasHeader_remove {hs : List (Str × Str)} {k n : Str} (h : hasHeader hs k = false) : hasHeader (removeHeader hs n) k = false := by
  unfold hasHeader removeHeader at *
  rw [List.any_eq_false] at *
  intro a ha
  exact h a (List.mem_filter.1 ha).1

theorem hasHeader_append (a b : List (Str × Str)) (n : Str) : hasHeader (a ++ b) n = (hasHeader a n || hasHeader b n) := by
  unfold hasHeader; rw [List.any_append]

theorem addHeader_of_not {hs : List (Str × Str)} {n v : Str} (h : hasHeader hs n = false) : addHeader hs n v = hs ++ [(n, v)] := by
  unfold addHeader; rw [h]; rfl

theorem removeHeader_comm (hs : List (Str × Str)) (a b : Str) : removeHeader (removeHeader hs a) b = removeHeader (removeHeader hs b) a := by
  unfold removeHeader
  rw [List.filter_filter, List.filter_filter]
  congr 1
  funext h
  rw [Bool.and_comm]

/-- The headers of what is saved, before the body is looked at. -/
theorem saved_headers (m : Msg) (id date : Str) (hd : hasHeader m.headers draftName = false) :
    addHeader (addHeader (removeHeader (addHeader (removeHeader m.headers idName) idName (bs "<" ++ id ++ bs ">")) dateName) dateName date) draftName (bs "True") =
      removeHeader (removeHeader m.headers idName) dateName ++ [(idName, bs "<" ++ id ++ bs ">"), (dateName, date), (draftName, bs "True")] := by
  have e1 : ∀ v, removeHeader [(idName, v)] dateName = [(idName, v)] := by
    intro v
    unfold removeHeader
    rw [List.filter_cons, List.filter_nil, show (!sameName (idName, v).1 dateName) = true from by show (!sameName idName dateName) = true; decide +kernel]
    rfl
  rw [addHeader_of_not (hasHeader_remove_self m.headers idName), removeHeader_append, e1]
  have h1 : hasHeader (removeHeader (removeHeader m.headers idName) dateName ++ [(idName, bs "<" ++ id ++ bs ">")]) dateName = false := by
    rw [hasHeader_append, hasHeader_remove_self]
    show (false || (sameName idName dateName || false)) = false
    decide +kernel
  rw [addHeader_of_not h1, addHeader_of_not]
  · simp
  · rw [hasHeader_append, hasHeader_append, hasHeader_remove (hasHeader_remove hd)]
    show (false || sameName idName draftName || false || (sameName dateName draftName || false)) = false
    decide +kernel

theorem filter_names (v1 v2 v3 : Str) (k : Str) (b1 b2 b3 : Bool) (h1 : sameName idName k = b1) (h2 : sameName dateName k = b2) (h3 : sameName draftName k = b3) :
    removeHeader [(idName, v1), (dateName, v2), (draftName, v3)] k =
      (if b1 then [] else [(idName, v1)]) ++ (if b2 then [] else [(dateName, v2)]) ++ (if b3 then [] else [(draftName, v3)]) := by
  subst h1; subst h2; subst h3
  unfold removeHeader
  simp only [List.filter_cons, List.filter_nil]
  cases sameName idName k <;> cases sameName dateName k <;> cases sameName draftName k <;> rfl

/-- What is resumed is what was saved. -/
theorem resume_saved (hf : FoldOk fold) (ht : ∀ g ∈ tags, 60 ∉ g) (m : Msg) (id date : Str) (hs : hasHeader m.headers secureName = false) (hd : hasHeader m.headers draftName = false) :
    resumed fold tags (saved fold tags id date m) = ({ headers := removeHeader (removeHeader m.headers idName) dateName, body := m.body }, true) := by
  let H := removeHeader (removeHeader m.headers idName) dateName
  let T : List (Str × Str) := [(idName, bs "<" ++ id ++ bs ">"), (dateName, date), (draftName, bs "True")]
  have hHs : hasHeader H secureName = false := hasHeader_remove (hasHeader_remove hs)
  have hHd : hasHeader H draftName = false := hasHeader_remove (hasHeader_remove hd)
  have hHi : hasHeader H idName = false := hasHeader_remove (hasHeader_remove_self _ _)
  have hHt : hasHeader H dateName = false := hasHeader_remove_self _ _
  have hTs : hasHeader (H ++ T) secureName = false := by
    rw [hasHeader_append, hHs]
    show (false || (sameName idName secureName || (sameName dateName secureName || (sameName draftName secureName || false)))) = false
    decide +kernel
  -- removing the three headers
  have strip : ∀ S : List (Str × Str), (∀ h ∈ S, h.1 = secureName) → removeHeader (removeHeader (H ++ T ++ S) idName) dateName = H ++ [(draftName, bs "True")] ++ S ∧
      removeHeader (H ++ [(draftName, bs "True")] ++ S) draftName = H ++ S := by
    intro S hS
    have hSk : ∀ k, sameName secureName k = false → removeHeader S k = S := by
      intro k hk
      unfold removeHeader
      rw [List.filter_eq_self]
      intro a ha
      rw [hS a ha, hk]; rfl
    have f1 : removeHeader T idName = [(dateName, date), (draftName, bs "True")] :=
      filter_names _ _ _ idName true false false (by decide +kernel) (by decide +kernel) (by decide +kernel)
    have f2 : removeHeader [(dateName, date), (draftName, bs "True")] dateName = [(draftName, bs "True")] := by
      have := filter_names (bs "") date (bs "True") dateName false true false (by decide +kernel) (by decide +kernel) (by decide +kernel)
      unfold removeHeader at this ⊢
      rw [List.filter_cons, show (!sameName (idName, bs "").1 dateName) = true from by decide +kernel] at this
      simpa using this
    have f3 : removeHeader [(draftName, bs "True")] draftName = [] := by decide +kernel
    constructor
    · rw [removeHeader_append (H ++ T), removeHeader_append H, removeHeader_of_not hHi, f1, hSk idName (by decide +kernel), removeHeader_append, removeHeader_append, removeHeader_of_not hHt, f2,
        hSk dateName (by decide +kernel)]
    · rw [removeHeader_append, removeHeader_append, removeHeader_of_not hHd, f3, hSk draftName (by decide +kernel), List.append_nil]
  have hdraft : ∀ S, hasHeader (H ++ [(draftName, bs "True")] ++ S) draftName = true := by
    intro S
    rw [hasHeader_append, hasHeader_append, show hasHeader [(draftName, bs "True")] draftName = true from by decide +kernel, Bool.or_true, Bool.true_or]
  unfold saved
  dsimp only
  rw [saved_headers m id date hd]
  show resumed fold tags (quoteMml fold tags { m with headers := H ++ T }) = ({ headers := H, body := m.body }, true)
  cases hsec : secureTag fold m.body with
  | none =>
    have hq : quoteMml fold tags { m with headers := H ++ T } = { headers := H ++ T, body := if tags.isEmpty then m.body else quote fold tags m.body.length m.body } := by
      unfold quoteMml
      dsimp only
      rw [hsec]
      cases tags.isEmpty <;> rfl
    rw [hq]
    unfold resumed
    dsimp only
    have st := strip [] (by simp)
    simp only [List.append_nil] at st
    have hd2 := hdraft []
    simp only [List.append_nil] at hd2
    rw [st.1, hd2, st.2, if_pos rfl]
    congr 1
    unfold unquoteMml
    have hfind : H.find? (fun h => sameName h.1 secureName) = none := by
      rw [List.find?_eq_none]
      intro x hx
      exact List.any_eq_false.1 hHs x hx
    dsimp only
    rw [hfind]
    dsimp only
    rw [body_roundtrip hf ht]
  | some p =>
    obtain ⟨l, rest⟩ := p
    have hb := secureTag_eq hsec
    have hq : quoteMml fold tags { m with headers := H ++ T } = { headers := H ++ T ++ [(secureName, l)], body := if tags.isEmpty then rest else quote fold tags rest.length rest } := by
      unfold quoteMml
      dsimp only
      rw [hsec]
      dsimp only
      rw [addHeader_of_not hTs]
      cases tags.isEmpty <;> rfl
    rw [hq]
    unfold resumed
    dsimp only
    have st := strip [(secureName, l)] (by simp)
    rw [st.1, hdraft, st.2, if_pos rfl]
    congr 1
    unfold unquoteMml
    have hfind : (H ++ [(secureName, l)]).find? (fun h => sameName h.1 secureName) = some (secureName, l) := by
      rw [List.find?_append, List.find?_eq_none.2 (fun x hx => List.any_eq_false.1 hHs x hx)]
      show (none : Option (Str × Str)).or (List.find? _ [(secureName, l)]) = _
      rw [Option.none_or, List.find?_cons_of_pos]
      show sameName secureName secureName = true
      decide +kernel
    dsimp only
    rw [hfind]
    dsimp only
    rw [body_roundtrip hf ht, removeHeader_append, removeHeader_of_not hHs, show removeHeader [(secureName, l)] secureName = [] from by
      unfold removeHeader
      rw [List.filter_cons_of_neg, List.filter_nil]
      show ¬ ((!sameName secureName secureName) = true)
      decide +kernel]
    rw [hb]
    simp

end Notmuch.Draft
