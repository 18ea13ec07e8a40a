import Verif.Base.Bytes

/-! List facts used in several modules. -/

namespace Notmuch

theorem takeWhile_append_stop {α} (p : α → Bool) (l : List α) (x : α) (r : List α)
    (h : ∀ a ∈ l, p a = true) (hx : p x = false) : (l ++ x :: r).takeWhile p = l := by
  induction l with
  | nil => simp [hx]
  | cons a l ih =>
    have ha := h a (by simp)
    simp [ha, ih (fun b hb => h b (by simp [hb]))]

theorem dropWhile_append_stop {α} (p : α → Bool) (l : List α) (x : α) (r : List α)
    (h : ∀ a ∈ l, p a = true) (hx : p x = false) : (l ++ x :: r).dropWhile p = x :: r := by
  induction l with
  | nil => simp [hx]
  | cons a l ih =>
    have ha := h a (by simp)
    simp [ha, ih (fun b hb => h b (by simp [hb]))]

theorem takeWhile_eq_self_of {α} (p : α → Bool) (l : List α) (h : ∀ a ∈ l, p a = true) :
    l.takeWhile p = l := by
  induction l with
  | nil => rfl
  | cons a l ih => simp [h a (by simp), ih (fun b hb => h b (by simp [hb]))]

theorem dropWhile_eq_nil_of {α} (p : α → Bool) (l : List α) (h : ∀ a ∈ l, p a = true) :
    l.dropWhile p = [] := by
  induction l with
  | nil => rfl
  | cons a l ih => simp [h a (by simp), ih (fun b hb => h b (by simp [hb]))]

theorem dropWhile_eq_nil_all {α} (p : α → Bool) (l : List α) (h : l.dropWhile p = []) :
    ∀ a ∈ l, p a = true := by
  induction l with
  | nil => simp
  | cons a l ih =>
    by_cases ha : p a = true
    · simp [ha] at h ⊢; exact ih h
    · simp [ha] at h

theorem takeWhile_all {α} (p : α → Bool) (l : List α) : ∀ a ∈ l.takeWhile p, p a = true := by
  induction l with
  | nil => simp
  | cons a l ih =>
    by_cases ha : p a = true
    · simp only [List.takeWhile_cons, ha, if_true, List.mem_cons]
      rintro b (rfl | hb)
      · exact ha
      · exact ih b hb
    · simp [ha]

theorem dropWhile_head {α} (p : α → Bool) (l : List α) (x : α) (r : List α)
    (h : l.dropWhile p = x :: r) : p x = false := by
  induction l with
  | nil => simp at h
  | cons a l ih =>
    by_cases ha : p a = true
    · simp [ha] at h; exact ih h
    · simp [ha] at h; rw [← h.1]; simpa using ha

theorem dropWhile_cons_neg {α} (p : α → Bool) (x : α) (r : List α) (h : p x = false) :
    (x :: r).dropWhile p = x :: r := by simp [h]

theorem dropWhile_append_all {α} (p : α → Bool) (l r : List α)
    (h : ∀ a ∈ l, p a = true) : (l ++ r).dropWhile p = r.dropWhile p := by
  induction l with
  | nil => rfl
  | cons a l ih => simp [h a (by simp), ih (fun b hb => h b (by simp [hb]))]

theorem dropWhile_eq_self_of_head {α} (p : α → Bool) (l : List α)
    (h : ∀ c, l.head? = some c → p c = false) : l.dropWhile p = l := by
  cases l with
  | nil => rfl
  | cons a l => simp [h a rfl]

end Notmuch
