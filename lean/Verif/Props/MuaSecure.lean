import Verif.Proofs.MuaSecure

/-! C93: the checks of <#secure> tags before a message is sent from Emacs. -/
namespace Notmuch.Props
open Notmuch.MuaSecure

/-- `<#secure`, in whatever case, stands at position `i` of the text. -/
def C93At (fold : Char → Char) (text : List Char) (i : Nat) : Prop :=
  ∃ before tag after, text = before ++ tag ++ after ∧ before.length = i ∧ tag.map fold = "<#secure".toList.map fold

/-- The body begins with a whole tag and a newline: `<#secure`, characters but newline and `>`, then `>` and newline. -/
def C93Whole (fold : Char → Char) (text : List Char) (body : Nat) : Prop :=
  ∃ before tag attrs after, text = before ++ tag ++ attrs ++ '>' :: '\n' :: after ∧ before.length = body ∧
    tag.map fold = "<#secure".toList.map fold ∧ ∀ c, c ∈ attrs → c ≠ '\n' ∧ c ≠ '>'

theorem c93At_iff (fold : Char → Char) (text : List Char) (i : Nat) : C93At fold text i ↔ startsWith fold secure (text.drop i) = true := by
  have hlen : secure.length = 8 := by decide
  constructor
  · rintro ⟨b, t, a, rfl, rfl, h⟩
    rw [MuaSecure.Proofs.startsWith_iff]
    exact ⟨t, a, by simp [List.append_assoc], h⟩
  · intro h
    have hle := MuaSecure.Proofs.occurs_le h
    obtain ⟨t, a, h1, h2⟩ := (MuaSecure.Proofs.startsWith_iff fold secure _).1 h
    refine ⟨text.take i, t, a, ?_, ?_, h2⟩
    · rw [List.append_assoc, ← h1, List.take_append_drop]
    · rw [List.length_take]; omega

theorem c93Whole_iff (fold : Char → Char) (text : List Char) (body : Nat) :
    C93Whole fold text body ↔ (startsWith fold secure (text.drop body) = true ∧
      ∃ attrs rest, text.drop (body + secure.length) = attrs ++ '>' :: '\n' :: rest ∧ ∀ c, c ∈ attrs → c ≠ '\n' ∧ c ≠ '>') := by
  have hlen : secure.length = 8 := by decide
  constructor
  · rintro ⟨b, t, as, a, rfl, rfl, h, h2⟩
    have ht : t.length = secure.length := by have := congrArg List.length h; rw [hlen]; simpa using this
    refine ⟨?_, as, a, ?_, h2⟩
    · rw [MuaSecure.Proofs.startsWith_iff]
      exact ⟨t, as ++ '>' :: '\n' :: a, by simp [List.append_assoc], h⟩
    · rw [← ht, show b ++ t ++ as ++ '>' :: '\n' :: a = (b ++ t) ++ (as ++ '>' :: '\n' :: a) by simp [List.append_assoc],
        ← List.length_append, List.drop_left]
  · rintro ⟨h, as, a, h1, h2⟩
    have hle := MuaSecure.Proofs.occurs_le h
    obtain ⟨t, r, h3, h4⟩ := (MuaSecure.Proofs.startsWith_iff fold secure _).1 h
    have ht : t.length = secure.length := by have := congrArg List.length h4; simpa using this
    refine ⟨text.take body, t, as, a, ?_, ?_, h4, h2⟩
    · have h5 : r = as ++ '>' :: '\n' :: a := by
        rw [← h1, ← List.drop_drop, h3, ← ht, List.drop_left]
      calc text = text.take body ++ text.drop body := (List.take_append_drop _ _).symm
        _ = _ := by rw [h3, h5]; simp [List.append_assoc]
    · rw [List.length_take]; omega

/-- The message is sent without a question exactly if there is no `<#secure` in it, neither in the headers nor in the body, or there is just one, at the
beginning of the body, and it is whole and ends its line. -/
theorem C93_silent (fold : Char → Char) (hf : ∀ c, c ∈ "#secure".toList → fold c ≠ fold '<') (text : List Char) (body : Nat) (y1 y2 : Bool) :
    ((sendCommon fold text body y1 y2).asked = 0 ↔
      ((∀ i, C93At fold text i → i = body) ∧ (C93At fold text body → C93Whole fold text body))) ∧
    ((sendCommon fold text body y1 y2).asked = 0 → (sendCommon fold text body y1 y2).sent = true) := by
  have hp := MuaSecure.Proofs.placed_iff hf text body
  have hn := MuaSecure.Proofs.hasNewline_iff fold text body
  have hn' : hasNewline fold text body = true ↔ (C93At fold text body → C93Whole fold text body) := by
    rw [hn, c93At_iff, c93Whole_iff]
    exact ⟨fun h a => ⟨a, h a⟩, fun h a => (h a).2⟩
  have hp' : placed fold text body = true ↔ ∀ i, C93At fold text i → i = body := by
    rw [hp]; simp only [c93At_iff]
  rw [← hp', ← hn']
  unfold sendCommon
  cases placed fold text body <;> cases hasNewline fold text body <;> cases y1 <;> cases y2 <;> simp

/-- Otherwise it is sent only if the user said yes to each question asked, of which there is one or two. -/
theorem C93_asked (fold : Char → Char) (text : List Char) (body : Nat) :
    (sendCommon fold text body false false).sent = true → (sendCommon fold text body false false).asked = 0 := by
  unfold sendCommon
  cases placed fold text body <;> cases hasNewline fold text body <;> simp

/-- Two answers of yes send every message; and an answer is of no use for the other question. -/
theorem C93_answers (fold : Char → Char) (hf : ∀ c, c ∈ "#secure".toList → fold c ≠ fold '<') (text : List Char) (body : Nat) :
    (sendCommon fold text body true true).sent = true ∧
    ((sendCommon fold text body true false).sent = true ↔ (C93At fold text body → C93Whole fold text body)) ∧
    ((sendCommon fold text body false true).sent = true ↔ ∀ i, C93At fold text i → i = body) := by
  have hp := MuaSecure.Proofs.placed_iff hf text body
  have hn := MuaSecure.Proofs.hasNewline_iff fold text body
  have hn' : hasNewline fold text body = true ↔ (C93At fold text body → C93Whole fold text body) := by
    rw [hn, c93At_iff, c93Whole_iff]
    exact ⟨fun h a => ⟨a, h a⟩, fun h a => (h a).2⟩
  have hp' : placed fold text body = true ↔ ∀ i, C93At fold text i → i = body := by
    rw [hp]; simp only [c93At_iff]
  rw [← hp', ← hn']
  unfold sendCommon
  cases placed fold text body <;> cases hasNewline fold text body <;> simp

theorem C93_example :
    (∀ c, c ∈ "#secure".toList → Char.toLower c ≠ Char.toLower '<') ∧
    sendCommon Char.toLower "To: x\n--\n<#secure method=pgpmime mode=sign>\nhi".toList 9 false false = ⟨0, true⟩ ∧
    sendCommon Char.toLower "To: x\n--\nhi <#Secure mode=sign>\n".toList 9 false false = ⟨1, false⟩ ∧
    sendCommon Char.toLower "To: x\n--\n<#secure mode=sign> hi".toList 9 false false = ⟨1, false⟩ ∧
    sendCommon Char.toLower "To: <#secure>\n--\n<#secure mode=sign>\n".toList 17 true false = ⟨1, true⟩ ∧
    sendCommon Char.toLower "To: x\n--\nhi".toList 9 false false = ⟨0, true⟩ := by
  refine ⟨?_, ?_, ?_, ?_, ?_, ?_⟩ <;> decide +kernel

/-- A tag spelled otherwise, as `<# secure`, is not noticed. -/
theorem C93_spelling_counterexample : sendCommon Char.toLower "To: x\n--\n<# secure mode=sign>\n".toList 9 false false = ⟨0, true⟩ := by decide +kernel

end Notmuch.Props
