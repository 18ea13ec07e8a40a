import Verif.Model.PatchName

/-!
# What a subject of a patch is
-/

namespace Notmuch.PatchNameSpec

/-- ASCII case: a case table. -/
def asciiCase (c : Char) : Char := c.toLower

/-- The first words of a subject in brackets, e.g. "[PATCH v2 3/7] ". -/
def bracketed (contents : List (List Char)) : List Char := contents.flatMap fun c => '[' :: c ++ [']', ' ']

/-- Words with a character between them. -/
def joined (sep : Char) : List (List Char) → List Char
  | [] => []
  | [w] => w
  | w :: ws => w ++ sep :: joined sep ws

/-- A word: letters, digits and underscores. -/
def Word (w : List Char) : Prop :=
  w ≠ [] ∧ ∀ c ∈ w, c ∈ "ABCDEFGHIJKLMNOPQRSTUVWXYZabcdefghijklmnopqrstuvwxyz0123456789_".toList

/-- A case table in which these characters have no other case. -/
def Sane (canon : Char → Char) : Prop := ∀ c ∈ [' ', '/', '\n', '\x00'], ∀ d, canon d = canon c → d = c

end Notmuch.PatchNameSpec
