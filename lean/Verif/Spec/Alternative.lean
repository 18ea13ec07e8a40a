import Verif.Model.Alternative

/-!
# How much a type is discouraged
-/

namespace Notmuch.AlternativeSpec

variable {τ : Type}

/-- How much a type is discouraged: a preference that it matches counts more than all later ones together. -/
def cost : List (τ → Bool) → τ → Nat
  | [], _ => 0
  | p :: ps, t => (if p t then 2 ^ ps.length else 0) + cost ps t

end Notmuch.AlternativeSpec
