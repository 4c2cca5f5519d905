import Verif.Spec.Blocks

/-!
# Specification: the edges that one relation has and another has not (C130)
-/

namespace Verif.Spec

/-- The number of pairs below `n` that are edges of the first relation and not of the second. -/
def missing (n : Nat) (edge kept : Nat → Nat → Bool) : Nat :=
  ((Finset.range n ×ˢ Finset.range n).filter fun p => edge p.1 p.2 = true ∧ kept p.1 p.2 = false).card

/-- The blocks of side `b` that cover `n` vertices, each by its column and row. -/
def blocks (n b : Nat) : Finset (Nat × Nat) := Finset.range (ceilDiv n b) ×ˢ Finset.range (ceilDiv n b)

end Verif.Spec
