import Mathlib.Data.Finset.Card
import Mathlib.Data.Finset.Prod
import Verif.Model.F64

/-!
# Specification: square blocks of an adjacency relation
-/

namespace Verif.Spec

/-- Number of edges in the `b × b` block with block column `c` and block row `r`: edges from
`c*b + i` to `r*b + j` with `i, j < b`. -/
def blockCount (edge : Nat → Nat → Bool) (b c r : Nat) : Nat :=
  ((Finset.range b ×ˢ Finset.range b).filter fun p => edge (c * b + p.1) (r * b + p.2) = true).card

/-- `⌈n / b⌉`. -/
def ceilDiv (n b : Nat) : Nat := (n + b - 1) / b

/-- The documented block dimension: at least one, at most the number of vertices. -/
def effBlock (n b : Nat) : Nat := max 1 (min b n)

/-- The double nearest to `10^-18` (`C44_tiny` shows that it is). -/
def tiny : ℚ := 1298074214633707 / 2 ^ 110

/-- The threshold in effect: above one it is one, zero or below it is `10^-18`. -/
def effThreshold : F64 → F64
  | .nan => .nan
  | .inf true => .fin tiny
  | .inf false => .fin 1
  | .fin q => if 1 < q then .fin 1 else if q ≤ 0 then .fin tiny else .fin q

end Verif.Spec
