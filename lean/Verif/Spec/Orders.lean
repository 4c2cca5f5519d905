import Verif.Spec.Format

/-!
# Specification: orders of records
-/

namespace Verif.Spec

/-- Equal numbers stand together. -/
def Grouped (l : List Nat) : Prop :=
  ∀ (i j k : Nat) c d, i < j → j < k → l[i]? = some c → l[j]? = some d → l[k]? = some c → d = c

end Verif.Spec
