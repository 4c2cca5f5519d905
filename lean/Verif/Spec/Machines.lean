import Verif.Model.Std

/-!
# Comparing machines
-/

namespace Verif.Spec
open Verif

/-- `P'` is at least as large a machine as `P`: wider `usize`, more memory, longer formats; and the program was built in the same way, or
overflow checks were on for `P`. -/
structure Larger (P P' : Platform) : Prop where
  usize : P.usizeMax ≤ P'.usizeMax
  alloc : ∀ n, P.alloc n = true → P'.alloc n = true
  fmt : P.fmtMax ≤ P'.fmtMax
  profile : P.profile = .debug ∨ P.profile = P'.profile

/-- What the first delivers, the second delivers as well. -/
def Carries {α : Type} (r r' : Res α) : Prop := ∀ x, r = .ok x → r' = .ok x

/-- If both deliver something, it is the same. -/
def Consistent {α : Type} (r r' : Res α) : Prop := ∀ x y, r = .ok x → r' = .ok y → x = y

end Verif.Spec
