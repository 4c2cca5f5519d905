import Verif.Model.F64

/-! # Specification: which values an `f32` can hold -/

namespace Verif.Spec

/-- `q` is a finite binary32 number: a significand of at most 24 bits times a power of two, exponent at least
`-149`, magnitude below `2^128`. -/
def IsF32Q (q : ℚ) : Prop := ∃ s e : ℤ, q = s * 2 ^ e ∧ |s| < 2 ^ 24 ∧ -149 ≤ e ∧ |q| < 2 ^ 128

/-- The values of type `f32`. -/
def IsF32 : F64 → Prop
  | .nan => True
  | .inf _ => True
  | .fin q => IsF32Q q

end Verif.Spec
