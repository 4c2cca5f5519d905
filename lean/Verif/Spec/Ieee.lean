import Verif.Model.F64

/-!
# Specification: IEEE-754 rounding to nearest, ties to even

Stated without exponents or significands of the number that is rounded: the result is the closest representable
number, and of two equally close ones the one with an even significand.
-/

namespace Verif.Spec

/-- A binary format: `p` bits of significand, least exponent `emin`, magnitudes below `2^emax`. -/
structure Format where
  p : Nat
  emin : ℤ
  emax : ℤ

/-- `f64`. -/
def binary64 : Format := ⟨53, -1074, 1024⟩

/-- `f32`. -/
def binary32 : Format := ⟨24, -149, 128⟩

/-- The finite numbers of the format. -/
def Format.Has (F : Format) (q : ℚ) : Prop :=
  ∃ s e : ℤ, q = s * 2 ^ e ∧ |s| < 2 ^ F.p ∧ F.emin ≤ e ∧ |q| < 2 ^ F.emax

/-- The number can be written with an even significand. -/
def Format.EvenSig (F : Format) (q : ℚ) : Prop :=
  ∃ s e : ℤ, q = s * 2 ^ e ∧ |s| < 2 ^ F.p ∧ F.emin ≤ e ∧ s % 2 = 0

/-- The magnitude from which on results overflow: halfway between the greatest finite number and `2^emax`. -/
def Format.overflow (F : Format) : ℚ := 2 ^ F.emax - 2 ^ (F.emax - F.p - 1)

/-- Rounding the exact result `q` to nearest, ties to even, gives `x`. -/
def Format.RoundsTo (F : Format) (q : ℚ) : F64 → Prop
  | .nan => False
  | .inf neg => F.overflow ≤ |q| ∧ (neg = true ↔ q < 0)
  | .fin y => |q| < F.overflow ∧ F.Has y ∧ (∀ z, F.Has z → |y - q| ≤ |z - q|) ∧
      ∀ z, F.Has z → z ≠ y → |z - q| = |y - q| → F.EvenSig y

/-- The sign of a value that is not NaN and not zero. -/
def Negative : F64 → Prop
  | .nan => False
  | .inf neg => neg = true
  | .fin q => q < 0

/-- An infinity. -/
def IsInf (x : F64) : Prop := x = .inf true ∨ x = .inf false

/-- The product of `a` and `b` is `y`: NaN if a factor is NaN or an infinity meets a zero; an infinity if a factor is
one, negative when exactly one factor is; otherwise the rounded product. -/
def Format.Product (F : Format) (a b y : F64) : Prop :=
  ((a = .nan ∨ b = .nan ∨ (IsInf a ∧ b = .fin 0) ∨ (a = .fin 0 ∧ IsInf b)) → y = .nan) ∧
  (a ≠ .nan → b ≠ .nan → a ≠ .fin 0 → b ≠ .fin 0 → (IsInf a ∨ IsInf b) →
    IsInf y ∧ (Negative y ↔ ¬ (Negative a ↔ Negative b))) ∧
  (∀ p q, a = .fin p → b = .fin q → F.RoundsTo (p * q) y)

end Verif.Spec
