import Mathlib.Data.Int.Log
import Mathlib.Data.Rat.Floor

/-!
# Model of `f64`

IEEE-754 binary64 with round-to-nearest, ties-to-even, as used by every Rust target.  Finite values
are rationals; every operation rounds the exact result.  Simplifications: `-0.0` is identified with
`0.0`, there is one NaN, and a `fin q` whose `q` is not a double is allowed as an *input* (a
superset of the real inputs); results of operations are always doubles.
-/

namespace Verif

/-- `f64`. std type. -/
inductive F64 where
  | nan
  | inf (neg : Bool)
  | fin (q : ℚ)
  deriving DecidableEq

namespace F64

/-- Round a rational to the nearest integer, ties to even (IEEE-754 `roundTiesToEven`). -/
def roundEven (x : ℚ) : ℤ :=
  let f := ⌊x⌋
  let d := x - f
  if d < 1 / 2 then f
  else if 1 / 2 < d then f + 1
  else if f % 2 = 0 then f
  else f + 1

/-- Exponent of the unit in the last place of the binade of `q` (53-bit significand, least exponent
`-1074` for subnormals). IEEE-754 binary64. -/
def ulpExp (q : ℚ) : ℤ := max (Int.log 2 |q| - 52) (-1074)

/-- The rounded value before the overflow check. -/
def rndQ (q : ℚ) : ℚ := (roundEven (q / 2 ^ ulpExp q) : ℚ) * 2 ^ ulpExp q

/-- Rounding of an exact result to binary64; overflow gives an infinity. IEEE-754. -/
def rnd (q : ℚ) : F64 :=
  if |rndQ q| < 2 ^ 1024 then fin (rndQ q) else inf (decide (q < 0))

/-- `a + b`. IEEE-754. -/
def add : F64 → F64 → F64
  | nan, _ => nan
  | _, nan => nan
  | inf a, inf b => if a = b then inf a else nan
  | inf a, fin _ => inf a
  | fin _, inf b => inf b
  | fin a, fin b => rnd (a + b)

/-- `-a`. IEEE-754. -/
def neg : F64 → F64
  | nan => nan
  | inf a => inf (!a)
  | fin a => fin (-a)

/-- `a - b`. IEEE-754. -/
def sub (a b : F64) : F64 := add a (neg b)

/-- `a * b`. IEEE-754. -/
def mul : F64 → F64 → F64
  | nan, _ => nan
  | _, nan => nan
  | inf a, inf b => inf (a != b)
  | inf a, fin q => if q = 0 then nan else inf (a != decide (q < 0))
  | fin q, inf a => if q = 0 then nan else inf (a != decide (q < 0))
  | fin a, fin b => rnd (a * b)

/-- `a / b`. IEEE-754; division by zero gives an infinity (sign of the dividend, as `-0.0` is not
distinguished). -/
def div : F64 → F64 → F64
  | nan, _ => nan
  | _, nan => nan
  | inf _, inf _ => nan
  | inf a, fin q => inf (a != decide (q < 0))
  | fin _, inf _ => fin 0
  | fin a, fin b => if b = 0 then (if a = 0 then nan else inf (decide (a < 0))) else rnd (a / b)

/-- `a <= b`. IEEE-754: false if one side is NaN. -/
def le : F64 → F64 → Bool
  | nan, _ => false
  | _, nan => false
  | inf true, _ => true
  | _, inf false => true
  | inf false, _ => false
  | _, inf true => false
  | fin a, fin b => decide (a ≤ b)

/-- `a < b`. IEEE-754: false if one side is NaN. -/
def lt : F64 → F64 → Bool
  | nan, _ => false
  | _, nan => false
  | a, b => le a b && !le b a

/-- `a == b`. IEEE-754: NaN is not equal to itself. -/
def eq : F64 → F64 → Bool
  | nan, _ => false
  | _, nan => false
  | a, b => decide (a = b)

/-- `n as f64` for an unsigned integer `n`. std semantics: rounds to nearest even. -/
def ofNat (n : Nat) : F64 := rnd (n : ℚ)

/-- A decimal literal with exact value `q`. Rust reference: literals are correctly rounded. -/
def lit (q : ℚ) : F64 := rnd q

end F64

end Verif
