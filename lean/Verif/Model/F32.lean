import Verif.Model.F64Fmt

/-!
# Model of `f32` entries (`/repo/graphrox-rs/src/util/mod.rs:416-451`)

IEEE-754 binary32 with round-to-nearest, ties-to-even.  Every `f32` value is also an `f64` value, so the type of
`Model/F64.lean` (NaN, infinities, rationals) is used for it; comparison, equality, `as i128` and `Display` depend
on the value only and are those of `f64`.  Rounding and the range are those of binary32.  The simplifications
are the ones listed in `Model/F64.lean`.
-/

namespace Verif

namespace F32

/-- Exponent of the unit in the last place (24-bit significand, least exponent `-149`). IEEE-754 binary32. -/
def ulpExp (q : ℚ) : ℤ := max (Int.log 2 |q| - 23) (-149)

/-- The rounded value before the overflow check. -/
def rndQ (q : ℚ) : ℚ := (F64.roundEven (q / 2 ^ ulpExp q) : ℚ) * 2 ^ ulpExp q

/-- Rounding of an exact result to binary32; overflow gives an infinity. IEEE-754. -/
def rnd (q : ℚ) : F64 :=
  if |rndQ q| < 2 ^ 128 then .fin (rndQ q) else .inf (decide (q < 0))

/-- `a + b` for `f32`. IEEE-754. -/
def add : F64 → F64 → F64
  | .nan, _ => .nan
  | _, .nan => .nan
  | .inf a, .inf b => if a = b then .inf a else .nan
  | .inf a, .fin _ => .inf a
  | .fin _, .inf b => .inf b
  | .fin a, .fin b => rnd (a + b)

end F32

/-- `impl Numeric for f32`, storing part. `util/mod.rs:416-451`. -/
def f32Numeric : Numeric F64 where
  zero := F32.rnd 0
  one := F32.rnd 1
  eq := F64.eq
  addOne _ x := .ok (F32.add x (F32.rnd 1))

/-- `impl Numeric for f32`. `util/mod.rs:416-451`.  (`fmtW` is never used: `has_decimal()` is true.) -/
def f32Fmt : NumFmt F64 where
  toNumeric := f32Numeric
  maxV := .fin ((2 ^ 24 - 1) * 2 ^ 104)
  minV := .fin (-((2 ^ 24 - 1) * 2 ^ 104))
  hasDecimal := true
  lt := F64.lt
  gt a b := F64.lt b a
  digitCount x := (intChars x.asI128).length
  fmt x width prec := padLeft width (f64Chars x prec)
  fmtW x width := padLeft width (f64Chars x 0)

end Verif
