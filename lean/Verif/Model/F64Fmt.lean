import Verif.Model.SqMatrix

/-!
# Model of printing `f64` entries (`/repo/graphrox-rs/src/util/mod.rs:453-488`) and of `Display`

`Display for f64` is part of the standard library; modelled here as: the exact value of the double, rounded to
`prec` decimals, ties to even (Rust 1.67 and later).  For `f32` see `Model/F32.lean`.
-/

namespace Verif

/-- `x as i128`. std semantics: truncates towards zero, saturates, NaN becomes 0. -/
def F64.asI128 : F64 → Int
  | .nan => 0
  | .inf neg => if neg then -2 ^ 127 else 2 ^ 127 - 1
  | .fin q => max (-2 ^ 127) (min (if q < 0 then ⌈q⌉ else ⌊q⌋) (2 ^ 127 - 1))

/-- The digits of `k / 10^prec`. std semantics (`{:.prec}`). -/
def fixedChars (prec k : Nat) : List Char :=
  decChars (k / 10 ^ prec) ++
  (if prec = 0 then []
   else
    let frac := decChars (k % 10 ^ prec)
    '.' :: (List.replicate (prec - frac.length) '0' ++ frac))

/-- `format!("{:.prec}", x)`. std semantics. -/
def f64Chars (x : F64) (prec : Nat) : List Char :=
  match x with
  | .nan => ['N', 'a', 'N']
  | .inf neg => (if neg then ['-'] else []) ++ ['i', 'n', 'f']
  | .fin q => (if q < 0 then ['-'] else []) ++ fixedChars prec (F64.roundEven (|q| * 10 ^ prec)).toNat

/-- `impl Numeric for f64`. `util/mod.rs:453-488`.  (`fmtW` is never used: `has_decimal()` is true.) -/
def f64Fmt : NumFmt F64 where
  toNumeric := f64Numeric
  maxV := .fin ((2 ^ 53 - 1) * 2 ^ 971)
  minV := .fin (-((2 ^ 53 - 1) * 2 ^ 971))
  hasDecimal := true
  lt := F64.lt
  gt a b := F64.lt b a
  digitCount x := (intChars x.asI128).length
  fmt x width prec := padLeft width (f64Chars x prec)
  fmtW x width := padLeft width (f64Chars x 0)

namespace SqMatrix

variable {T : Type}

/-- `matrix.to_string()`, i.e. `Display::fmt` writing to a `String`. `csr_square_matrix.rs:397-443`; std
semantics: `to_string` panics if `fmt` returns an error. -/
def toText (P : Platform) (F : NumFmt T) (o₁ o₂ : HashOrder) (m : SqMatrix T) : Res (List Char) :=
  match m.toStringWithPrecision P F o₁ o₂ (if F.hasDecimal then 2 else 0) with
  | .ok s => .ok s
  | .err _ => .panic
  | .panic => .panic

end SqMatrix

end Verif
