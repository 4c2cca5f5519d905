import Verif.Model.Std
import Verif.Model.F64

/-!
# Model of `/repo/graphrox-rs/src/util/mod.rs`
-/

namespace Verif

/-- `GRAPH_APPROXIMATION_MIN_THRESHOLD`. `util/mod.rs:2-4`. -/
def MIN_THRESHOLD : F64 := F64.div (F64.lit 1) (F64.ofNat (10 ^ 18))

/-- `COMPRESSION_BLOCK_DIMENSION`. `util/mod.rs:10`. -/
def COMPRESSION_BLOCK_DIMENSION : Nat := 8

/-- `clamp_threshold`. `util/mod.rs:14-22`. -/
def clampThreshold (threshold : F64) : F64 :=
  if F64.lt (F64.lit 1) threshold then F64.lit 1
  else if F64.le threshold (F64.lit 0) then MIN_THRESHOLD
  else threshold

/-- `clamp_compression_level`. `util/mod.rs:25-33`. -/
def clampCompressionLevel (level : Nat) : Nat :=
  if level > 64 then 64 else if level = 0 then 1 else level

/-- The part of `trait Numeric` used for storing entries. `util/mod.rs:35-44`. `addOne` is `self + 1`,
unchecked. -/
structure Numeric (T : Type) where
  zero : T
  one : T
  /-- `PartialEq::eq` -/
  eq : T → T → Bool
  addOne : Platform → T → Res T

/-- The part of `trait Numeric` (and of `Display`) used for printing. `util/mod.rs:35-44`.
`fmt v width prec` is `format!("{v: >width$.prec$}")` and `fmtW v width` is `format!("{v: >width$}")`. -/
structure NumFmt (T : Type) extends Numeric T where
  maxV : T
  minV : T
  hasDecimal : Bool
  lt : T → T → Bool
  gt : T → T → Bool
  digitCount : T → Nat
  fmt : T → Nat → Nat → List Char
  fmtW : T → Nat → List Char

/-- `impl Numeric for f64`, storing part. `util/mod.rs:453-488`. -/
def f64Numeric : Numeric F64 where
  zero := F64.lit 0
  one := F64.lit 1
  eq := F64.eq
  addOne _ x := .ok (F64.add x (F64.lit 1))

/-- Decimal digits of a natural number, most significant first (`to_string` of an unsigned integer).
std semantics.  `fuel` bounds the number of digits. -/
def decCharsAux : (fuel : Nat) → Nat → List Char → List Char
  | 0, _, acc => acc
  | fuel + 1, n, acc =>
    let acc := Char.ofNat (48 + n % 10) :: acc
    if n / 10 = 0 then acc else decCharsAux fuel (n / 10) acc

/-- `to_string` of an unsigned integer. std semantics. -/
def decChars (n : Nat) : List Char := decCharsAux (n + 1) n []

/-- `to_string` of a signed integer. std semantics. -/
def intChars (z : Int) : List Char :=
  match z with
  | .ofNat n => decChars n
  | .negSucc n => '-' :: decChars (n + 1)

/-- `{: >width$}`: pad with spaces on the left. std semantics. -/
def padLeft (width : Nat) (s : List Char) : List Char := List.replicate (width - s.length) ' ' ++ s

/-- `impl Numeric` for the unsigned integer type with maximum `max`: `u8`…`u128`,
`util/mod.rs:46-229` (for `u64`: 157-192).  The precision is ignored for integers (std). -/
def uintFmt (max : Nat) : NumFmt Nat where
  zero := 0
  one := 1
  eq a b := a == b
  addOne P x := P.wrapTo max (x + 1)
  maxV := max
  minV := 0
  hasDecimal := false
  lt a b := decide (a < b)
  gt a b := decide (a > b)
  digitCount x := (decChars x).length
  fmt x width _ := padLeft width (decChars x)
  fmtW x width := padLeft width (decChars x)

/-- `impl Numeric` for the signed integer types with range `[-max-1, max]`: `i8`…`i64`
(`util/mod.rs:231-377`) with `hasDec = false`, `i128` (`util/mod.rs:379-414`) with `hasDec = true`, as in
the source. -/
def sintFmt (max : Nat) (hasDec : Bool) : NumFmt Int where
  zero := 0
  one := 1
  eq a b := a == b
  addOne P x :=
    if x + 1 ≤ (max : Int) then .ok (x + 1) else
      match P.profile with
      | .debug => .panic
      | .release => .ok (-(max : Int) - 1)
  maxV := max
  minV := -(max : Int) - 1
  hasDecimal := hasDec
  lt a b := decide (a < b)
  gt a b := decide (a > b)
  digitCount x := (intChars x).length
  fmt x width _ := padLeft width (intChars x)
  fmtW x width := padLeft width (intChars x)

end Verif
