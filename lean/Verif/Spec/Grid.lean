import Mathlib.Algebra.Order.Field.Rat
import Mathlib.Algebra.Order.Group.Unbundled.Abs
import Mathlib.Data.List.Basic
import Mathlib.Data.Rat.Floor
import Verif.Model.Std

/-!
# Specification: the text of a square matrix
-/

namespace Verif.Spec

/-- `n` rows of `n` cells: row `r` is `[ c0, c1, … ]`, rows are separated by CR LF.  `cell c r` is the text of
column `c`, row `r`. -/
def grid (n : Nat) (cell : Nat → Nat → List Char) : List Char :=
  ['\r', '\n'].intercalate ((List.range n).map fun r =>
    "[ ".toList ++ ", ".toList.intercalate ((List.range n).map fun c => cell c r) ++ " ]".toList)

/-- `s` preceded by as many spaces as needed to be `width` wide. -/
def rightAligned (width : Nat) (s : List Char) : List Char := List.replicate (width - s.length) ' ' ++ s

/-- Decimal numeral of an integer. -/
def numeral (z : Int) : List Char :=
  if z < 0 then '-' :: Nat.toDigits 10 z.natAbs else Nat.toDigits 10 z.natAbs

/-- The fractional part of an integer shown with `d` decimals. -/
def zeros (d : Nat) : List Char := if d = 0 then [] else '.' :: List.replicate d '0'

/-- The outcome `res` of printing an `n × n` matrix of integers `val` with `d` decimals: the grid of right-aligned
numbers in equally wide cells; a capacity error if its size is not representable or cannot be allocated.  (If not
even one cell is representable, nothing is said.) -/
structure ShowsGrid (P : Platform) (n d w : Nat) (val : Nat → Nat → Int) (res : Res (List Char)) : Prop where
  fits : ∀ c r, (numeral (val c r) ++ zeros d).length ≤ w
  empty : n = 0 → res = .ok []
  shows : n ≠ 0 → 4 * n + (w + 2) * (n * n) ≤ P.usizeMax → P.alloc (4 * n + (w + 2) * (n * n) - 2) = true →
    res = .ok (grid n fun c r => rightAligned w (numeral (val c r) ++ zeros d))
  noMemory : n ≠ 0 → 4 * n + (w + 2) * (n * n) ≤ P.usizeMax → P.alloc (4 * n + (w + 2) * (n * n) - 2) = false →
    ∃ msg, res = .err (.CapacityOverflow msg)
  tooLarge : n ≠ 0 → w + 2 ≤ P.usizeMax → P.usizeMax < 4 * n + (w + 2) * (n * n) →
    ∃ msg, res = .err (.CapacityOverflow msg)

/-- `s` shows `q` with `d ≥ 1` decimals: an optional minus sign, the integral digits, a dot and exactly `d` digits, of a
multiple `k · 10^-d` closest to `|q|` (the even one of two). -/
def IsDecimal (d : Nat) (q : ℚ) (s : List Char) : Prop :=
  ∃ k : Nat, |(k : ℚ) - |q| * 10 ^ d| ≤ 1 / 2 ∧ (|(k : ℚ) - |q| * 10 ^ d| = 1 / 2 → k % 2 = 0) ∧
    ∃ frac, frac.length = d ∧ (∃ z, frac = List.replicate z '0' ++ Nat.toDigits 10 (k % 10 ^ d)) ∧
      s = (if q < 0 then ['-'] else []) ++ Nat.toDigits 10 (k / 10 ^ d) ++ '.' :: frac

/-- The number without its fractional part. -/
def integralPart (q : ℚ) : Int := if q < 0 then ⌈q⌉ else ⌊q⌋

/-- `s` is some right grid of the texts: all cells of one width, wide enough for all of them. -/
def IsGridOf (n : Nat) (text : Nat → Nat → List Char) (s : List Char) : Prop :=
  ∃ w, (∀ c < n, ∀ r < n, (text c r).length ≤ w) ∧ s = grid n fun c r => rightAligned w (text c r)

/-- The outcome `res` of printing an `n × n` matrix whose entries are shown as `text`: the grid of right-aligned texts
in equally wide cells; a capacity error if its size is not representable or cannot be allocated. -/
structure ShowsText (P : Platform) (n w : Nat) (text : Nat → Nat → List Char) (res : Res (List Char)) : Prop where
  fits : ∀ c r, (text c r).length ≤ w
  empty : n = 0 → res = .ok []
  shows : n ≠ 0 → 4 * n + (w + 2) * (n * n) ≤ P.usizeMax → P.alloc (4 * n + (w + 2) * (n * n) - 2) = true →
    res = .ok (grid n fun c r => rightAligned w (text c r))
  noMemory : n ≠ 0 → 4 * n + (w + 2) * (n * n) ≤ P.usizeMax → P.alloc (4 * n + (w + 2) * (n * n) - 2) = false →
    ∃ msg, res = .err (.CapacityOverflow msg)
  tooLarge : n ≠ 0 → w + 2 ≤ P.usizeMax → P.usizeMax < 4 * n + (w + 2) * (n * n) →
    ∃ msg, res = .err (.CapacityOverflow msg)

end Verif.Spec
