import Verif.Spec.Grid
import Verif.Spec.Matrix
import Verif.Spec.TextRoom

/-!
# Specification: printing any matrix of floating-point numbers
-/

namespace Verif.Spec

/-- `s` is how the number `x` is written with `d` decimals. -/
def ShownAs (d : Nat) (x : F64) (s : List Char) : Prop :=
  match x with
  | .nan => s = "NaN".toList
  | .inf neg => s = if neg then "-inf".toList else "inf".toList
  | .fin q =>
    if d = 0 then
      ∃ k : Nat, |(k : ℚ) - (|q|)| ≤ 1 / 2 ∧ (|(k : ℚ) - (|q|)| = 1 / 2 → k % 2 = 0) ∧
        s = (if q < 0 then ['-'] else []) ++ Nat.toDigits 10 k
    else IsDecimal d q s

/-- The characters of the number without its fractional part, where numbers outside the range of `i128` count like the end of
that range: 40 characters on the negative side, 39 on the other. -/
def wholeLength : F64 → Option Nat
  | .nan => none
  | .inf neg => some (if neg then 40 else 39)
  | .fin q => some (numeral (max (-2 ^ 127) (min (integralPart q) (2 ^ 127 - 1)))).length

/-- Something has been stored at some time during the history, though perhaps it has been zeroed since. -/
def EverStored {T : Type} (N : Numeric T) (P : Platform) (h : List (NumOp T)) : Prop :=
  ∃ h', h' <+: h ∧ ∃ a, ANum.run N P h' = .ok a ∧ ∃ c r, a.val c r ≠ none

/-- The characters reserved for integral parts after the history `h` with result `a`: those of the longest one, if a number other
than NaN is stored; otherwise 40, or 39 if nothing has ever been stored. -/
def ReservedAfter (N : Numeric F64) (P : Platform) (h : List (NumOp F64)) (a : ANum F64) (k : Nat) : Prop :=
  ((∃ c r v, a.val c r = some v ∧ v ≠ .nan) →
    (∃ c r v, a.val c r = some v ∧ wholeLength v = some k) ∧
    ∀ c r v l, a.val c r = some v → wholeLength v = some l → l ≤ k) ∧
  ((∀ c r v, a.val c r = some v → v = .nan) → EverStored N P h → k = 40) ∧
  (¬ EverStored N P h → k = 39)

/-- The characters from the beginning of the cell in column `c` of row `r` to the end of the text, if there are `n` rows and columns
and cells are `w` wide: the cell and those right of it with the two characters after each, and the rows below, each with four
characters more for brackets, space and line end. -/
def charsLeft (n w c r : Nat) : Nat := (n - c) * (w + 2) + (n - 1 - r) * (n * (w + 2) + 4)

/-- When printing the matrix `a` with `d` decimals panics, if `k` characters are reserved for integral parts, so that a cell is
`w = k + 1 + d` wide:

* if `w + 2` is a `usize`, then if there is room for the text and an entry is stored, and `w` is too large for `format!` or the
  number stored somewhere is too long for what is left of the text;
* otherwise always in a build with overflow checks, and in a build without them if there is room for the text whose size has been
  computed modulo the size of `usize`, and there is an entry to print or only the addition of 2 overflowed. -/
def FloatTextPanics (P : Platform) (a : ANum F64) (k d : Nat) : Prop :=
  a.dim ≠ 0 ∧
  let w := k + 1 + d
  if w + 2 ≤ P.usizeMax then
    TextRoom P a.dim (w + 2) ∧
      ∃ c r v, a.val c r = some v ∧ (P.fmtMax < w ∨ ∃ s, ShownAs d v s ∧ charsLeft a.dim w c r < s.length)
  else P.profile = .debug ∨
    TextRoom P a.dim ((w + 2) % (P.usizeMax + 1)) ∧ ((∃ c r, a.val c r ≠ none) ∨ w ≤ P.usizeMax)

/-- The texts of the cells: numbers that are stored as above, `0.` and `d` zeros elsewhere. -/
def CellTexts (a : ANum F64) (d : Nat) (text : Nat → Nat → List Char) : Prop :=
  ∀ c r, match a.val c r with
    | some v => ShownAs d v (text c r)
    | none => text c r = '0' :: '.' :: List.replicate d '0'

end Verif.Spec
