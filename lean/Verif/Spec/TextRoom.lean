import Verif.Model.F64Fmt

/-!
# Specification: when printing a pooled matrix panics
-/

namespace Verif.Spec

/-- What is assumed of the platform here: the limit of `format!` for widths and decimals is small compared with `usize` (since
Rust 1.87 it is 65535), and no buffer is larger than half the address space (`isize::MAX`). -/
structure Usual (P : Platform) : Prop where
  fmt : 42 ≤ P.fmtMax
  size : P.fmtMax + 65535 ≤ P.usizeMax
  alloc : ∀ k, P.alloc k = true → 2 * k ≤ P.usizeMax

/-- The decimal digits of the integral part of a number that is not negative; an infinite one counts like `i128::MAX`. -/
def intDigits : F64 → Nat
  | .fin q => (Nat.toDigits 10 ⌊q⌋.toNat).length
  | _ => 39

/-- The digits reserved for integral parts: those of the longest integral part, and 39 if all entries are zero. -/
def Reserved (m : SqMatrix F64) (k : Nat) : Prop :=
  if m.entryCount = 0 then k = 39
  else (∃ c r, intDigits (m.getEntry f64Numeric c r) = k) ∧ ∀ c r, intDigits (m.getEntry f64Numeric c r) ≤ k

/-- There is room for the text of `n` rows and columns with `c` characters for an entry and its separator. -/
def TextRoom (P : Platform) (n c : Nat) : Prop :=
  n * n ≤ P.usizeMax ∧ 4 * n + c * (n * n) ≤ P.usizeMax ∧ P.alloc (4 * n + c * (n * n) - 2) = true

/-- When printing a pooled matrix with `d` decimals panics, if `k` digits are reserved for integral parts, so that an entry takes
`w = k + 1 + d` characters:

* if `w + 2` is a `usize`, then if there is room for the text, an entry to print and `w` too large for `format!`;
* otherwise always in a build with overflow checks, and in a build without them if there is room for the text whose size has been
  computed modulo the size of `usize`, and there is an entry to print or only the addition of 2 overflowed. -/
def TextPanics (P : Platform) (m : SqMatrix F64) (k d : Nat) : Prop :=
  m.dimension ≠ 0 ∧
  let w := k + 1 + d
  if w + 2 ≤ P.usizeMax then TextRoom P m.dimension (w + 2) ∧ m.entryCount ≠ 0 ∧ P.fmtMax < w
  else P.profile = .debug ∨
    TextRoom P m.dimension ((w + 2) % (P.usizeMax + 1)) ∧ (m.entryCount ≠ 0 ∨ w ≤ P.usizeMax)

end Verif.Spec
