import Verif.Lemmas.F32
import Verif.Props.FloatText

/-! # C84: text of `f32` matrices -/

namespace Verif.Props
open Verif Spec

/-- Every value stored by the history is an `f32`. -/
def F32Sets (h : List (NumOp F64)) : Prop := ∀ x c r, NumOp.set x c r ∈ h → IsF32 x

theorem f32_inv {P : Platform} {h : List (NumOp F64)} (hs : F32Sets h) {m : SqMatrix F64}
    (hm : runNum f32Numeric P h = .ok m) : m.WF ∧ ∀ c r v, m.at? c r = some v → IsF32 v :=
  values_inv (I := IsF32) h hs (F32.rnd_isF32 1) (fun x y _ hy => by
    have : F32.add x (F32.rnd 1) = y := by simpa [f32Numeric] using hy
    rw [← this]
    exact F32.add_isF32 _ _) hm

theorem f32_getEntry (m : SqMatrix F64) (c r : Nat) : m.getEntry f32Numeric c r = m.getEntry f64Numeric c r := by
  rw [SqMatrix.getEntry_eq, SqMatrix.getEntry_eq]
  have : f32Numeric.zero = f64Numeric.zero := by
    change F32.rnd 0 = F64.lit 0
    rw [F32.zero_eq, F64.lit_zero]
  rw [this]

/-- **C84, values.** Whatever the history of calls, every entry of an `f32` matrix is an `f32` value. -/
theorem C84_values (P : Platform) (h : List (NumOp F64)) (hs : F32Sets h) (m : SqMatrix F64)
    (hm : runNum f32Numeric P h = .ok m) (c r : Nat) : IsF32 (m.getEntry f32Numeric c r) := by
  obtain ⟨_, hv⟩ := f32_inv hs hm
  rw [SqMatrix.getEntry_eq]
  cases hat : m.at? c r with
  | none => exact F32.rnd_isF32 0
  | some v => exact hv c r v hat

/-- **C84, no panic.** Printing an `f32` matrix of any history (NaN, infinities, negative numbers, the largest numbers)
with any precision never panics: it succeeds with a text of the computed size or reports that this size is not
representable or cannot be allocated.  (For `f64` this is false, see C68.) -/
theorem C84_no_panic (P₀ P : Platform) (h : List (NumOp F64)) (hs : F32Sets h) (m : SqMatrix F64)
    (hm : runNum f32Numeric P₀ h = .ok m) (d : Nat) (hf : 41 + d ≤ P.fmtMax) (hu : 43 + d ≤ P.usizeMax)
    (o₁ o₂ : HashOrder) :
    ∃ w, 2 + d ≤ w ∧ w ≤ 41 + d ∧
      ((∃ s, m.toStringWithPrecision P f32Fmt o₁ o₂ d = .ok s ∧
        s.length = 4 * m.dimension + (w + 2) * (m.dimension * m.dimension) - 2) ∨
      (∃ msg, m.toStringWithPrecision P f32Fmt o₁ o₂ d = .err (.CapacityOverflow msg) ∧
        (P.usizeMax < 4 * m.dimension + (w + 2) * (m.dimension * m.dimension) ∨
        P.alloc (4 * m.dimension + (w + 2) * (m.dimension * m.dimension) - 2) = false))) := by
  obtain ⟨hwf, hv⟩ := f32_inv hs hm
  rw [SqMatrix.toString_f32 P o₁ o₂ hv d]
  exact SqMatrix.f64Text_total o₁ o₂ hwf d (fun c r v h => F32.printable (hv c r v h)) hf hu

/-- **C84, content.** With at least one decimal, an `f32` matrix with non-negative finite entries whose rounding does not
add an integral digit prints as a grid of correctly rounded numbers in equally wide cells. -/
theorem C84_f32_text_partial (P₀ P : Platform) (h : List (NumOp F64)) (hs : F32Sets h) (m : SqMatrix F64)
    (hm : runNum f32Numeric P₀ h = .ok m) (hne : m.entryCount ≠ 0) (d j : Nat) (hd : 1 ≤ d) (hj1 : 1 ≤ j) (hj : j ≤ 38)
    (hval : ∀ c r, ∃ q, m.getEntry f32Numeric c r = .fin q ∧ 0 ≤ q ∧ q + 1 / (2 * 10 ^ d) < 10 ^ j)
    (hmax : j = 1 ∨ ∃ c r q, m.getEntry f32Numeric c r = .fin q ∧ 10 ^ (j - 1) ≤ q) (hf : j + 1 + d ≤ P.fmtMax) :
    ∃ text : Nat → Nat → List Char,
      (∀ c r, ∃ q, m.getEntry f32Numeric c r = .fin q ∧ IsDecimal d q (text c r)) ∧
      ∀ o₁ o₂, ShowsText P m.dimension (j + 1 + d) text (m.toStringWithPrecision P f32Fmt o₁ o₂ d) := by
  obtain ⟨hwf, hv⟩ := f32_inv hs hm
  simp only [f32_getEntry] at hval hmax ⊢
  obtain ⟨text, h1, h2⟩ := floatText P m hwf hne d j hd hj1 hj hval hmax hf
  refine ⟨text, h1, fun o₁ o₂ => ?_⟩
  rw [SqMatrix.toString_f32 P o₁ o₂ hv d]
  exact (h2 o₁ o₂).1

/-- **C84** as one would expect it, without the restrictions on the entries. -/
def C84_full : Prop :=
  ∀ (P : Platform) (h : List (NumOp F64)) (m : SqMatrix F64) (d : Nat) (o₁ o₂ : HashOrder) (s : List Char),
    F32Sets h → (∀ x c r, NumOp.set x c r ∈ h → ∃ q, x = .fin q) → runNum f32Numeric P h = .ok m → 1 ≤ d →
    m.dimension ≠ 0 → m.toStringWithPrecision P f32Fmt o₁ o₂ d = .ok s →
    ∃ (w : Nat) (text : Nat → Nat → List Char),
      (∀ c r, (text c r).length ≤ w ∧ ∃ q, m.getEntry f32Numeric c r = .fin q ∧ IsDecimal d q (text c r)) ∧
      s = grid m.dimension fun c r => rightAligned w (text c r)

/-- The witness: `-0.5` in a 1×1 matrix prints `[ -0.50]`. -/
theorem C84_full_false : ¬ C84_full := by
  intro hC
  have hok : okAnd (runNum f32Numeric exP [.set (.fin (-1 / 2)) 0 0]) (fun m =>
      okAnd (m.toStringWithPrecision exP f32Fmt HashOrder.id HashOrder.id 2) (fun s =>
        s == "[ -0.50]".toList) && m.dimension == 1) = true := by decide +kernel
  obtain ⟨m, hm, hp⟩ := okAnd_elim hok
  simp only [Bool.and_eq_true, beq_iff_eq] at hp
  obtain ⟨hp, hdim⟩ := hp
  obtain ⟨s, hs, he⟩ := okAnd_elim hp
  simp only [beq_iff_eq] at he
  obtain ⟨w, text, _, hg⟩ := hC exP _ m 2 _ _ s
    (by
      intro x c r hx
      simp only [List.mem_singleton, NumOp.set.injEq] at hx
      rw [hx.1]
      exact ⟨-1, -1, by norm_num, by norm_num, by norm_num, by norm_num⟩)
    (by
      intro x c r hx
      simp only [List.mem_singleton, NumOp.set.injEq] at hx
      exact ⟨_, hx.1⟩)
    hm (by norm_num) (by omega) hs
  rw [hdim, grid_one, he] at hg
  have h1 : ("[ -0.50]".toList).reverse = [']', '0', '5', '.', '0', '-', ' ', '['] := by decide
  have := congrArg List.reverse hg
  rw [h1] at this
  simp at this

/-- C84 on a concrete matrix: `0.1` as `f32` shows its error at ten decimals. -/
example : IsF32 (F32.rnd (1 / 10)) ∧ okAnd (runNum f32Numeric exP [.set (F32.rnd (1 / 10)) 0 0, .increment 1 1])
    (fun m => okAnd (m.toStringWithPrecision exP f32Fmt HashOrder.id HashOrder.id 10)
      (fun s => s == "[ 0.1000000015, 0.0000000000 ]\r\n[ 0.0000000000, 1.0000000000 ]".toList)) = true :=
  ⟨F32.rnd_isF32 _, by decide +kernel⟩

end Verif.Props
