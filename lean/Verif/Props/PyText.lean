import Verif.Props.CSafety

/-! # C77: texts in Python -/

namespace Verif.Props
open Verif Spec

/-- The Rust text that a Python method is about. -/
def _root_.Verif.Spec.AObj.rustText (E : Ctx) : AObj → Method → Option (Res (List Char))
  | .graph g, .matrixString => some (g.matrixString E.P)
  | .cgraph g, .matrixString => some (g.matrixString E.P E.o₁ E.o₂)
  | .matrix m, .str => some (m.toStringWithPrecision E.P f64Fmt E.o₁ E.o₂ 2)
  | .matrix m, .toString d => some (m.toStringWithPrecision E.P f64Fmt E.o₁ E.o₂ (toSize E.P d))
  | _, _ => none

/-- **C77.** In every Python program `matrix_string()`, `str(matrix)` and `to_string(d)` return exactly the text of the Rust
method; if the method reports an error they raise `AttributeError`, and if it panics the interpreter is aborted. -/
theorem C77_texts {t} {w : PyWorld} {a : AWorld} (h : Reached t w a)
    (E : Ctx) (hu : 2 ≤ E.P.usizeMax) {i : Nat} {x : AObj} (hi : a[i]? = some (some x)) {m : Method}
    {res : Res (List Char)} (hr : x.rustText E m = some res) :
    (∃ s w', res = .ok s ∧ w.exec E (.call i m) = .ok (.str s) w' ∧ Reached (t ++ [(E, .call i m, .value (.str s))]) w' a) ∨
    (∃ e w', res = .err e ∧ w.exec E (.call i m) = .raised .AttributeError w' ∧
      Reached (t ++ [(E, .call i m, .exception .AttributeError)]) w' a) ∨
    (res = .panic ∧ w.exec E (.call i m) = .abort) := by
  have h2 : toSize E.P 2 = 2 := by unfold toSize; rw [Int.emod_eq_of_lt (by omega) (by omega)]; rfl
  have hmeans : x.means E a i m = AOut.text res := by
    cases x with
    | graph g => cases m <;> cases hr; rfl
    | cgraph g => cases m <;> cases hr; rfl
    | matrix M =>
      cases m <;> cases hr
      · simp only [AObj.means, h2]
      · rfl
    | _ => cases m <;> cases hr
  have hno : ∀ s, res = .ok s → Char.ofNat 0 ∉ s := by
    rintro s rfl
    cases x with
    | graph g =>
      cases m <;> simp only [AObj.rustText, Option.some.injEq, reduceCtorEq] at hr
      exact Graph.matrixString_noNul hr
    | cgraph g =>
      cases m <;> simp only [AObj.rustText, Option.some.injEq, reduceCtorEq] at hr
      exact CGraph.matrixString_noNul hr
    | matrix M =>
      cases m <;> simp only [AObj.rustText, Option.some.injEq, reduceCtorEq] at hr
      · exact f64_noNul hr
      · exact f64_noNul hr
    | _ => cases m <;> cases hr
  have hstep := pyStep_call (E := E) hi m
  rw [hmeans] at hstep
  cases res with
  | ok s =>
    rw [show AOut.text (.ok s) = .val (.str s) from if_neg (hno s rfl)] at hstep
    obtain ⟨w', h1, h2⟩ := reached_ret h hstep
    exact .inl ⟨s, w', rfl, h1, h2⟩
  | err e =>
    obtain ⟨w', h1, h2⟩ := reached_raises h hstep
    exact .inr (.inl ⟨e, w', rfl, h1, h2⟩)
  | panic => exact .inr (.inr ⟨rfl, (C72_abort_iff h E _).2 hstep⟩)

/-- **C77.** In particular the text of a graph is the grid of its edges: row `r`, column `c` shows whether the edge from `c` to
`r` exists. -/
theorem C77_graph_text {t} {w : PyWorld} {a : AWorld} (h : Reached t w a)
    (E : Ctx) (hu : 2 ≤ E.P.usizeMax) {i : Nat} {g : Graph} (hi : a[i]? = some (some (.graph g)))
    (hn : g.vertexCount ≠ 0) :
    let size := 4 * g.vertexCount + 3 * (g.vertexCount * g.vertexCount)
    (size ≤ E.P.usizeMax → E.P.alloc (size - 2) = true → ∃ w', w.exec E (.call i .matrixString) =
      .ok (.str (grid g.vertexCount fun c r => if g.doesEdgeExist c r then ['1'] else ['0'])) w') ∧
    (E.P.usizeMax < size ∨ E.P.alloc (size - 2) = false → ∃ w', w.exec E (.call i .matrixString) = .raised .AttributeError w') := by
  intro size
  have h49 := (C49_matrix_string g E.P).2 hn
  simp only at h49
  have hsz : size = 4 * g.vertexCount + 3 * (g.vertexCount * g.vertexCount) := rfl
  have hall := C77_texts h E hu hi (m := .matrixString) rfl
  refine ⟨fun h1 h2 => ?_, fun h1 => ?_⟩
  · have h3 := h49.1 (by omega) h2
    rw [h3] at hall
    rcases hall with ⟨s, w', hs, h4, _⟩ | ⟨e, w', hs, _⟩ | ⟨hs, _⟩
    · cases hs; exact ⟨w', h4⟩
    · cases hs
    · cases hs
  · obtain ⟨msg, h3⟩ := h49.2.1 (by
      rcases h1 with h1 | h1
      · left; omega
      · exact .inr h1)
    rw [h3] at hall
    rcases hall with ⟨s, w', hs, h4, _⟩ | ⟨e, w', hs, h4, _⟩ | ⟨hs, _⟩
    · cases hs
    · exact ⟨w', h4⟩
    · cases hs

/-- The hypotheses are met by the example program. -/
example : (∃ w, Reached exPyT w exPyA) ∧ exPyA[0]? = some (some (.graph exPyG)) ∧ 2 ≤ exE.P.usizeMax ∧ exPyG.vertexCount = 3 ∧
    okAnd (exPyG.matrixString exE.P) (fun s => s == "[ 0, 0, 0 ]\r\n[ 1, 0, 0 ]\r\n[ 0, 1, 0 ]".toList) :=
  ⟨exPy_reached, rfl, by decide, rfl, by decide +kernel⟩

end Verif.Props
