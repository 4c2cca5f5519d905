import Verif.Spec.CApi
import Verif.Spec.Blocks
import Verif.Spec.TextRoom
import Verif.Model.Reach

/-!
# Specification: whole programs using the C interface
-/

namespace Verif.Spec

/-- A C program that has not used the library yet: all memory is its own. -/
def Untouched (h : Heap) : Prop := ∀ p x, h.get? p = some x → x.isCaller = true

/-- What a live object of the library is: a graph or compressed graph that the Rust interface can produce, a pooled matrix of
such a graph, a string without a zero inside. -/
def Genuine : Obj → Prop
  | .graph g => GReach g
  | .cgraph g => CReach g
  | .matrix m => ∃ (g : Graph) (P : Platform) (o : HashOrder) (b : Nat), GReach g ∧ g.findAvgPoolMatrix P o b = .ok m
  | .cstring s => Char.ofNat 0 ∉ s
  | _ => True

/-- Calls with arguments of a reasonable size: buffer lengths that are numbers of type `size_t`, blocks below `2^32`, no more
decimals than the platform has room for.  `to_string` has no way to report that the text is too large, so there must be room for
the text of the matrix. -/
def _root_.Verif.Call.Moderate (E : Ctx) (M : Mem) : Call → Prop
  | .fromBytes _ n _ | .cFromBytes _ n _ => n ≤ E.P.usizeMax
  | .findAvgPoolMatrix _ b | .approximate _ b _ => b < 2 ^ 32
  | .mToStringWithPrecision _ d => d + 40 ≤ E.P.fmtMax ∧ d + 42 ≤ E.P.usizeMax
  | .mToString p => ∀ m, M p = some (.matrix m) → 4 * m.dimension + 44 * (m.dimension * m.dimension) ≤ E.P.usizeMax ∧
      ∀ k ≤ 4 * m.dimension + 44 * (m.dimension * m.dimension), E.P.alloc k = true
  | _ => True

/-- All calls of the execution were moderate. -/
def ModerateRun (t : List Event) : Prop := ∀ E c M v, Event.call E c M v ∈ t → c.Moderate E M

/-- All matrices of the execution were pooled with blocks below `2^32`. -/
def SmallBlocks (t : List Event) : Prop := ∀ E p b M v, Event.call E (.findAvgPoolMatrix p b) M v ∈ t → b < 2 ^ 32

/-- The numbers passed are numbers of type `size_t`. -/
def _root_.Verif.Call.Fits (E : Ctx) : Call → Prop
  | .fromBytes _ n _ | .cFromBytes _ n _ | .mToStringWithPrecision _ n => n ≤ E.P.usizeMax
  | _ => True

/-- When a call aborts the program: pooling with a block dimension whose square is beyond `u64` in a build with overflow checks,
`gphrx_matrix_to_string` when there is no room for the text, and `gphrx_matrix_to_string_with_precision` when printing panics. -/
def _root_.Verif.Call.Aborts (E : Ctx) (M : Mem) : Call → Prop
  | .findAvgPoolMatrix p b | .approximate p b _ =>
    p ≠ 0 ∧ E.P.profile = .debug ∧ ∃ g, M p = some (.graph g) ∧ 2 ^ 32 ≤ effBlock g.vertexCount b
  | .mToString p =>
    p ≠ 0 ∧ ∃ m k, M p = some (.matrix m) ∧ Reserved m k ∧ m.dimension ≠ 0 ∧ ¬ TextRoom E.P m.dimension (k + 5)
  | .mToStringWithPrecision p d => p ≠ 0 ∧ ∃ m k, M p = some (.matrix m) ∧ Reserved m k ∧ TextPanics E.P m k d
  | _ => False

end Verif.Spec
