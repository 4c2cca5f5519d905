import Verif.Spec.Machines
import Verif.Spec.CSafety

/-!
# Comparing machines: C programs
-/

namespace Verif.Spec
open Verif

/-- The same environment on another machine: the same addresses, the same hash orders. -/
def _root_.Verif.Ctx.on (E : Ctx) (P' : Platform) : Ctx := { E with P := P' }

/-- The same step on another machine: same call, same memory before it, same value returned. -/
def Event.on (P' : Platform) : Event → Event
  | .call E c M v => .call (E.on P') c M v
  | .own p => .own p

/-- The call did not fail: it returned null at most because its handle was null. -/
def _root_.Verif.Call.Succeeded (c : Call) (v : Val) : Prop := v = .ptr 0 → ∃ k, c.handle = some (0, k)

/-- Precisions for which the width of a cell can be computed on the machine: always with overflow checks, otherwise if there is room
for 43 more characters. -/
def Wide (P : Platform) (d : Nat) : Prop := P.profile = .debug ∨ d + 43 ≤ P.usizeMax

/-- The pictures the call asks for have a precision that the machine can handle. -/
def _root_.Verif.Call.Printable (P : Platform) : Call → Prop
  | .mToStringWithPrecision _ d => Wide P d
  | .mToString _ => Wide P 2
  | .cMatrixString _ => Wide P 0
  | _ => True

end Verif.Spec
