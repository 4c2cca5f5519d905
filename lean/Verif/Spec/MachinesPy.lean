import Verif.Spec.MachinesC
import Verif.Spec.Py

/-!
# Comparing machines: Python programs
-/

namespace Verif.Spec
open Verif

/-- The same step on another machine: same call, same value or exception. -/
def pyOn (P' : Platform) (s : Ctx × PyCall × Seen) : Ctx × PyCall × Seen := (s.1.on P', s.2)

/-- The step failed in the library: bytes were not accepted, a text could not be made, or `bytes(x)` came out empty. -/
def PyFailed : PyCall → Seen → Prop
  | .graphFromBytes _, .exception _ => True
  | .cgraphFromBytes _, .exception _ => True
  | .call _ .matrixString, .exception _ => True
  | .call _ .str, .exception _ => True
  | .call _ (.toString _), .exception _ => True
  | .call _ .bytes, .value (.bytes b) => b = []
  | _, _ => False

/-- The texts the call asks for have a number of decimals that the machine can handle (and not one reduced modulo its word size). -/
def PyPrintable (P : Platform) : PyCall → Prop
  | .call _ (.toString d) => 0 ≤ d ∧ d ≤ P.usizeMax ∧ Wide P d.toNat
  | .call _ .str => 2 ≤ P.usizeMax ∧ Wide P 2
  | .call _ .matrixString => Wide P 0
  | _ => True

end Verif.Spec
