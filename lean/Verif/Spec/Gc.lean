import Verif.Spec.Py

/-!
# When Python objects are collected

An object is collected at some time after the program has dropped its last reference to it (`PyCall.collect`), which may be at once,
later, or never.
-/

namespace Verif.Spec
open Verif

/-- Is the step one in which an object is collected? -/
def isCollect : PyCall → Bool
  | .collect _ => true
  | _ => false

/-- The calls of an execution. -/
def callsOf (t : List (Ctx × PyCall × Seen)) : List (Ctx × PyCall) := t.map fun s => (s.1, s.2.1)

/-- What the program does itself, and what it sees. -/
def ownSteps (t : List (Ctx × PyCall × Seen)) : List (Ctx × PyCall × Seen) := t.filter fun s => !isCollect s.2.1

/-- What the program does itself. -/
def ownCalls (s : List (Ctx × PyCall)) : List (Ctx × PyCall) := s.filter fun x => !isCollect x.2

/-- Objects are collected only after the program has used them for the last time. -/
def Tidy (s : List (Ctx × PyCall)) : Prop := s.Pairwise fun x y => ∀ i m, x.2 = .collect i → y.2 ≠ .call i m

end Verif.Spec
