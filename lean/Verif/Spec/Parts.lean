import Verif.Spec.Py

/-!
# Python programs made of parts with objects of their own

Every step of an execution has the number of the part (a thread, a task, a library …) that makes it.  Objects are numbered in the order
in which the whole program creates them; a part on its own numbers only its own.
-/

namespace Verif.Spec
open Verif

/-- An execution whose steps belong to parts. -/
abbrev Parted := List (Nat × Ctx × PyCall × Seen)

/-- The number of the object that a step has created. -/
def newRef : Seen → Option Nat
  | .value (.ref n) => some n
  | _ => none

/-- The object that a call uses. -/
def usedObject : PyCall → Option Nat
  | .call i _ => some i
  | .collect i => some i
  | _ => none

/-- The parts that have created object 0, object 1, … -/
def creators (t : Parted) : List Nat := t.filterMap fun s => (newRef s.2.2.2).map fun _ => s.1

/-- What part `k` calls object `i`: how many objects of its own are older. -/
def ownNumber (O : List Nat) (k i : Nat) : Nat := (O.take i).count k

/-- A call with other object numbers. -/
def callWith (f : Nat → Nat) : PyCall → PyCall
  | .call i m => .call (f i) m
  | .collect i => .collect (f i)
  | c => c

/-- What is seen, with other object numbers. -/
def seenWith (f : Nat → Nat) : Seen → Seen
  | .value (.ref n) => .value (.ref (f n))
  | s => s

/-- The steps of part `k`, with the object numbers of this part. -/
def pyPart (t : Parted) (k : Nat) : List (Ctx × PyCall × Seen) :=
  (t.filter fun s => s.1 == k).map fun s =>
    (s.2.1, callWith (ownNumber (creators t) k) s.2.2.1, seenWith (ownNumber (creators t) k) s.2.2.2)

/-- No part uses an object that another part has created. -/
def Separate (t : Parted) : Prop :=
  ∀ s ∈ t, ∀ i, usedObject s.2.2.1 = some i → ∀ j, (creators t)[i]? = some j → j = s.1

/-- New objects are numbered 0, 1, 2, … -/
def Numbered (t : Parted) : Prop := t.filterMap (fun s => newRef s.2.2.2) = List.range (creators t).length

end Verif.Spec
