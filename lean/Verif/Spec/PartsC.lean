import Verif.Spec.Addresses
import Verif.Spec.Parts

/-!
# C programs made of parts with objects of their own

Every command of a program (`Spec/Addresses.lean`) has the number of the part that makes it: a thread whose calls do not overlap the others', a
module, a library.  The `k`-th command of the whole program gives the name `k`; a part on its own counts only its own commands
(`ownNumber` of `Spec/Parts.lean`).
-/

namespace Verif.Spec
open Verif

/-- A program whose commands belong to parts. -/
abbrev PartedC := List (Nat × Cmd)

/-- A command with other names. -/
def Cmd.mapName (f : Nat → Nat) : Cmd → Cmd
  | .call c => .call (c.mapPtr f)
  | .own x => .own x
  | .set n x => .set (f n) x
  | .drop n => .drop (f n)
  | .read n => .read (f n)
  | .same i j => .same (f i) (f j)

/-- The part of each command. -/
def labels (t : PartedC) : List Nat := t.map Prod.fst

/-- The program that consists of part `k` only. -/
def cPart (t : PartedC) (k : Nat) : List Cmd :=
  (t.filter fun s => s.1 == k).map fun s => s.2.mapName (ownNumber (labels t) k)

/-- No part uses a name that a command of another part gives. -/
def OwnNames (t : PartedC) : Prop := ∀ s ∈ t, ∀ n ∈ s.2.names, ∀ j, (labels t)[n]? = some j → j = s.1

/-- What part `k` sees of what the whole program sees. -/
def seenBy (t : PartedC) (k : Nat) (s : List Obs) : List Obs := ((t.zip s).filter fun x => x.1.1 == k).map Prod.snd

/-- Every part is alone on the same platform and with the same hash orders, command by command, as in the whole program; the allocators
may be different. -/
def Fits (t : PartedC) (E : Nat → Ctx) (F : Nat → Nat → Ctx) : Prop :=
  ∀ n k, (labels t)[n]? = some k →
    (F k (ownNumber (labels t) k n)).P = (E n).P ∧ (F k (ownNumber (labels t) k n)).o₁ = (E n).o₁ ∧
      (F k (ownNumber (labels t) k n)).o₂ = (E n).o₂

/-- Nothing undefined happened and nothing was aborted. -/
def NoStop (s : List Obs) : Prop := ∀ o ∈ s, o ≠ .undefined ∧ o ≠ .aborted

end Verif.Spec
