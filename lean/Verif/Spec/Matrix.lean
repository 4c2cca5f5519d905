import Mathlib.Data.Finset.Card
import Verif.Model.AdjMatrix
import Verif.Model.SqMatrix

/-!
# Specification: what the two sparse matrix types should do under any history of calls
-/

namespace Verif.Spec

/-- A call on a 0/1 matrix. -/
inductive BitOp where
  | set (entry col row : Nat)
  | zero (col row : Nat)

/-- The abstract 0/1 matrix: a dimension and the set of coordinates that hold 1. -/
structure ABits where
  dim : Nat
  S : Finset (Nat × Nat)

/-- Effect of a call as implemented; the index `2^64 - 1` is not usable, and setting a zero only grows the
matrix. -/
def ABits.step (a : ABits) : BitOp → ABits
  | .set e c r =>
    if c < 2 ^ 64 - 1 ∧ r < 2 ^ 64 - 1 then
      ⟨max a.dim (max c r + 1), if e = 0 then a.S else a.S ∪ {(c, r)}⟩
    else a
  | .zero c r => ⟨a.dim, a.S \ {(c, r)}⟩

/-- The abstract matrix after a history. -/
def ABits.run (h : List BitOp) : ABits := h.foldl ABits.step ⟨0, ∅⟩

/-- The corresponding call on the model of the code. -/
def BitOp.call (m : AdjMatrix) : BitOp → AdjMatrix
  | .set e c r => m.setEntry e c r
  | .zero c r => m.zeroEntry c r

/-- A new matrix of the code followed by a history. -/
def runBits (h : List BitOp) : AdjMatrix := h.foldl BitOp.call AdjMatrix.new

/-- A call on a numeric matrix. -/
inductive NumOp (T : Type) where
  | set (entry : T) (col row : Nat)
  | zero (col row : Nat)
  | increment (col row : Nat)

/-- The abstract numeric matrix: a dimension and a partial map. -/
structure ANum (T : Type) where
  dim : Nat
  val : Nat → Nat → Option T

/-- Storing `x` at one coordinate, growing the matrix. -/
def ANum.put {T : Type} (a : ANum T) (c r : Nat) (x : Option T) : ANum T :=
  ⟨max a.dim (max c r + 1), fun c' r' => if (c', r') = (c, r) then x else a.val c' r'⟩

/-- Effect of a call as implemented, for an entry type with operations `N`; adding one may fail (overflow
in a debug build). -/
def ANum.step {T : Type} (N : Numeric T) (P : Platform) (a : ANum T) : NumOp T → Res (ANum T)
  | .set x c r =>
    if c < 2 ^ 64 - 1 ∧ r < 2 ^ 64 - 1 then
      .ok (a.put c r (if N.eq x N.zero then a.val c r else some x))
    else .ok a
  | .zero c r => .ok { a with val := fun c' r' => if (c', r') = (c, r) then none else a.val c' r' }
  | .increment c r =>
    if c < 2 ^ 64 - 1 ∧ r < 2 ^ 64 - 1 then
      match a.val c r with
      | none => .ok (a.put c r (some N.one))
      | some x => (N.addOne P x).map fun y => a.put c r (some y)
    else .ok a

/-- The abstract matrix after a history. -/
def ANum.run {T : Type} (N : Numeric T) (P : Platform) (h : List (NumOp T)) : Res (ANum T) :=
  Res.foldl (ANum.step N P) ⟨0, fun _ _ => none⟩ h

/-- The corresponding call on the model of the code. -/
def NumOp.call {T : Type} (N : Numeric T) (P : Platform) (m : SqMatrix T) : NumOp T → Res (SqMatrix T)
  | .set x c r => .ok (m.setEntry N x c r)
  | .zero c r => .ok (m.zeroEntry c r)
  | .increment c r => m.incrementEntry N P c r

/-- A new matrix of the code followed by a history. -/
def runNum {T : Type} (N : Numeric T) (P : Platform) (h : List (NumOp T)) : Res (SqMatrix T) :=
  Res.foldl (NumOp.call N P) SqMatrix.new h

/-- Every observation of the code's matrix gives the answer of the abstract one. -/
structure NumAgrees {T : Type} (N : Numeric T) (m : SqMatrix T) (a : ANum T) : Prop where
  dimension : m.dimension = a.dim
  entry : ∀ c r, m.getEntry N c r = (a.val c r).getD N.zero
  /-- the stored coordinates are finitely many and `entry_count` counts them -/
  count : ∃ S : Finset (Nat × Nat), (∀ c r, (c, r) ∈ S ↔ a.val c r ≠ none) ∧ m.entryCount = S.card
  items_mem : ∀ o x c r, (x, c, r) ∈ m.items o ↔ a.val c r = some x
  items_nodup : ∀ o, ((m.items o).map fun i => (i.2.1, i.2.2)).Nodup

end Verif.Spec
