/-!
# Specification: walks and distances (C131)
-/

namespace Verif.Spec

/-- There is a walk of `k` edges from the first vertex to the second. -/
inductive Walk (edge : Nat → Nat → Bool) : Nat → Nat → Nat → Prop
  | nil {u} : Walk edge 0 u u
  | cons {k u w v} : edge u w = true → Walk edge k w v → Walk edge (k + 1) u v

/-- The shortest walk from `u` to `v` has `k` edges. -/
def IsDist (edge : Nat → Nat → Bool) (u v k : Nat) : Prop := Walk edge k u v ∧ ∀ j, Walk edge j u v → k ≤ j

/-- The pattern with vertices `V` and edges `E` occurs in a graph where `φ` says. -/
def OccursIn {V : Type} (E : V → V → Prop) (φ : V → Nat) (edge : Nat → Nat → Bool) : Prop :=
  ∀ x y, E x y → edge (φ x) (φ y) = true

end Verif.Spec
