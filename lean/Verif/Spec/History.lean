import Verif.Spec.AGraph

/-!
# Specification: what a history of edits comes to (C128)

Three relations say all there is to say about an edit: which edges it puts in, which it takes out, and which vertices it makes
sure of.
-/

namespace Verif.Spec

/-- The edges that `add_edge(a, b)` puts in: none if an id is unusable, both directions if the graph is undirected. -/
def PutsEdge (undirected : Bool) (a b x y : Nat) : Prop :=
  a < 2 ^ 64 - 1 ∧ b < 2 ^ 64 - 1 ∧ ((x = a ∧ y = b) ∨ (undirected = true ∧ x = b ∧ y = a))

/-- The edit puts the edge `(x, y)` in. -/
def Edit.Puts (undirected : Bool) (x y : Nat) : Edit → Prop
  | .addEdge a b => PutsEdge undirected a b x y
  | .addVertex v ts => ∃ t ∈ ts.getD [], PutsEdge undirected v t x y
  | .deleteEdge _ _ => False

/-- The edit takes the edge `(x, y)` out. -/
def Edit.Takes (undirected : Bool) (x y : Nat) : Edit → Prop
  | .deleteEdge a b => (x = a ∧ y = b) ∨ (undirected = true ∧ x = b ∧ y = a)
  | _ => False

/-- The edit makes sure that vertex `n` exists (and with it all smaller ids). -/
def Edit.Ensures (n : Nat) : Edit → Prop
  | .addEdge a b => a < 2 ^ 64 - 1 ∧ b < 2 ^ 64 - 1 ∧ (n = a ∨ n = b)
  | .addVertex v ts => v < 2 ^ 64 - 1 ∧
      ((ts.getD [] = [] ∧ n = v) ∨ ∃ t ∈ ts.getD [], t < 2 ^ 64 - 1 ∧ (n = v ∨ n = t))
  | .deleteEdge _ _ => False

/-- One of the edits puts an edge in that the other one takes out. -/
def Conflict (undirected : Bool) (e f : Edit) : Prop :=
  ∃ x y, (e.Puts undirected x y ∧ f.Takes undirected x y) ∨ (e.Takes undirected x y ∧ f.Puts undirected x y)

end Verif.Spec
