import Mathlib.Data.Finset.Card
import Mathlib.Data.Finset.Prod
import Verif.Model.Reach
import Verif.Spec.AGraph
import Verif.Spec.Blocks

/-!
# Specification: which graphs, compressed graphs and approximations there are (C126)
-/

namespace Verif.Spec

/-- `S` is the edge set of a graph with `n` vertices: within range and, for an undirected graph, symmetric. -/
structure EdgeSet (undirected : Bool) (n : Nat) (S : Finset (Nat × Nat)) : Prop where
  inRange : ∀ p ∈ S, p.1 < n ∧ p.2 < n
  symm : undirected = true → ∀ a b, (a, b) ∈ S → (b, a) ∈ S

/-- `g` has this direction, this number of vertices and exactly these edges. -/
def Has (g : Graph) (undirected : Bool) (n : Nat) (S : Finset (Nat × Nat)) : Prop :=
  g.isUndirected = undirected ∧ g.vertexCount = n ∧ ∀ a b, g.doesEdgeExist a b = true ↔ (a, b) ∈ S

/-- What a compressed graph must satisfy to be a result of `compress` at level `l`. -/
structure FromCompress (c : CGraph) (l : Nat) : Prop where
  level : c.compressionLevel = max 1 (min l 64)
  edgeCount : c.edgeCount = min (2 ^ 64 - 1) ((Finset.range c.vertexCount ×ˢ Finset.range c.vertexCount).filter
    fun p => c.doesEdgeExist p.1 p.2 = true).card
  symm : c.isUndirected = true → ∀ u v, c.doesEdgeExist u v = c.doesEdgeExist v u
  blocks : ∀ x y, 0 < blockCount c.doesEdgeExist 8 x y →
    max 1 (min l 64) * (min 8 c.vertexCount * min 8 c.vertexCount) ≤ 64 * blockCount c.doesEdgeExist 8 x y

/-- Every graph that fits is an approximation with this block dimension and threshold. -/
def AllGraphs (b : Nat) (t : F64) : Prop :=
  ∀ h, GReach h → h.vertexCount * b ≤ 2 ^ 64 - 1 → ∀ (P : Platform) (o₁ o₂ : HashOrder),
    ∃ g a, GReach g ∧ g.approximate P o₁ o₂ b t = .ok a ∧ Same a h

/-- No approximation with this block dimension in effect and this threshold has an edge. -/
def NoEdges (b : Nat) (t : F64) : Prop :=
  ∀ g, GReach g → b ≤ g.vertexCount → ∀ (P : Platform) (o₁ o₂ : HashOrder), ∃ a, g.approximate P o₁ o₂ b t = .ok a ∧
    ∀ u v, a.doesEdgeExist u v = false

end Verif.Spec
