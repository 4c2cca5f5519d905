import Verif.Spec.AGraph
import Verif.Spec.Matrix

/-!
# Specification: what is kept in memory

A matrix is a table of tables (`csr_adjacency_matrix.rs:26-30`, `csr_square_matrix.rs:28-32`).
-/

namespace Verif.Spec

/-- The tables that are kept: the column, and the number of entries of its table. -/
def tables {V : Type} (t : HMap (HMap V)) : List (Nat × Nat) := t.entries.map fun e => (e.1, e.2.entries.length)

/-- The number of entries in all tables together. -/
def cells {V : Type} (t : HMap (HMap V)) : Nat := ((tables t).map Prod.snd).sum

/-- No empty table is kept. -/
def NoEmptyTable {V : Type} (t : HMap (HMap V)) : Prop := ∀ e ∈ tables t, e.2 ≠ 0

/-- The tables of a graph. -/
def _root_.Verif.Graph.table (g : Graph) : HMap (HMap Unit) := g.adjacencyMatrix.edgesTable

/-- The vertex has had an outgoing edge at some time. -/
def EverLeft (undirected : Bool) (h : List Edit) (u : Nat) : Prop :=
  ∃ i v, (u, v) ∈ ((h.take i).foldl AGraph.applyActual (AGraph.empty undirected)).E

/-- The column has had an entry at some time. -/
def EverHeld {T : Type} (N : Numeric T) (P : Platform) (h : List (NumOp T)) (c : Nat) : Prop :=
  ∃ i a r, ANum.run N P (h.take i) = .ok a ∧ a.val c r ≠ none

/-- The history deletes nothing. -/
def NoDelete (h : List Edit) : Prop := ∀ u v, .deleteEdge u v ∉ h

end Verif.Spec
