import Mathlib.Data.Finset.Card
import Mathlib.Data.Finset.Lattice.Basic
import Verif.Model.Graph

/-!
# Specification: a graph is a direction, a number of vertices and a finite set of ordered pairs
-/

namespace Verif.Spec

/-- The abstract graph. -/
structure AGraph where
  undirected : Bool
  n : Nat
  E : Finset (Nat × Nat)

/-- A single edit of the public API. -/
inductive Edit where
  | addVertex (v : Nat) (targets : Option (List Nat))
  | addEdge (u v : Nat)
  | deleteEdge (u v : Nat)

namespace AGraph

/-- The graph without vertices. -/
def empty (undirected : Bool) : AGraph := ⟨undirected, 0, ∅⟩

/-- Adding an edge; the id `2^64 - 1` is not usable. -/
def addEdge (a : AGraph) (u v : Nat) : AGraph :=
  if u < 2 ^ 64 - 1 ∧ v < 2 ^ 64 - 1 then
    { a with
      n := max a.n (max u v + 1)
      E := a.E ∪ (if a.undirected then {(u, v), (v, u)} else {(u, v)}) }
  else a

/-- Deleting an edge. -/
def deleteEdge (a : AGraph) (u v : Nat) : AGraph :=
  { a with E := a.E.filter fun p => ¬ (p = (u, v) ∨ (a.undirected = true ∧ p = (v, u))) }

/-- Making sure that vertex `v` exists. -/
def ensureVertex (a : AGraph) (v : Nat) : AGraph :=
  if v < 2 ^ 64 - 1 then { a with n := max a.n (v + 1) } else a

/-- Adding a vertex and edges to the targets, as documented: the vertex exists afterwards. -/
def addVertex (a : AGraph) (v : Nat) (targets : Option (List Nat)) : AGraph :=
  ((targets.getD []).foldl (fun a t => a.addEdge v t) a).ensureVertex v

/-- What the code does: with a non-empty list the vertex is created only through the edges. -/
def addVertexActual (a : AGraph) (v : Nat) (targets : Option (List Nat)) : AGraph :=
  if targets.getD [] = [] then a.ensureVertex v
  else (targets.getD []).foldl (fun a t => a.addEdge v t) a

/-- An edit as documented. -/
def apply (a : AGraph) : Edit → AGraph
  | .addVertex v ts => a.addVertex v ts
  | .addEdge u v => a.addEdge u v
  | .deleteEdge u v => a.deleteEdge u v

/-- An edit as implemented (differs from `apply` only for `addVertex` with unusable targets). -/
def applyActual (a : AGraph) : Edit → AGraph
  | .addVertex v ts => a.addVertexActual v ts
  | .addEdge u v => a.addEdge u v
  | .deleteEdge u v => a.deleteEdge u v

end AGraph

/-- All ids mentioned by the edit are usable. -/
def Edit.Usable : Edit → Prop
  | .addVertex v ts => v < 2 ^ 64 - 1 ∧ ∀ t ∈ ts.getD [], t < 2 ^ 64 - 1
  | .addEdge u v => u < 2 ^ 64 - 1 ∧ v < 2 ^ 64 - 1
  | .deleteEdge _ _ => True

/-- The number of elementary insertions and deletions of an edit. -/
def Edit.cost : Edit → Nat
  | .addVertex _ ts => (ts.getD []).length + 1
  | .addEdge _ _ => 1
  | .deleteEdge _ _ => 1

/-- The corresponding call on the model of the code. -/
def Edit.call (g : Graph) : Edit → Graph
  | .addVertex v ts => g.addVertex v ts
  | .addEdge u v => g.addEdge u v
  | .deleteEdge u v => g.deleteEdge u v

/-- A new graph of the code followed by a history of edits. -/
def runCode (undirected : Bool) (h : List Edit) : Graph :=
  h.foldl Edit.call (if undirected then Graph.newUndirected else Graph.newDirected)

/-- Every query of the code's graph `g` gives the answer of the abstract graph `a`. -/
structure Agrees (g : Graph) (a : AGraph) : Prop where
  direction : g.isUndirected = a.undirected
  vertexCount : g.vertexCount = a.n
  edgeCount : g.edgeCount = a.E.card
  edge : ∀ u v, g.doesEdgeExist u v = true ↔ (u, v) ∈ a.E
  out_mem : ∀ o v w, w ∈ g.getVertexOutEdges o v ↔ (v, w) ∈ a.E
  out_nodup : ∀ o v, (g.getVertexOutEdges o v).Nodup
  in_mem : ∀ o v u, u ∈ g.getVertexInEdges o v ↔ (u, v) ∈ a.E
  in_nodup : ∀ o v, (g.getVertexInEdges o v).Nodup
  outDegree : ∀ v, g.getVertexOutDegree v = (a.E.filter fun p => p.1 = v).card
  inDegree : ∀ v, g.getVertexInDegree v = (a.E.filter fun p => p.2 = v).card
  items_mem : ∀ o p, p ∈ g.items o ↔ p ∈ a.E
  items_nodup : ∀ o, (g.items o).Nodup

/-- No query can tell the two graphs apart (lists up to the arbitrary hash order). -/
structure Same (g g' : Graph) : Prop where
  direction : g.isUndirected = g'.isUndirected
  vertexCount : g.vertexCount = g'.vertexCount
  edgeCount : g.edgeCount = g'.edgeCount
  edge : ∀ u v, g.doesEdgeExist u v = g'.doesEdgeExist u v
  outEdges : ∀ o o' v, (g.getVertexOutEdges o v).Perm (g'.getVertexOutEdges o' v)
  inEdges : ∀ o o' v, (g.getVertexInEdges o v).Perm (g'.getVertexInEdges o' v)
  outDegree : ∀ v, g.getVertexOutDegree v = g'.getVertexOutDegree v
  inDegree : ∀ v, g.getVertexInDegree v = g'.getVertexInDegree v
  items : ∀ o o', (g.items o).Perm (g'.items o')

end Verif.Spec
