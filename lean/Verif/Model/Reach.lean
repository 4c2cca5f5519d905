import Verif.Model.Pool

/-!
# States reachable through the safe public API

Any combination of constructors and edits of `CsrAdjacencyMatrix`, `Graph` and `CompressedGraph`
(`clone()` is the identity on values).  Not included: `unsafe fn undirected_from_unchecked`
(`standard.rs:172`) and `unsafe fn CompressedGraphBuilder::finish` called by the user
(`compressed.rs:639`), whose contracts are obligations of the caller.
-/

namespace Verif

/-- Matrices built with the public API of `CsrAdjacencyMatrix`. `csr_adjacency_matrix.rs:48, 259, 287`. -/
inductive MReach : AdjMatrix → Prop
  | new : MReach AdjMatrix.new
  | setEntry {m} (e c r : Nat) : MReach m → MReach (m.setEntry e c r)
  | zeroEntry {m} (c r : Nat) : MReach m → MReach (m.zeroEntry c r)

mutual
/-- Graphs obtainable through safe functions. `standard.rs:61-284, 536, 731`, `compressed.rs:80`. -/
inductive GReach : Graph → Prop
  | newDirected : GReach Graph.newDirected
  | newUndirected : GReach Graph.newUndirected
  | directedFrom {m} : MReach m → GReach (Graph.directedFrom m)
  | undirectedFrom {m g} (o : HashOrder) : MReach m → Graph.undirectedFrom o m = .ok g → GReach g
  | addVertex {g} (v : Nat) (ts : Option (List Nat)) : GReach g → GReach (g.addVertex v ts)
  | addEdge {g} (u v : Nat) : GReach g → GReach (g.addEdge u v)
  | deleteEdge {g} (u v : Nat) : GReach g → GReach (g.deleteEdge u v)
  | tryFrom {g} (P : Platform) (b : Bytes) : Graph.tryFrom P b = .ok g → GReach g
  | approximate {g g'} (P : Platform) (o₁ o₂ : HashOrder) (b : Nat) (t : F64) :
      GReach g → g.approximate P o₁ o₂ b t = .ok g' → GReach g'
  | decompress {c g} (P : Platform) (o : HashOrder) : CReach c → c.decompress P o = .ok g → GReach g
/-- Compressed graphs obtainable through safe functions. `standard.rs:624`, `compressed.rs:250`. -/
inductive CReach : CGraph → Prop
  | compress {g c} (P : Platform) (o₁ o₂ : HashOrder) (l : Nat) :
      GReach g → g.compress P o₁ o₂ l = .ok c → CReach c
  | tryFrom {c} (P : Platform) (b : Bytes) : CGraph.tryFrom P b = .ok c → CReach c
end

end Verif
