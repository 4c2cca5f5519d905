import Mathlib.Algebra.BigOperators.Group.Finset.Basic
import Mathlib.Algebra.BigOperators.Ring.Finset
import Verif.Props.Edits

/-!
# Properties of iteration and of the queries: C09–C11, C13
-/

namespace Verif.Props
open Verif Spec

/-- The iterator after `k` calls of `next`. -/
def afterCalls {V : Type} (it : TableIter V) : Nat → TableIter V
  | 0 => it
  | k + 1 => (afterCalls it k).next.2

theorem afterCalls_pending {V : Type} (it : TableIter V) (k : Nat) :
    (afterCalls it k).pending = it.pending.drop k := by
  induction k with
  | zero => rfl
  | succ k ih =>
    unfold afterCalls
    cases hn : (afterCalls it k).next with
    | mk x it' =>
      cases x with
      | none =>
        have h := TableIter.next_none hn
        rw [ih] at h
        rw [h.2, List.drop_add_one_eq_tail_drop, h.1]; rfl
      | some x =>
        have h := TableIter.next_some hn
        rw [ih] at h
        rw [List.drop_add_one_eq_tail_drop, h]; rfl

theorem call_result {V : Type} (it : TableIter V) (k : Nat) :
    (afterCalls it k).next.1 = it.pending[k]? := by
  have h0 := afterCalls_pending it k
  cases hn : (afterCalls it k).next with
  | mk x it' =>
    cases x with
    | none =>
      have h := (TableIter.next_none hn).1
      rw [h0, List.drop_eq_nil_iff] at h
      exact (List.getElem?_eq_none h).symm
    | some x =>
      have h := TableIter.next_some hn
      rw [h0] at h
      have : it.pending[k]? = (it.pending.drop k)[0]? := by simp
      rw [this, h]; rfl

/-! ## C09 -/

/-- **C09.** Iterating a graph: there is a list that contains every edge exactly once and nothing else, has length
`edge_count`, is what a `for` loop sees, and the `k`-th call of `next` (for every `k`, also past the
end) returns its `k`-th element or `None` when there is none. -/
theorem C09_iteration_exactly_once {g : Graph} (hg : GReach g) (o : HashOrder) :
    (g.items o).Nodup ∧
    (∀ u v, (u, v) ∈ g.items o ↔ g.doesEdgeExist u v = true) ∧
    (g.items o).length = g.edgeCount ∧
    ∀ k, ((afterCalls (g.adjacencyMatrix.intoIter o) k).next.1).map (fun x => (x.1, x.2.1)) = (g.items o)[k]? := by
  refine ⟨Graph.items_nodup hg.ok o, fun u v => ?_, AdjMatrix.items_length hg.ok.wf o, fun k => ?_⟩
  · rw [Graph.mem_items hg.ok, Graph.doesEdgeExist_iff]
  · rw [call_result]
    unfold Graph.items AdjMatrix.items
    rw [TableIter.collect_eq_pending, List.getElem?_map]

/-- **C09** for `CsrAdjacencyMatrix`. -/
theorem C09_matrix_iteration {m : AdjMatrix} (hm : MReach m) (o : HashOrder) :
    (m.items o).Nodup ∧ (∀ c r, (c, r) ∈ m.items o ↔ m.getEntry c r ≠ 0) ∧
    (m.items o).length = m.entryCount ∧
    ∀ k, ((afterCalls (m.intoIter o) k).next.1).map (fun x => (x.1, x.2.1)) = (m.items o)[k]? := by
  refine ⟨AdjMatrix.items_nodup hm.wf o, fun u v => ?_, AdjMatrix.items_length hm.wf o, fun k => ?_⟩
  · rw [AdjMatrix.mem_items hm.wf, AdjMatrix.getEntry_ne_zero]
  · rw [call_result]
    unfold AdjMatrix.items
    rw [TableIter.collect_eq_pending, List.getElem?_map]

/-- **C09**, exhaustion: once a call has returned `None`, every later call does. -/
theorem C09_fused {g : Graph} (o : HashOrder) (k j : Nat) (hkj : k ≤ j)
    (hk : (afterCalls (g.adjacencyMatrix.intoIter o) k).next.1 = none) :
    (afterCalls (g.adjacencyMatrix.intoIter o) j).next.1 = none := by
  rw [call_result, List.getElem?_eq_none_iff] at *
  omega

/-- Two orders list the edges differently; a deleted edge left an empty column behind. -/
example : GReach exD ∧ exD.items .id = [(5, 0), (0, 1)] ∧ exD.items .rev = [(0, 1), (5, 0)] ∧
    exD.adjacencyMatrix.edgesTable.size = 3 := ⟨exD_reach, by decide +kernel⟩

/-! ## C10 -/

/-- **C10.** Neighbour lists and degrees are exact. -/
theorem C10_neighbours {g : Graph} (hg : GReach g) (o : HashOrder) (v : Nat) :
    (∀ w, w ∈ g.getVertexOutEdges o v ↔ g.doesEdgeExist v w = true) ∧
    (∀ u, u ∈ g.getVertexInEdges o v ↔ g.doesEdgeExist u v = true) ∧
    (g.getVertexOutEdges o v).Nodup ∧ (g.getVertexInEdges o v).Nodup ∧
    g.getVertexOutDegree v = (g.getVertexOutEdges o v).length ∧
    g.getVertexInDegree v = (g.getVertexInEdges o v).length ∧
    (g.isUndirected = true → ∀ o', (g.getVertexInEdges o v).Perm (g.getVertexOutEdges o' v)) := by
  refine ⟨fun w => ?_, fun u => ?_, Graph.out_nodup g o v, Graph.in_nodup g o v,
    (Graph.outDegree_length g o v).symm, (Graph.inDegree_length g o v).symm, fun hu o' => ?_⟩
  · rw [Graph.mem_out, Graph.doesEdgeExist_iff]
  · rw [Graph.mem_in hg.ok, Graph.doesEdgeExist_iff]
  · rw [List.perm_ext_iff_of_nodup (Graph.in_nodup _ _ _) (Graph.out_nodup _ _ _)]
    intro w
    rw [Graph.mem_in hg.ok, Graph.mem_out]
    exact ⟨hg.ok.sym hu w v, hg.ok.sym hu v w⟩

example : GReach exU ∧ exU.getVertexOutEdges .id 1 = [2, 0] ∧ exU.getVertexInEdges .rev 1 = [0, 2] ∧
    exD.getVertexInEdges .id 0 = [5] ∧ exD.getVertexOutDegree 99 = 0 := ⟨exU_reach, by decide +kernel⟩

/-! ## C11 -/

/-- **C11.** Degrees sum to the edge count. -/
theorem C11_degree_sums {g : Graph} (hg : GReach g) :
    ((List.range g.vertexCount).map g.getVertexOutDegree).sum = g.edgeCount ∧
    ((List.range g.vertexCount).map g.getVertexInDegree).sum = g.edgeCount := by
  have hsum : ∀ f : Nat → Nat, ((List.range g.vertexCount).map f).sum = ∑ v ∈ Finset.range g.vertexCount, f v :=
    fun f => rfl
  have hb := hg.ok.wf.bound
  rw [hsum, hsum, Graph.edgeCount_eq hg.ok]
  constructor
  · simp only [Graph.outDegree_eq]
    rw [← Finset.card_eq_sum_card_fiberwise (f := Prod.fst)]
    intro p hp
    exact Finset.mem_coe.2 (Finset.mem_range.2 (hb p hp).1)
  · simp only [Graph.inDegree_eq hg.ok]
    rw [← Finset.card_eq_sum_card_fiberwise (f := Prod.snd)]
    intro p hp
    exact Finset.mem_coe.2 (Finset.mem_range.2 (hb p hp).2)

example : GReach exU ∧ (List.range exU.vertexCount).map exU.getVertexOutDegree = [1, 2, 2] ∧ exU.edgeCount = 5 :=
  ⟨exU_reach, by decide⟩

/-! ## C13 -/

/-- **C13.** `undirected_from` accepts exactly the symmetric matrices, with exactly their entries as edges, and otherwise
returns `InvalidFormat`; `directed_from` keeps exactly the entries. -/
theorem C13_undirected_from {m : AdjMatrix} (hm : MReach m) (o : HashOrder) :
    ((∃ g, Graph.undirectedFrom o m = .ok g) ↔ ∀ c r, m.getEntry c r ≠ 0 → m.getEntry r c ≠ 0) ∧
    (∀ g, Graph.undirectedFrom o m = .ok g → g.isUndirected = true ∧ g.vertexCount = m.dimension ∧
      ∀ u v, g.doesEdgeExist u v = true ↔ m.getEntry u v ≠ 0) ∧
    ((¬ ∃ g, Graph.undirectedFrom o m = .ok g) → ∃ msg, Graph.undirectedFrom o m = .err (.InvalidFormat msg)) ∧
    ((Graph.directedFrom m).isUndirected = false ∧ (Graph.directedFrom m).vertexCount = m.dimension ∧
      ∀ u v, (Graph.directedFrom m).doesEdgeExist u v = true ↔ m.getEntry u v ≠ 0) := by
  have hq : ∀ (b : Bool) u v, (Graph.mk b m).doesEdgeExist u v = true ↔ m.getEntry u v ≠ 0 := by
    intro b u v; rw [Graph.doesEdgeExist_iff, AdjMatrix.getEntry_ne_zero]
  refine ⟨?_, ?_, ?_, rfl, rfl, hq false⟩
  · simp only [Graph.undirectedFrom_ok_iff hm.wf, AdjMatrix.getEntry_ne_zero]
    constructor
    · rintro ⟨g, h, _⟩ c r hcr; exact h (c, r) hcr
    · intro h; exact ⟨_, fun p hp => h p.1 p.2 hp, rfl⟩
  · intro g h
    obtain ⟨_, rfl⟩ := (Graph.undirectedFrom_ok_iff hm.wf).1 h
    exact ⟨rfl, rfl, hq true⟩
  · intro hn
    unfold Graph.undirectedFrom at hn ⊢
    split
    · next h => rw [if_pos h] at hn; exact absurd ⟨_, rfl⟩ hn
    · exact ⟨_, rfl⟩

/-- A symmetric matrix (accepted) and one that is not (rejected). -/
example : MReach (((AdjMatrix.new.setEntry 1 0 2).setEntry 1 2 0).setEntry 1 1 1) ∧
    (Graph.undirectedCheck (((AdjMatrix.new.setEntry 1 0 2).setEntry 1 2 0).setEntry 1 1 1)
      ((((AdjMatrix.new.setEntry 1 0 2).setEntry 1 2 0).setEntry 1 1 1).items .id)) = true ∧
    (Graph.undirectedCheck (AdjMatrix.new.setEntry 1 0 2) ((AdjMatrix.new.setEntry 1 0 2).items .id)) = false :=
  ⟨.setEntry _ _ _ (.setEntry _ _ _ (.setEntry _ _ _ .new)), by decide +kernel⟩

end Verif.Props
