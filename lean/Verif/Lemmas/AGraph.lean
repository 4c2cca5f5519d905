import Verif.Spec.AGraph
import Verif.Lemmas.Reach

/-! Connecting the invariant `Graph.OK` with the abstract specification. -/

namespace Verif
open Spec

namespace Graph

theorem mem_out {g : Graph} {o v w} : w ∈ g.getVertexOutEdges o v ↔ (v, w) ∈ g.pairs :=
  AdjMatrix.mem_getSparseColVector

theorem mem_in {g : Graph} (h : g.OK) {o v u} : u ∈ g.getVertexInEdges o v ↔ (u, v) ∈ g.pairs := by
  unfold getVertexInEdges
  split
  · next hu =>
    rw [AdjMatrix.mem_getSparseColVector]
    exact ⟨h.sym hu v u, h.sym hu u v⟩
  · exact AdjMatrix.mem_getSparseRowVector

theorem out_nodup (g : Graph) (o v) : (g.getVertexOutEdges o v).Nodup :=
  AdjMatrix.getSparseColVector_nodup _ _ _

theorem in_nodup (g : Graph) (o v) : (g.getVertexInEdges o v).Nodup := by
  unfold getVertexInEdges
  split
  · exact AdjMatrix.getSparseColVector_nodup _ _ _
  · exact AdjMatrix.getSparseRowVector_nodup _ _ _

theorem outDegree_eq (g : Graph) (v) : g.getVertexOutDegree v = (g.pairs.filter fun p => p.1 = v).card :=
  AdjMatrix.colNonzeroEntryCount_eq _ _

theorem inDegree_eq {g : Graph} (h : g.OK) (v) :
    g.getVertexInDegree v = (g.pairs.filter fun p => p.2 = v).card := by
  unfold getVertexInDegree
  split
  · next hu =>
    rw [AdjMatrix.colNonzeroEntryCount_eq]
    refine Finset.card_bij (fun p _ => (p.2, p.1)) ?_ ?_ ?_
    · intro p hp
      rw [Finset.mem_filter] at hp ⊢
      exact ⟨h.sym hu p.1 p.2 hp.1, hp.2⟩
    · rintro ⟨a, b⟩ _ ⟨c, d⟩ _ heq
      simp only [Prod.mk.injEq] at heq ⊢
      exact ⟨heq.2, heq.1⟩
    · rintro ⟨a, b⟩ hp
      rw [Finset.mem_filter] at hp
      exact ⟨(b, a), by rw [Finset.mem_filter]; exact ⟨h.sym hu a b hp.1, hp.2⟩, rfl⟩
  · exact AdjMatrix.rowNonzeroEntryCount_eq _ _

theorem outDegree_length (g : Graph) (o v) : (g.getVertexOutEdges o v).length = g.getVertexOutDegree v :=
  AdjMatrix.getSparseColVector_length _ _ _

theorem inDegree_length (g : Graph) (o v) : (g.getVertexInEdges o v).length = g.getVertexInDegree v := by
  unfold getVertexInEdges getVertexInDegree
  split
  · exact AdjMatrix.getSparseColVector_length _ _ _
  · exact AdjMatrix.getSparseRowVector_length _ _ _

theorem mem_items {g : Graph} (h : g.OK) (o : HashOrder) {p : Nat × Nat} : p ∈ g.items o ↔ p ∈ g.pairs :=
  AdjMatrix.mem_items h.wf o

theorem items_nodup {g : Graph} (h : g.OK) (o : HashOrder) : (g.items o).Nodup :=
  AdjMatrix.items_nodup h.wf o

theorem agrees {g : Graph} (h : g.OK) : Agrees g ⟨g.isUndirected, g.vertexCount, g.pairs⟩ where
  direction := rfl
  vertexCount := rfl
  edgeCount := edgeCount_eq h
  edge _ _ := doesEdgeExist_iff
  out_mem _ _ _ := mem_out
  out_nodup := out_nodup g
  in_mem _ _ _ := mem_in h
  in_nodup := in_nodup g
  outDegree := outDegree_eq g
  inDegree := inDegree_eq h
  items_mem o _ := mem_items h o
  items_nodup := items_nodup h

theorem same {g g' : Graph} (h : g.OK) (h' : g'.OK) (hd : g.isUndirected = g'.isUndirected)
    (hv : g.vertexCount = g'.vertexCount) (hp : g.pairs = g'.pairs) : Same g g' where
  direction := hd
  vertexCount := hv
  edgeCount := by rw [edgeCount_eq h, edgeCount_eq h', hp]
  edge u v := by rw [doesEdgeExist_eq, doesEdgeExist_eq, hp]
  outEdges o o' v := by
    rw [List.perm_ext_iff_of_nodup (out_nodup _ _ _) (out_nodup _ _ _)]
    intro w; rw [mem_out, mem_out, hp]
  inEdges o o' v := by
    rw [List.perm_ext_iff_of_nodup (in_nodup _ _ _) (in_nodup _ _ _)]
    intro w; rw [mem_in h, mem_in h', hp]
  outDegree v := by rw [outDegree_eq, outDegree_eq, hp]
  inDegree v := by rw [inDegree_eq h, inDegree_eq h', hp]
  items o o' := by
    rw [List.perm_ext_iff_of_nodup (items_nodup h _) (items_nodup h' _)]
    intro p; rw [mem_items h, mem_items h', hp]

/-- Equality of pairs from equality of the query. -/
theorem pairs_eq_of_edge {g g' : Graph} (h : ∀ u v, g.doesEdgeExist u v = g'.doesEdgeExist u v) :
    g.pairs = g'.pairs := by
  ext ⟨u, v⟩
  rw [← doesEdgeExist_iff, ← doesEdgeExist_iff, h]

/-! ### the abstract graph of a graph -/

def abs (g : Graph) : AGraph := ⟨g.isUndirected, g.vertexCount, g.pairs⟩

theorem U64_pow : (2 ^ 64 - 1 : Nat) = U64_MAX := by norm_num [U64_MAX]

theorem abs_addEdge (g : Graph) (u v : Nat) : (g.addEdge u v).abs = g.abs.addEdge u v := by
  unfold AGraph.addEdge
  rw [U64_pow]
  split
  · next h =>
    unfold abs
    rw [addEdge_vertexCount h.1 h.2, addEdge_pairs h.1 h.2, Finset.union_comm]
    simp only [AGraph.mk.injEq]
    exact ⟨rfl, by omega, rfl⟩
  · next h => rw [addEdge_overflow h]

theorem abs_deleteEdge (g : Graph) (u v : Nat) : (g.deleteEdge u v).abs = g.abs.deleteEdge u v := by
  unfold abs AGraph.deleteEdge
  rw [deleteEdge_vertexCount, deleteEdge_pairs]
  simp only [AGraph.mk.injEq, deleteEdge_isUndirected, true_and]
  ext ⟨x, y⟩
  rw [Finset.mem_sdiff, Finset.mem_filter]
  unfold newPairs
  cases g.isUndirected <;> simp

theorem abs_touch (g : Graph) (v : Nat) : (g.touch v).abs = g.abs.ensureVertex v := by
  unfold abs AGraph.ensureVertex
  rw [touch_isUndirected, touch_vertexCount, touch_pairs, U64_pow]
  simp only
  split <;> rfl

theorem abs_addEdges (v : Nat) (ts : List Nat) (g : Graph) :
    (ts.foldl (fun g t => g.addEdge v t) g).abs = ts.foldl (fun a t => a.addEdge v t) g.abs := by
  induction ts generalizing g with
  | nil => rfl
  | cons t ts ih => rw [List.foldl_cons, List.foldl_cons, ih, abs_addEdge]

theorem abs_addVertex (g : Graph) (v : Nat) (ts) : (g.addVertex v ts).abs = g.abs.addVertexActual v ts := by
  unfold AGraph.addVertexActual
  match ts with
  | none => rw [addVertex_none, abs_touch]; rfl
  | some [] => rw [addVertex_nil, abs_touch]; rfl
  | some (t :: ts) => rw [addVertex_cons, abs_addEdges]; rfl

theorem abs_call (g : Graph) (e : Edit) : (e.call g).abs = g.abs.applyActual e := by
  cases e with
  | addVertex v ts => exact abs_addVertex g v ts
  | addEdge u v => exact abs_addEdge g u v
  | deleteEdge u v => exact abs_deleteEdge g u v

theorem abs_foldl (h : List Edit) (g : Graph) : (h.foldl Edit.call g).abs = h.foldl AGraph.applyActual g.abs := by
  induction h generalizing g with
  | nil => rfl
  | cons e h ih => rw [List.foldl_cons, List.foldl_cons, ih, abs_call]

theorem OK.call {g : Graph} (h : g.OK) (e : Edit) : OK (e.call g) := by
  cases e with
  | addVertex v ts => exact h.addVertex v ts
  | addEdge u v => exact h.addEdge u v
  | deleteEdge u v => exact h.deleteEdge u v

theorem OK.runCode (u : Bool) (h : List Edit) : OK (runCode u h) :=
  OK.foldl _ (fun _ e hg => hg.call e) h _ (OK.empty u)

theorem abs_runCode (u : Bool) (h : List Edit) :
    (Spec.runCode u h).abs = h.foldl AGraph.applyActual (AGraph.empty u) := by
  unfold Spec.runCode
  rw [abs_foldl]
  cases u <;> rfl

end Graph

namespace Spec.AGraph

theorem addEdge_n_le {a : AGraph} {u v m : Nat} : (a.addEdge u v).n ≤ m ↔
    a.n ≤ m ∧ (u < 2 ^ 64 - 1 ∧ v < 2 ^ 64 - 1 → u < m ∧ v < m) := by
  unfold addEdge
  split
  · next h => simp only [h, true_and, forall_const]; omega
  · next h => simp [h]

theorem addEdges_n_le (v : Nat) (ts : List Nat) (a : AGraph) :
    a.n ≤ (ts.foldl (fun a t => a.addEdge v t) a).n := by
  induction ts generalizing a with
  | nil => exact le_refl _
  | cons t ts ih =>
    rw [List.foldl_cons]
    refine le_trans ?_ (ih _)
    exact (addEdge_n_le.1 (le_refl _)).1

theorem addVertexActual_eq {a : AGraph} {v : Nat} {ts : Option (List Nat)}
    (h : Edit.Usable (.addVertex v ts)) : a.addVertexActual v ts = a.addVertex v ts := by
  unfold addVertexActual addVertex
  obtain ⟨hv, ht⟩ := h
  split
  · next h0 => rw [h0]; rfl
  · next h0 =>
    cases hl : ts.getD [] with
    | nil => exact absurd hl h0
    | cons t l =>
      rw [hl] at ht
      have h1 : v < (List.foldl (fun a t => a.addEdge v t) a (t :: l)).n := by
        rw [List.foldl_cons]
        refine lt_of_lt_of_le ?_ (addEdges_n_le v l _)
        exact ((addEdge_n_le (a := a) (u := v) (v := t)).1 (le_refl _)).2 ⟨hv, ht t (by simp)⟩ |>.1
      unfold ensureVertex
      rw [if_pos hv, max_eq_left (by omega)]

theorem foldl_actual_eq (h : List Edit) (hu : ∀ e ∈ h, e.Usable) (a : AGraph) :
    h.foldl applyActual a = h.foldl apply a := by
  induction h generalizing a with
  | nil => rfl
  | cons e h ih =>
    rw [List.foldl_cons, List.foldl_cons, ih (fun e he => hu e (by simp [he]))]
    congr 1
    cases e with
    | addVertex v ts => exact addVertexActual_eq (hu _ (by simp))
    | addEdge u v => rfl
    | deleteEdge u v => rfl

end Spec.AGraph
end Verif
