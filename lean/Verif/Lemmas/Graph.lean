import Verif.Model.Graph
import Verif.Lemmas.AdjMatrix

/-! Lemmas about `Graph`: every edit in terms of the set of edges. -/

namespace Verif
namespace Graph

/-- The set of edges. -/
abbrev pairs (g : Graph) : Finset (Nat × Nat) := g.adjacencyMatrix.pairs

/-- Well-formed graphs. -/
structure OK (g : Graph) : Prop where
  wf : g.adjacencyMatrix.WF
  sym : g.isUndirected = true → ∀ u v, (u, v) ∈ g.pairs → (v, u) ∈ g.pairs

theorem doesEdgeExist_iff {g : Graph} {u v : Nat} : g.doesEdgeExist u v = true ↔ (u, v) ∈ g.pairs := by
  unfold doesEdgeExist
  rw [bne_iff_ne]
  exact AdjMatrix.getEntry_ne_zero

theorem doesEdgeExist_eq (g : Graph) (u v : Nat) : g.doesEdgeExist u v = decide ((u, v) ∈ g.pairs) := by
  rw [Bool.eq_iff_iff, doesEdgeExist_iff]; simp

theorem addEdge_overflow {g : Graph} {u v : Nat} (h : ¬ (u < U64_MAX ∧ v < U64_MAX)) :
    g.addEdge u v = g := by
  have h' : ¬ (v < U64_MAX ∧ u < U64_MAX) := fun x => h ⟨x.2, x.1⟩
  unfold addEdge
  rw [AdjMatrix.setEntry_overflow h]
  simp only [AdjMatrix.setEntry_overflow h', ite_self]

@[simp] theorem addEdge_isUndirected (g : Graph) (u v) : (g.addEdge u v).isUndirected = g.isUndirected := rfl

theorem addEdge_vertexCount {g : Graph} {u v : Nat} (hu : u < U64_MAX) (hv : v < U64_MAX) :
    (g.addEdge u v).vertexCount = max g.vertexCount (max (u + 1) (v + 1)) := by
  unfold addEdge vertexCount
  simp only
  split
  · rw [AdjMatrix.setEntry_dimension hv hu, AdjMatrix.setEntry_dimension hu hv]; omega
  · rw [AdjMatrix.setEntry_dimension hu hv]

/-- The pairs `add_edge(u, v)` puts in. -/
def newPairs (undirected : Bool) (u v : Nat) : Finset (Nat × Nat) :=
  if undirected then {(u, v), (v, u)} else {(u, v)}

theorem addEdge_pairs {g : Graph} {u v : Nat} (hu : u < U64_MAX) (hv : v < U64_MAX) :
    (g.addEdge u v).pairs = newPairs g.isUndirected u v ∪ g.pairs := by
  unfold addEdge pairs newPairs
  simp only
  split
  · rw [AdjMatrix.setEntry_pairs one_ne_zero hv hu, AdjMatrix.setEntry_pairs one_ne_zero hu hv]
    ext p; simp only [Finset.mem_insert, Finset.mem_union, Finset.mem_singleton]; tauto
  · rw [AdjMatrix.setEntry_pairs one_ne_zero hu hv]
    ext p; simp only [Finset.mem_insert, Finset.mem_union, Finset.mem_singleton]

theorem deleteEdge_vertexCount (g : Graph) (u v : Nat) : (g.deleteEdge u v).vertexCount = g.vertexCount := by
  unfold deleteEdge vertexCount
  simp only
  split <;> simp [AdjMatrix.zeroEntry_dimension]

@[simp] theorem deleteEdge_isUndirected (g : Graph) (u v) :
    (g.deleteEdge u v).isUndirected = g.isUndirected := rfl

theorem deleteEdge_pairs (g : Graph) (u v : Nat) :
    (g.deleteEdge u v).pairs = g.pairs \ newPairs g.isUndirected u v := by
  unfold deleteEdge pairs newPairs
  simp only
  split
  · rw [AdjMatrix.zeroEntry_pairs, AdjMatrix.zeroEntry_pairs]
    ext p; simp only [Finset.mem_erase, Finset.mem_sdiff, Finset.mem_insert, Finset.mem_singleton]; tauto
  · rw [AdjMatrix.zeroEntry_pairs]
    ext p; simp only [Finset.mem_erase, Finset.mem_sdiff, Finset.mem_singleton]; tauto

theorem mem_newPairs_comm {b : Bool} {u v x y : Nat} (hb : b = true) :
    (x, y) ∈ newPairs b u v ↔ (y, x) ∈ newPairs b u v := by
  unfold newPairs; simp only [hb, if_true, Finset.mem_insert, Finset.mem_singleton, Prod.mk.injEq]; tauto

theorem OK.newDirected : OK newDirected := ⟨AdjMatrix.WF.new, by simp [Graph.newDirected]⟩

theorem OK.newUndirected : OK newUndirected :=
  ⟨AdjMatrix.WF.new, by intro _ u v h; exact absurd h (by simp [Graph.pairs, Graph.newUndirected, AdjMatrix.new_pairs])⟩

theorem OK.addEdge {g : Graph} (h : OK g) (u v : Nat) : OK (g.addEdge u v) := by
  refine ⟨?_, ?_⟩
  · unfold Graph.addEdge
    simp only
    split
    · exact (h.wf.setEntry _ _ _).setEntry _ _ _
    · exact h.wf.setEntry _ _ _
  · intro hu x y hxy
    by_cases hb : u < U64_MAX ∧ v < U64_MAX
    · rw [addEdge_pairs hb.1 hb.2, Finset.mem_union] at hxy ⊢
      rw [addEdge_isUndirected] at hu
      rcases hxy with hxy | hxy
      · exact Or.inl ((mem_newPairs_comm hu).1 hxy)
      · exact Or.inr (h.sym hu _ _ hxy)
    · rw [addEdge_overflow hb] at *
      exact h.sym hu _ _ hxy

theorem OK.deleteEdge {g : Graph} (h : OK g) (u v : Nat) : OK (g.deleteEdge u v) := by
  refine ⟨?_, ?_⟩
  · unfold Graph.deleteEdge
    simp only
    split
    · exact (h.wf.zeroEntry _ _).zeroEntry _ _
    · exact h.wf.zeroEntry _ _
  · intro hu x y hxy
    rw [deleteEdge_pairs, Finset.mem_sdiff] at hxy ⊢
    rw [deleteEdge_isUndirected] at hu
    exact ⟨h.sym hu _ _ hxy.1, fun hc => hxy.2 ((mem_newPairs_comm hu).1 hc)⟩

/-- The `set_entry(0, v, 0)` part of `add_vertex`. -/
def touch (g : Graph) (v : Nat) : Graph :=
  if v ≥ g.vertexCount then { g with adjacencyMatrix := g.adjacencyMatrix.setEntry 0 v 0 } else g

theorem touch_eq (g : Graph) (v : Nat) :
    g.touch v = { g with adjacencyMatrix := { g.adjacencyMatrix with
      dimension := if v < U64_MAX then max g.vertexCount (v + 1) else g.vertexCount } } := by
  unfold touch vertexCount
  by_cases hv : v < U64_MAX
  · have h0 : (0 : Nat) < U64_MAX := by decide
    rw [AdjMatrix.setEntry_zero hv h0]
    split
    · simp
    · have : max g.adjacencyMatrix.dimension (v + 1) = g.adjacencyMatrix.dimension := by omega
      simp [this]
  · have : ¬ (v < U64_MAX ∧ 0 < U64_MAX) := fun h => hv h.1
    rw [AdjMatrix.setEntry_overflow this]
    simp [hv]

theorem addVertex_none (g : Graph) (v : Nat) : g.addVertex v none = g.touch v := by
  unfold addVertex touch; simp

theorem addVertex_nil (g : Graph) (v : Nat) : g.addVertex v (some []) = g.touch v := by
  unfold addVertex touch; simp

theorem addVertex_cons (g : Graph) (v t : Nat) (ts : List Nat) :
    g.addVertex v (some (t :: ts)) = (t :: ts).foldl (fun g t => g.addEdge v t) g := by
  unfold addVertex; simp

theorem touch_pairs (g : Graph) (v : Nat) : (g.touch v).pairs = g.pairs := by rw [touch_eq]; rfl
theorem touch_isUndirected (g : Graph) (v : Nat) : (g.touch v).isUndirected = g.isUndirected := by
  rw [touch_eq]
theorem touch_edgeCount (g : Graph) (v : Nat) : (g.touch v).edgeCount = g.edgeCount := by
  rw [touch_eq]; rfl
theorem touch_vertexCount (g : Graph) (v : Nat) :
    (g.touch v).vertexCount = if v < U64_MAX then max g.vertexCount (v + 1) else g.vertexCount := by
  rw [touch_eq]; rfl

theorem OK.touch {g : Graph} (h : OK g) (v : Nat) : OK (g.touch v) := by
  unfold Graph.touch
  split
  · refine ⟨h.wf.setEntry 0 v 0, ?_⟩
    intro hu x y hxy
    have := touch_pairs g v
    unfold Graph.touch at this
    rw [if_pos (by assumption)] at this
    rw [this] at hxy ⊢
    exact h.sym hu _ _ hxy
  · exact h

theorem OK.addEdges {g : Graph} (h : OK g) (v : Nat) (ts : List Nat) :
    OK (ts.foldl (fun g t => g.addEdge v t) g) := by
  induction ts generalizing g with
  | nil => exact h
  | cons t ts ih => exact ih (h.addEdge v t)

theorem OK.addVertex {g : Graph} (h : OK g) (v : Nat) (ts : Option (List Nat)) : OK (g.addVertex v ts) := by
  match ts with
  | none => rw [addVertex_none]; exact h.touch v
  | some [] => rw [addVertex_nil]; exact h.touch v
  | some (t :: ts) => rw [addVertex_cons]; exact h.addEdges v _

theorem edgeCount_eq {g : Graph} (h : OK g) : g.edgeCount = g.pairs.card := h.wf.count

theorem undirectedCheck_iff (m : AdjMatrix) (l : List (Nat × Nat)) :
    undirectedCheck m l = true ↔ ∀ p ∈ l, (p.2, p.1) ∈ m.pairs := by
  induction l with
  | nil => simp [undirectedCheck]
  | cons e l ih =>
    obtain ⟨c, r⟩ := e
    unfold undirectedCheck
    split
    · next h =>
      simp only [Bool.false_eq_true, false_iff]
      intro hall
      exact h (AdjMatrix.getEntry_eq_one.2 (hall (c, r) (by simp)))
    · next h =>
      simp only [not_not] at h
      rw [ih]
      simp [AdjMatrix.getEntry_eq_one.1 h]

theorem undirectedFrom_ok_iff {o : HashOrder} {m : AdjMatrix} (h : m.WF) {g : Graph} :
    undirectedFrom o m = .ok g ↔ (∀ p ∈ m.pairs, (p.2, p.1) ∈ m.pairs) ∧ g = ⟨true, m⟩ := by
  unfold undirectedFrom
  have hc := undirectedCheck_iff m (m.items o)
  simp only [AdjMatrix.mem_items h] at hc
  split
  · next h1 =>
    constructor
    · intro h2; cases h2; exact ⟨hc.1 h1, rfl⟩
    · rintro ⟨_, rfl⟩; rfl
  · next h1 =>
    simp only [reduceCtorEq, false_iff, not_and]
    intro h2; exact absurd (hc.2 h2) h1

theorem OK.undirectedFrom {o : HashOrder} {m : AdjMatrix} (h : m.WF) {g : Graph}
    (hg : Graph.undirectedFrom o m = .ok g) : OK g := by
  obtain ⟨hs, rfl⟩ := (undirectedFrom_ok_iff h).1 hg
  exact ⟨h, fun _ u v huv => hs (u, v) huv⟩

theorem OK.directedFrom {m : AdjMatrix} (h : m.WF) : OK (Graph.directedFrom m) :=
  ⟨h, by simp [Graph.directedFrom]⟩

end Graph
end Verif
