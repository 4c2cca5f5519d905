import Mathlib.Data.Finset.Prod
import Verif.Lemmas.AGraph

/-!
# Properties of graph edits: C01–C08, C12, C58
-/

namespace Verif.Props
open Verif Spec

/-- A small graph used in the examples: an undirected graph with edges 0–1, 1–2 and 2–2. -/
def exU : Graph := ((Graph.newUndirected.addEdge 0 1).addEdge 1 2).addEdge 2 2
/-- A small directed graph used in the examples: 0→1, 1→2, 5→0, then 1→2 deleted. -/
def exD : Graph := (((Graph.newDirected.addEdge 0 1).addEdge 1 2).addEdge 5 0).deleteEdge 1 2

theorem exU_reach : GReach exU := .addEdge _ _ (.addEdge _ _ (.addEdge _ _ .newUndirected))
theorem exD_reach : GReach exD := .deleteEdge _ _ (.addEdge _ _ (.addEdge _ _ (.addEdge _ _ .newDirected)))

/-! ## C01 -/

/-- **C01.** After any history of edits on a new graph every query answers like the abstract graph. -/
theorem C01_history_refinement (undirected : Bool) (h : List Edit) :
    Agrees (runCode undirected h) (h.foldl AGraph.applyActual (AGraph.empty undirected)) := by
  have := Graph.agrees (Graph.OK.runCode undirected h)
  rwa [show (⟨_, _, _⟩ : AGraph) = _ from Graph.abs_runCode undirected h] at this

/-- **C01**, for the documented meaning of `add_vertex`: all histories that do not use the reserved id. -/
theorem C01_history_documented (undirected : Bool) (h : List Edit) (hu : ∀ e ∈ h, e.Usable) :
    Agrees (runCode undirected h) (h.foldl AGraph.apply (AGraph.empty undirected)) := by
  rw [← AGraph.foldl_actual_eq h hu]; exact C01_history_refinement undirected h

/-- **C01**, starting from any reachable graph: it has an abstract counterpart, and the counterpart keeps
describing it under every further history. -/
theorem C01_history_from_reachable {g : Graph} (hg : GReach g) :
    ∃ a : AGraph, Agrees g a ∧ ∀ h : List Edit, Agrees (h.foldl Edit.call g) (h.foldl AGraph.applyActual a) := by
  refine ⟨g.abs, Graph.agrees hg.ok, fun h => ?_⟩
  have := Graph.agrees (Graph.OK.foldl _ (fun _ e hg => hg.call e) h g hg.ok)
  rwa [show (⟨_, _, _⟩ : AGraph) = _ from Graph.abs_foldl h g] at this

/-- The histories include edits of every kind. -/
example : let h : List Edit := [.addVertex 3 (some [1, 4]), .addEdge 0 1, .deleteEdge 3 1, .addVertex 7 none]
    (∀ e ∈ h, e.Usable) ∧ (runCode true h).vertexCount = 8 ∧ (runCode true h).edgeCount = 4 ∧
    (h.foldl AGraph.apply (AGraph.empty true)).E = {(3, 4), (4, 3), (0, 1), (1, 0)} := by
  refine ⟨?_, by decide, by decide, by decide⟩
  intro e he
  simp only [List.mem_cons, List.not_mem_nil, or_false] at he
  rcases he with rfl | rfl | rfl | rfl <;> simp [Edit.Usable]

/-! ## C02 -/

/-- **C02.** `edge_count` is the number of existing edges, and they all lie in the vertex range. -/
theorem C02_edge_count_exact {g : Graph} (hg : GReach g) :
    g.edgeCount = ((Finset.range g.vertexCount ×ˢ Finset.range g.vertexCount).filter
      fun p => g.doesEdgeExist p.1 p.2 = true).card ∧
    ∀ u v, g.doesEdgeExist u v = true → u < g.vertexCount ∧ v < g.vertexCount := by
  have hb : ∀ u v, g.doesEdgeExist u v = true → u < g.vertexCount ∧ v < g.vertexCount :=
    fun u v h => hg.ok.wf.bound (u, v) (Graph.doesEdgeExist_iff.1 h)
  refine ⟨?_, hb⟩
  rw [Graph.edgeCount_eq hg.ok]
  congr 1
  ext ⟨u, v⟩
  rw [Finset.mem_filter, Finset.mem_product, Finset.mem_range, Finset.mem_range, Graph.doesEdgeExist_iff]
  exact ⟨fun h => ⟨hb u v (Graph.doesEdgeExist_iff.2 h), h⟩, fun h => h.2⟩

example : exU.edgeCount = 5 ∧ exU.vertexCount = 3 ∧ exD.edgeCount = 2 ∧ exD.vertexCount = 6 := by decide

/-! ## C03 -/

/-- **C03.** Edges stay inside the vertex range; the vertex range never shrinks. -/
theorem C03_range {g : Graph} (hg : GReach g) :
    (∀ u v, g.doesEdgeExist u v = true → u < g.vertexCount ∧ v < g.vertexCount) ∧
    (∀ e : Edit, g.vertexCount ≤ (e.call g).vertexCount) ∧
    (∀ u v, (g.deleteEdge u v).vertexCount = g.vertexCount) ∧
    (∀ u v, u < U64_MAX → v < U64_MAX →
      (g.addEdge u v).vertexCount = max g.vertexCount (max (u + 1) (v + 1))) ∧
    (∀ v, v < U64_MAX → (g.addVertex v none).vertexCount = max g.vertexCount (v + 1)) ∧
    g.vertexCount ≤ U64_MAX := by
  have hadd : ∀ (g : Graph) u v, g.vertexCount ≤ (g.addEdge u v).vertexCount := by
    intro g u v
    by_cases h : u < U64_MAX ∧ v < U64_MAX
    · rw [Graph.addEdge_vertexCount h.1 h.2]; omega
    · rw [Graph.addEdge_overflow h]
  refine ⟨(C02_edge_count_exact hg).2, ?_, Graph.deleteEdge_vertexCount g,
    fun u v hu hv => Graph.addEdge_vertexCount hu hv, ?_, hg.ok.wf.dim⟩
  · intro e
    cases e with
    | addEdge u v => exact hadd g u v
    | deleteEdge u v => exact (Graph.deleteEdge_vertexCount g u v).ge
    | addVertex v ts =>
      have ht : g.vertexCount ≤ (g.touch v).vertexCount := by
        rw [Graph.touch_vertexCount]; split <;> omega
      match ts with
      | none => change _ ≤ (g.addVertex v none).vertexCount; rw [Graph.addVertex_none]; exact ht
      | some [] => change _ ≤ (g.addVertex v (some [])).vertexCount; rw [Graph.addVertex_nil]; exact ht
      | some (t :: ts) =>
        change _ ≤ (g.addVertex v (some (t :: ts))).vertexCount
        rw [Graph.addVertex_cons]
        suffices h : ∀ (l : List Nat) (g : Graph),
            g.vertexCount ≤ (l.foldl (fun g t => g.addEdge v t) g).vertexCount from h _ g
        intro l
        induction l with
        | nil => intro g; exact le_refl _
        | cons t l ih => intro g; exact (hadd g v t).trans (ih _)
  · intro v hv
    rw [Graph.addVertex_none, Graph.touch_vertexCount, if_pos hv]

example : GReach exD ∧ (exD.addEdge 9 2).vertexCount = 10 ∧ (exD.deleteEdge 5 0).vertexCount = 6 :=
  ⟨exD_reach, by decide, by decide⟩

/-! ## C04 -/

/-- **C04.** Undirected graphs are symmetric in every reachable state. -/
theorem C04_undirected_symmetric {g : Graph} (hg : GReach g) (hu : g.isUndirected = true) (u v : Nat) :
    g.doesEdgeExist u v = g.doesEdgeExist v u := by
  rw [Bool.eq_iff_iff, Graph.doesEdgeExist_iff, Graph.doesEdgeExist_iff]
  exact ⟨hg.ok.sym hu u v, hg.ok.sym hu v u⟩

example : GReach exU ∧ exU.isUndirected = true ∧ exU.doesEdgeExist 2 1 = true := ⟨exU_reach, rfl, by decide⟩

/-! ## C05 -/

/-- **C05.** `add_edge` adds exactly the requested edge. -/
theorem C05_add_edge_exact {g : Graph} (hg : GReach g) {u v : Nat} (hu : u < U64_MAX) (hv : v < U64_MAX) :
    (g.addEdge u v).isUndirected = g.isUndirected ∧
    (∀ x y, (g.addEdge u v).doesEdgeExist x y = true ↔
      (x = u ∧ y = v) ∨ (g.isUndirected = true ∧ x = v ∧ y = u) ∨ g.doesEdgeExist x y = true) ∧
    (g.addEdge u v).edgeCount = g.edgeCount +
      (if g.doesEdgeExist u v then 0 else if g.isUndirected = true ∧ u ≠ v then 2 else 1) := by
  refine ⟨rfl, ?_, ?_⟩
  · intro x y
    rw [Graph.doesEdgeExist_iff, Graph.doesEdgeExist_iff, Graph.addEdge_pairs hu hv, Finset.mem_union]
    unfold Graph.newPairs
    cases g.isUndirected <;> simp [or_assoc]
  · rw [Graph.edgeCount_eq (hg.ok.addEdge u v), Graph.edgeCount_eq hg.ok, Graph.addEdge_pairs hu hv,
      Graph.doesEdgeExist_eq]
    unfold Graph.newPairs
    by_cases hm : (u, v) ∈ g.pairs
    · simp only [hm, decide_true, if_true, add_zero]
      congr 1
      apply Finset.union_eq_right.2
      split
      · next hd =>
        intro p hp
        simp only [Finset.mem_insert, Finset.mem_singleton] at hp
        rcases hp with rfl | rfl
        · exact hm
        · exact hg.ok.sym hd u v hm
      · intro p hp
        rw [Finset.mem_singleton] at hp
        exact hp ▸ hm
    · simp only [hm, decide_false, Bool.false_eq_true, if_false]
      cases hd : g.isUndirected with
      | false =>
        simp only [Bool.false_eq_true, if_false, false_and]
        rw [Finset.singleton_union, Finset.card_insert_of_notMem hm]
      | true =>
        simp only [if_true, true_and]
        have hm' : (v, u) ∉ g.pairs := fun h => hm (hg.ok.sym hd v u h)
        by_cases heq : u = v
        · subst heq
          simp only [ne_eq, not_true_eq_false, if_false, Finset.mem_singleton, Finset.insert_eq_of_mem]
          rw [Finset.singleton_union, Finset.card_insert_of_notMem hm]
        · rw [if_pos heq, Finset.insert_union, Finset.singleton_union,
            Finset.card_insert_of_notMem, Finset.card_insert_of_notMem hm']
          rw [Finset.mem_insert, not_or]
          exact ⟨by simp [heq], hm⟩

example : GReach exU ∧ exU.doesEdgeExist 0 2 = false ∧ (exU.addEdge 0 2).edgeCount = 7 ∧
    (exU.addEdge 0 0).edgeCount = 6 ∧ (exU.addEdge 2 1).edgeCount = 5 := ⟨exU_reach, by decide⟩

/-! ## C06 -/

/-- **C06.** `delete_edge` removes exactly the requested edge. -/
theorem C06_delete_edge_exact {g : Graph} (hg : GReach g) (u v : Nat) :
    (g.deleteEdge u v).isUndirected = g.isUndirected ∧
    (g.deleteEdge u v).vertexCount = g.vertexCount ∧
    (∀ x y, (g.deleteEdge u v).doesEdgeExist x y = true ↔
      g.doesEdgeExist x y = true ∧ ¬ (x = u ∧ y = v) ∧ ¬ (g.isUndirected = true ∧ x = v ∧ y = u)) ∧
    (g.deleteEdge u v).edgeCount +
      (if g.doesEdgeExist u v then (if g.isUndirected = true ∧ u ≠ v then 2 else 1) else 0) = g.edgeCount := by
  refine ⟨rfl, Graph.deleteEdge_vertexCount g u v, ?_, ?_⟩
  · intro x y
    rw [Graph.doesEdgeExist_iff, Graph.doesEdgeExist_iff, Graph.deleteEdge_pairs, Finset.mem_sdiff]
    unfold Graph.newPairs
    cases g.isUndirected <;> simp
  · rw [Graph.edgeCount_eq (hg.ok.deleteEdge u v), Graph.edgeCount_eq hg.ok, Graph.deleteEdge_pairs,
      Graph.doesEdgeExist_eq]
    unfold Graph.newPairs
    by_cases hm : (u, v) ∈ g.pairs
    · simp only [hm, decide_true, if_true]
      cases hd : g.isUndirected with
      | false =>
        simp only [Bool.false_eq_true, if_false, false_and]
        rw [← Finset.erase_eq, Finset.card_erase_add_one hm]
      | true =>
        simp only [if_true, true_and]
        have hm' : (v, u) ∈ g.pairs := hg.ok.sym hd u v hm
        by_cases heq : u = v
        · subst heq
          simp only [ne_eq, not_true_eq_false, if_false, Finset.mem_singleton, Finset.insert_eq_of_mem]
          rw [← Finset.erase_eq, Finset.card_erase_add_one hm]
        · rw [if_pos heq]
          have hsub : ({(u, v), (v, u)} : Finset (Nat × Nat)) ⊆ g.pairs := by
            intro p hp
            simp only [Finset.mem_insert, Finset.mem_singleton] at hp
            rcases hp with rfl | rfl <;> assumption
          have hc : ({(u, v), (v, u)} : Finset (Nat × Nat)).card = 2 := by
            rw [Finset.card_pair]; simp [heq]
          have := Finset.card_sdiff_add_card_eq_card hsub
          omega
    · simp only [hm, decide_false, Bool.false_eq_true, if_false, add_zero]
      congr 1
      apply Finset.sdiff_eq_self_of_disjoint
      rw [Finset.disjoint_right]
      intro p hp
      split at hp
      · next hd =>
        simp only [Finset.mem_insert, Finset.mem_singleton] at hp
        rcases hp with rfl | rfl
        · exact hm
        · exact fun h => hm (hg.ok.sym hd v u h)
      · rw [Finset.mem_singleton] at hp
        exact hp ▸ hm

/-- **C06**, add then delete: all edges and the edge count are as before, the graph keeps the new range. -/
theorem C06_add_then_delete {g : Graph} (hg : GReach g) {u v : Nat} (hu : u < U64_MAX) (hv : v < U64_MAX)
    (hne : g.doesEdgeExist u v = false) :
    (∀ x y, ((g.addEdge u v).deleteEdge u v).doesEdgeExist x y = g.doesEdgeExist x y) ∧
    ((g.addEdge u v).deleteEdge u v).edgeCount = g.edgeCount := by
  have hne' : (u, v) ∉ g.pairs := fun h => by rw [Graph.doesEdgeExist_iff.2 h] at hne; cases hne
  have hp : ((g.addEdge u v).deleteEdge u v).pairs = g.pairs := by
    rw [Graph.deleteEdge_pairs, Graph.addEdge_pairs hu hv, Graph.addEdge_isUndirected]
    rw [Finset.union_sdiff_left]
    apply Finset.sdiff_eq_self_of_disjoint
    rw [Finset.disjoint_right]
    intro p hp
    unfold Graph.newPairs at hp
    split at hp
    · next hd =>
      simp only [Finset.mem_insert, Finset.mem_singleton] at hp
      rcases hp with rfl | rfl
      · exact hne'
      · exact fun h => hne' (hg.ok.sym hd v u h)
    · rw [Finset.mem_singleton] at hp
      exact hp ▸ hne'
  refine ⟨fun x y => by rw [Graph.doesEdgeExist_eq, Graph.doesEdgeExist_eq, hp], ?_⟩
  rw [Graph.edgeCount_eq ((hg.ok.addEdge u v).deleteEdge u v), Graph.edgeCount_eq hg.ok, hp]

example : GReach exU ∧ exU.doesEdgeExist 0 2 = false ∧ (exU.deleteEdge 1 0).edgeCount = 3 ∧
    (exU.deleteEdge 2 2).edgeCount = 4 ∧ (exU.deleteEdge 7 7).edgeCount = 5 := ⟨exU_reach, by decide⟩

/-! ## C07 -/

/-- The full documented statement of C07: after `add_vertex(v, …)` the vertex exists. -/
def C07_full : Prop := ∀ (g : Graph), GReach g → ∀ (v : Nat) (ts : Option (List Nat)), v < U64_MAX →
  v < (g.addVertex v ts).vertexCount

/-- C07 does not hold for the code: `add_vertex(3, Some(&[u64::MAX]))` on an empty graph creates nothing. -/
theorem C07_full_false : ¬ C07_full := by
  intro h
  have := h Graph.newDirected .newDirected 3 (some [U64_MAX]) (by decide)
  revert this
  decide

/-- **C07 (partial).** Missing: the vertex is not created when `v` is new and the list is non-empty but contains only the
reserved id.  Everything else holds: no or empty list changes no edge and grows to `max(old, v+1)`;
a non-empty list is the same as adding the edges one by one; the vertex exists afterwards in exactly
the stated cases. -/
theorem C07_add_vertex_partial {g : Graph} {v : Nat} (hv : v < U64_MAX) :
    (∀ ts : Option (List Nat), ts = none ∨ ts = some [] →
      (g.addVertex v ts).vertexCount = max g.vertexCount (v + 1) ∧
      (g.addVertex v ts).isUndirected = g.isUndirected ∧
      (g.addVertex v ts).edgeCount = g.edgeCount ∧
      ∀ x y, (g.addVertex v ts).doesEdgeExist x y = g.doesEdgeExist x y) ∧
    (∀ t ts, g.addVertex v (some (t :: ts)) = (t :: ts).foldl (fun g t => g.addEdge v t) g) ∧
    (∀ ts x y, (g.addVertex v (some ts)).doesEdgeExist x y = true ↔
      g.doesEdgeExist x y = true ∨ (x = v ∧ y ∈ ts ∧ y < U64_MAX) ∨
      (g.isUndirected = true ∧ y = v ∧ x ∈ ts ∧ x < U64_MAX)) ∧
    (∀ ts, v < (g.addVertex v ts).vertexCount ↔
      v < g.vertexCount ∨ ts.getD [] = [] ∨ ∃ t ∈ ts.getD [], t < U64_MAX) := by
  refine ⟨?_, Graph.addVertex_cons g v, ?_, ?_⟩
  · intro ts hts
    have : g.addVertex v ts = g.touch v := by
      rcases hts with rfl | rfl
      · exact Graph.addVertex_none g v
      · exact Graph.addVertex_nil g v
    rw [this, Graph.touch_vertexCount, if_pos hv, Graph.touch_isUndirected, Graph.touch_edgeCount]
    refine ⟨rfl, rfl, rfl, fun x y => ?_⟩
    rw [Graph.doesEdgeExist_eq, Graph.doesEdgeExist_eq, Graph.touch_pairs]
  · intro ts x y
    match ts with
    | [] => rw [Graph.addVertex_nil, Graph.doesEdgeExist_iff, Graph.touch_pairs, Graph.doesEdgeExist_iff]; simp
    | t :: ts =>
      rw [Graph.addVertex_cons]
      have key : ∀ (l : List Nat) (g : Graph),
          (l.foldl (fun g t => g.addEdge v t) g).doesEdgeExist x y = true ↔
          g.doesEdgeExist x y = true ∨ (x = v ∧ y ∈ l ∧ y < U64_MAX) ∨
          (g.isUndirected = true ∧ y = v ∧ x ∈ l ∧ x < U64_MAX) := by
        intro l
        induction l with
        | nil => intro g; simp
        | cons t l ih =>
          intro g
          rw [List.foldl_cons, ih]
          by_cases ht : t < U64_MAX
          · rw [Graph.doesEdgeExist_iff, Graph.addEdge_pairs hv ht, Finset.mem_union,
              Graph.doesEdgeExist_iff, Graph.addEdge_isUndirected]
            unfold Graph.newPairs
            cases g.isUndirected <;> simp <;> grind
          · rw [Graph.addEdge_overflow (by tauto)]
            simp only [List.mem_cons]
            grind
      exact key _ g
  · intro ts
    have key : ∀ (l : List Nat) (g : Graph), v < (l.foldl (fun g t => g.addEdge v t) g).vertexCount ↔
        v < g.vertexCount ∨ ∃ t ∈ l, t < U64_MAX := by
      intro l
      induction l with
      | nil => intro g; simp
      | cons t l ih =>
        intro g
        rw [List.foldl_cons, ih]
        by_cases ht : t < U64_MAX
        · rw [Graph.addEdge_vertexCount hv ht]
          have : v < max g.vertexCount (max (v + 1) (t + 1)) := by omega
          exact ⟨fun _ => .inr ⟨t, by simp, ht⟩, fun _ => .inl this⟩
        · rw [Graph.addEdge_overflow (by tauto)]; simp [ht]
    match ts with
    | none => rw [Graph.addVertex_none, Graph.touch_vertexCount, if_pos hv]; simp
    | some [] => rw [Graph.addVertex_nil, Graph.touch_vertexCount, if_pos hv]; simp
    | some (t :: ts) => rw [Graph.addVertex_cons, key]; simp

example : GReach exU ∧ (exU.addVertex 6 none).vertexCount = 7 ∧
    (exU.addVertex 6 (some [0, 2])).edgeCount = 9 ∧ (exU.addVertex 6 (some [U64_MAX])).vertexCount = 3 :=
  ⟨exU_reach, by decide⟩

/-! ## C08 -/

/-- **C08.** The reserved id is ignored: insertions return the very same graph, deletions one that no query can tell
apart.  (All these functions are total in the model: the code has no panicking operation there.) -/
theorem C08_reserved_id_ignored {g : Graph} (hg : GReach g) :
    (∀ u v, u = U64_MAX ∨ v = U64_MAX → g.addEdge u v = g ∧ Same (g.deleteEdge u v) g) ∧
    (∀ ts, g.addVertex U64_MAX ts = g) := by
  have hlt : ∀ u v, u = U64_MAX ∨ v = U64_MAX → ¬ (u < U64_MAX ∧ v < U64_MAX) := by omega
  refine ⟨fun u v h => ⟨Graph.addEdge_overflow (hlt u v h), ?_⟩, ?_⟩
  · refine Graph.same (hg.ok.deleteEdge u v) hg.ok rfl (Graph.deleteEdge_vertexCount g u v) ?_
    rw [Graph.deleteEdge_pairs]
    apply Finset.sdiff_eq_self_of_disjoint
    rw [Finset.disjoint_left]
    intro p hp hp'
    have hb := hg.ok.wf.bound p hp
    have hd := hg.ok.wf.dim
    unfold Graph.newPairs at hp'
    split at hp'
    · simp only [Finset.mem_insert, Finset.mem_singleton] at hp'
      rcases hp' with rfl | rfl <;> simp only at hb <;> omega
    · rw [Finset.mem_singleton] at hp'
      subst hp'
      simp only at hb; omega
  · intro ts
    have ht : g.touch U64_MAX = g := by
      rw [Graph.touch_eq, if_neg (lt_irrefl _)]; rfl
    match ts with
    | none => rw [Graph.addVertex_none, ht]
    | some [] => rw [Graph.addVertex_nil, ht]
    | some (t :: ts) =>
      rw [Graph.addVertex_cons]
      generalize t :: ts = l
      induction l with
      | nil => rfl
      | cons t l ih => rw [List.foldl_cons, Graph.addEdge_overflow (hlt _ _ (.inl rfl)), ih]

example : GReach exU ∧ (exU.addEdge 1 U64_MAX).edgeCount = 5 ∧ (exU.deleteEdge 1 U64_MAX).edgeCount = 5 :=
  ⟨exU_reach, by decide⟩

/-! ## C12 -/

/-- A sequence of `add_edge` calls. -/
def addAll (g : Graph) (l : List (Nat × Nat)) : Graph := l.foldl (fun g e => g.addEdge e.1 e.2) g

/-- **C12.** Two sequences of `add_edge` calls with the same edges give graphs that no query can tell apart. -/
theorem C12_insertion_order {g : Graph} (hg : GReach g) (l l' : List (Nat × Nat))
    (h : ∀ e, e ∈ l ↔ e ∈ l') : Same (addAll g l) (addAll g l') := by
  have hok : ∀ l, Graph.OK (addAll g l) := fun l => Graph.OK.foldl _ (fun g e hg => hg.addEdge _ _) l g hg.ok
  have hdir : ∀ (l : List (Nat × Nat)) (g : Graph), (addAll g l).isUndirected = g.isUndirected := by
    intro l
    induction l with
    | nil => intro g; rfl
    | cons e l ih => intro g; exact ih _
  have hvc : ∀ (l : List (Nat × Nat)) (g : Graph) (m : Nat), (addAll g l).vertexCount ≤ m ↔
      g.vertexCount ≤ m ∧ ∀ e ∈ l, e.1 < U64_MAX ∧ e.2 < U64_MAX → e.1 < m ∧ e.2 < m := by
    intro l
    induction l with
    | nil => intro g m; simp [addAll]
    | cons e l ih =>
      intro g m
      have := ih (g.addEdge e.1 e.2) m
      unfold addAll at this ⊢
      rw [List.foldl_cons, this]
      by_cases he : e.1 < U64_MAX ∧ e.2 < U64_MAX
      · rw [Graph.addEdge_vertexCount he.1 he.2]
        simp only [List.forall_mem_cons, he, and_self, forall_const]
        constructor
        · rintro ⟨h1, h2⟩; exact ⟨by omega, by omega, h2⟩
        · rintro ⟨h1, h2, h3⟩; exact ⟨by omega, h3⟩
      · rw [Graph.addEdge_overflow he]
        simp only [List.forall_mem_cons]
        constructor
        · rintro ⟨h1, h2⟩; exact ⟨h1, fun h => absurd h he, h2⟩
        · rintro ⟨h1, h2, h3⟩; exact ⟨h1, h3⟩
  have hmem : ∀ (l : List (Nat × Nat)) (g : Graph) (p : Nat × Nat), p ∈ (addAll g l).pairs ↔
      p ∈ g.pairs ∨ ∃ e ∈ l, e.1 < U64_MAX ∧ e.2 < U64_MAX ∧ p ∈ Graph.newPairs g.isUndirected e.1 e.2 := by
    intro l
    induction l with
    | nil => intro g p; simp [addAll]
    | cons e l ih =>
      intro g p
      have := ih (g.addEdge e.1 e.2) p
      unfold addAll at this ⊢
      rw [List.foldl_cons, this, Graph.addEdge_isUndirected]
      by_cases he : e.1 < U64_MAX ∧ e.2 < U64_MAX
      · rw [Graph.addEdge_pairs he.1 he.2, Finset.mem_union]
        simp only [List.mem_cons, exists_eq_or_imp, he, true_and]
        tauto
      · rw [Graph.addEdge_overflow he]
        simp only [List.mem_cons, exists_eq_or_imp]
        tauto
  refine Graph.same (hok l) (hok l') (by rw [hdir, hdir]) ?_ ?_
  · apply le_antisymm
    · rw [hvc]
      have := (hvc l' g _).1 (le_refl _)
      exact ⟨this.1, fun e he => this.2 e ((h e).1 he)⟩
    · rw [hvc]
      have := (hvc l g _).1 (le_refl _)
      exact ⟨this.1, fun e he => this.2 e ((h e).2 he)⟩
  · ext p
    rw [hmem, hmem]
    simp only [h]

example : let l := [(0, 1), (2, 3), (0, 1)]; let l' := [(2, 3), (0, 1)]
    (∀ e, e ∈ l ↔ e ∈ l') ∧ (addAll exU l).edgeCount = 7 := by
  refine ⟨?_, by decide⟩
  intro e
  simp only [List.mem_cons, List.not_mem_nil, or_false]
  tauto

/-! ## C58 -/

/-- **C58.** Counters: a deletion subtracts exactly the entries that were there (as integers: no decrement at zero), and
after a history of elementary edits `edge_count` is at most twice their number, so it cannot reach
`2^64` in fewer than `2^63` edits. -/
theorem C58_counter_bounds (undirected : Bool) (h : List Edit) :
    let g := runCode undirected h
    (∀ c r, ((g.adjacencyMatrix.zeroEntry c r).entryCount : Int) =
      g.adjacencyMatrix.entryCount - g.adjacencyMatrix.getEntry c r) ∧
    g.edgeCount ≤ 2 * (h.map Edit.cost).sum ∧
    ((h.map Edit.cost).sum < 2 ^ 63 → g.edgeCount < 2 ^ 64) := by
  have hb : (runCode undirected h).edgeCount ≤ 2 * (h.map Edit.cost).sum := by
    have hadd : ∀ (g : Graph) u v, g.OK → (g.addEdge u v).edgeCount ≤ g.edgeCount + 2 := by
      intro g u v hg
      by_cases huv : u < U64_MAX ∧ v < U64_MAX
      · rw [Graph.edgeCount_eq (hg.addEdge u v), Graph.edgeCount_eq hg, Graph.addEdge_pairs huv.1 huv.2]
        refine (Finset.card_union_le _ _).trans ?_
        have : (Graph.newPairs g.isUndirected u v).card ≤ 2 := by
          unfold Graph.newPairs; split
          · exact Finset.card_le_two
          · simp
        omega
      · rw [Graph.addEdge_overflow huv]; omega
    have hadds : ∀ v (ts : List Nat) (g : Graph), g.OK →
        (ts.foldl (fun g t => g.addEdge v t) g).edgeCount ≤ g.edgeCount + 2 * ts.length := by
      intro v ts
      induction ts with
      | nil => intro g _; simp
      | cons t ts ih =>
        intro g hg
        have h1 := ih (g.addEdge v t) (hg.addEdge v t)
        have h2 := hadd g v t hg
        simp only [List.foldl_cons, List.length_cons] at h1 ⊢; omega
    have hstep : ∀ (g : Graph) e, g.OK → (Edit.call g e).edgeCount ≤ g.edgeCount + 2 * e.cost := by
      intro g e hg
      cases e with
      | addEdge u v => have := hadd g u v hg; simp only [Edit.call, Edit.cost]; omega
      | deleteEdge u v =>
        change (g.deleteEdge u v).edgeCount ≤ _
        rw [Graph.edgeCount_eq (hg.deleteEdge u v), Graph.edgeCount_eq hg, Graph.deleteEdge_pairs]
        exact (Finset.card_le_card Finset.sdiff_subset).trans (by omega)
      | addVertex v ts =>
        match ts with
        | none =>
          change (g.addVertex v none).edgeCount ≤ _
          rw [Graph.addVertex_none, Graph.touch_edgeCount]; omega
        | some [] =>
          change (g.addVertex v (some [])).edgeCount ≤ _
          rw [Graph.addVertex_nil, Graph.touch_edgeCount]; omega
        | some (t :: ts) =>
          change (g.addVertex v (some (t :: ts))).edgeCount ≤ _
          rw [Graph.addVertex_cons]
          have := hadds v (t :: ts) g hg
          simp only [Edit.cost, Option.getD_some]; omega
    have hfold : ∀ (h : List Edit) (g : Graph), g.OK →
        (h.foldl Edit.call g).edgeCount ≤ g.edgeCount + 2 * (h.map Edit.cost).sum := by
      intro h
      induction h with
      | nil => intro g _; simp
      | cons e h ih =>
        intro g hg
        have h1 := ih (Edit.call g e) (hg.call e)
        have h2 := hstep g e hg
        simp only [List.foldl_cons, List.map_cons, List.sum_cons] at h1 ⊢; omega
    have := hfold h _ (Graph.OK.empty undirected)
    have h0 : (if undirected then Graph.newUndirected else Graph.newDirected).edgeCount = 0 := by
      cases undirected <;> rfl
    unfold runCode
    omega
  refine ⟨?_, hb, fun hlt => by omega⟩
  intro c r
  rw [AdjMatrix.zeroEntry_entryCount]
  have hwf := (Graph.OK.runCode undirected h).wf
  have hge := @AdjMatrix.getEntry_ne_zero (runCode undirected h).adjacencyMatrix c r
  by_cases hm : (c, r) ∈ (runCode undirected h).adjacencyMatrix.pairs
  · have h1 := AdjMatrix.getEntry_eq_one.2 hm
    have hpos : 0 < (runCode undirected h).adjacencyMatrix.entryCount := by
      rw [hwf.count]; exact Finset.card_pos.2 ⟨_, hm⟩
    simp only [hm, if_true, h1]; omega
  · have h0 : (runCode undirected h).adjacencyMatrix.getEntry c r = 0 := by
      by_contra hne; exact hm (hge.1 hne)
    simp only [hm, if_false, h0]; omega

example : (runCode true [.addEdge 0 1, .addEdge 1 2, .deleteEdge 0 1]).edgeCount = 2 ∧
    ([Edit.addEdge 0 1, .addEdge 1 2, .deleteEdge 0 1].map Edit.cost).sum = 3 := by decide

end Verif.Props
