import Mathlib.Data.Finset.Prod
import Verif.Props.Congruence

/-!
# Relations between the results on related graphs: C86 (reversal), C87 (more edges), C88 (coarsening twice)
-/

namespace Verif.Props
open Verif Spec

/-! ## C86 -/

/-- `g'` is `g` with every edge reversed. -/
structure Reversed (g g' : Graph) : Prop where
  direction : g.isUndirected = g'.isUndirected
  vertexCount : g.vertexCount = g'.vertexCount
  edge : ∀ u v, g'.doesEdgeExist u v = g.doesEdgeExist v u

/-- The same history with every edge reversed. -/
def revEdit : Edit → Edit
  | .addEdge u v => .addEdge v u
  | .deleteEdge u v => .deleteEdge v u
  | .addVertex v ts => .addVertex v ts

theorem blockCount_rev {e e' : Nat → Nat → Bool} (h : ∀ u v, e' u v = e v u) (b c r : Nat) :
    blockCount e' b c r = blockCount e b r c := by
  unfold blockCount
  refine Finset.card_bij (fun p _ => (p.2, p.1)) ?_ ?_ ?_
  · rintro ⟨i, j⟩ hp
    rw [Finset.mem_filter, Finset.mem_product] at hp ⊢
    exact ⟨⟨hp.1.2, hp.1.1⟩, by rw [← h]; exact hp.2⟩
  · rintro ⟨i, j⟩ _ ⟨i', j'⟩ _ heq
    simp only [Prod.mk.injEq] at heq ⊢
    exact ⟨heq.2, heq.1⟩
  · rintro ⟨i, j⟩ hp
    rw [Finset.mem_filter, Finset.mem_product] at hp
    refine ⟨(j, i), ?_, rfl⟩
    rw [Finset.mem_filter, Finset.mem_product]
    exact ⟨⟨hp.1.2, hp.1.1⟩, by rw [h]; exact hp.2⟩

theorem card_rev {e e' : Nat → Nat → Bool} (h : ∀ u v, e' u v = e v u) (n : Nat) :
    ((Finset.range n ×ˢ Finset.range n).filter fun p => e' p.1 p.2 = true).card =
      ((Finset.range n ×ˢ Finset.range n).filter fun p => e p.1 p.2 = true).card := by
  have := blockCount_rev h n 0 0
  unfold blockCount at this
  simpa only [Nat.zero_mul, Nat.zero_add] using this

theorem rev_at {m m' : SqMatrix F64} {g g' : Graph} (hg : g.OK) (hg' : g'.OK) (hr : Reversed g g') {P : Platform}
    {o o' : HashOrder} {b : Nat} (hm : g.findAvgPoolMatrix P o b = .ok m) (hm' : g'.findAvgPoolMatrix P o' b = .ok m') :
    m.dimension = m'.dimension ∧ ∀ c r, m'.at? c r = m.at? r c := by
  by_cases hn : g.vertexCount = 0
  · unfold Graph.findAvgPoolMatrix at hm hm'
    rw [if_pos hn] at hm
    rw [if_pos (hr.vertexCount ▸ hn)] at hm'
    cases hm; cases hm'
    exact ⟨rfl, fun _ _ => rfl⟩
  · obtain ⟨k, hwf, hdim, hat, h⟩ := Graph.pool_general hg P o b hn
    obtain ⟨k', hwf', hdim', hat', h'⟩ := Graph.pool_general hg' P o' b (hr.vertexCount ▸ hn)
    rw [← hr.vertexCount] at hdim' hat' h'
    rw [h] at hm
    rw [h'] at hm'
    cases hsq : P.u64Mul (Graph.clampBlockDimension g.vertexCount b) (Graph.clampBlockDimension g.vertexCount b) with
    | panic => rw [hsq] at hm; cases hm
    | err e => rw [hsq] at hm; cases hm
    | ok sq =>
      rw [hsq] at hm hm'
      cases hm; cases hm'
      refine ⟨hdim.trans hdim'.symm, fun c r => ?_⟩
      rw [SqMatrix.multiplyEntriesBy_at, SqMatrix.multiplyEntriesBy_at, hat, hat', blockCount_rev hr.edge]

theorem rev_pool {g g' : Graph} (hg : g.OK) (hg' : g'.OK) (hr : Reversed g g') (P : Platform) (o o' : HashOrder) (b : Nat) :
    ResRel (fun m m' : SqMatrix F64 => m.dimension = m'.dimension ∧
      ∀ c r, m'.getEntry f64Numeric c r = m.getEntry f64Numeric r c)
      (g.findAvgPoolMatrix P o b) (g'.findAvgPoolMatrix P o' b) := by
  have key : ∀ m m', g.findAvgPoolMatrix P o b = .ok m → g'.findAvgPoolMatrix P o' b = .ok m' →
      m.dimension = m'.dimension ∧ ∀ c r, m'.getEntry f64Numeric c r = m.getEntry f64Numeric r c := by
    intro m m' hm hm'
    obtain ⟨h1, h2⟩ := rev_at hg hg' hr hm hm'
    exact ⟨h1, fun c r => by rw [SqMatrix.getEntry_eq, SqMatrix.getEntry_eq, h2]⟩
  by_cases hn : g.vertexCount = 0
  · have h1 : g.findAvgPoolMatrix P o b = .ok SqMatrix.new := by unfold Graph.findAvgPoolMatrix; rw [if_pos hn]
    have h2 : g'.findAvgPoolMatrix P o' b = .ok SqMatrix.new := by
      unfold Graph.findAvgPoolMatrix; rw [if_pos (hr.vertexCount ▸ hn)]
    have := key _ _ h1 h2
    rw [h1, h2]; exact this
  · obtain ⟨k, _, _, _, h⟩ := Graph.pool_general hg P o b hn
    obtain ⟨k', _, _, _, h'⟩ := Graph.pool_general hg' P o' b (hr.vertexCount ▸ hn)
    rw [← hr.vertexCount] at h'
    cases hsq : P.u64Mul (Graph.clampBlockDimension g.vertexCount b) (Graph.clampBlockDimension g.vertexCount b) with
    | panic => rw [hsq] at h h'; rw [h, h']; trivial
    | err e => rw [hsq] at h h'; rw [h, h']; rfl
    | ok sq =>
      rw [hsq] at h h'
      have := key _ _ h h'
      rw [h, h']; exact this

theorem rev_approximate {g g' : Graph} (hg : g.OK) (hg' : g'.OK) (hr : Reversed g g') (P : Platform)
    (o₁ o₂ o₁' o₂' : HashOrder) (b : Nat) (t : F64) :
    ResRel Reversed (g.approximate P o₁ o₂ b t) (g'.approximate P o₁' o₂' b t) := by
  by_cases hsm : b ≤ 1 ∨ g.vertexCount ≤ 1
  · rw [C43_copy g P o₁ o₂ b t hsm, C43_copy g' P o₁' o₂' b t (by rwa [← hr.vertexCount])]
    exact hr
  · push Not at hsm
    have hp := rev_pool hg hg' hr P o₁ o₁' b
    have hn' : 2 ≤ g'.vertexCount := by rw [← hr.vertexCount]; omega
    cases hm : g.findAvgPoolMatrix P o₁ b with
    | ok m =>
      cases hm' : g'.findAvgPoolMatrix P o₁' b with
      | ok m' =>
        obtain ⟨a, ha, hok, hu, hv, he⟩ := Graph.approximate_spec hg o₂ t (by omega) (by omega) hm
        obtain ⟨a', ha', hok', hu', hv', he'⟩ := Graph.approximate_spec hg' o₂' t (by omega) hn' hm'
        rw [ha, ha']
        refine ⟨by rw [hu, hu', hr.direction], by rw [hv, hv', hr.vertexCount], fun u v => ?_⟩
        rw [Bool.eq_iff_iff, he, he', (rev_at hg hg' hr hm hm').2]
      | err e => rw [hm, hm'] at hp; exact hp.elim
      | panic => rw [hm, hm'] at hp; exact hp.elim
    | err e =>
      cases hm' : g'.findAvgPoolMatrix P o₁' b with
      | err e' =>
        rw [hm, hm'] at hp
        rw [Graph.approximate_eq P o₁ o₂ t (by omega) (by omega), Graph.approximate_eq P o₁' o₂' t (by omega) hn', hm, hm']
        exact hp
      | ok m' => rw [hm, hm'] at hp; exact hp.elim
      | panic => rw [hm, hm'] at hp; exact hp.elim
    | panic =>
      cases hm' : g'.findAvgPoolMatrix P o₁' b with
      | panic =>
        rw [Graph.approximate_eq P o₁ o₂ t (by omega) (by omega), Graph.approximate_eq P o₁' o₂' t (by omega) hn', hm, hm']
        trivial
      | ok m' => rw [hm, hm'] at hp; exact hp.elim
      | err e => rw [hm, hm'] at hp; exact hp.elim

/-- **C86**, queries: reversing all edges swaps incoming and outgoing edges. -/
theorem C86_reverse_queries {g g' : Graph} (hg : GReach g) (hg' : GReach g') (hr : Reversed g g') :
    g'.edgeCount = g.edgeCount ∧
    (∀ o o' v, (g'.getVertexOutEdges o v).Perm (g.getVertexInEdges o' v)) ∧
    (∀ o o' v, (g'.getVertexInEdges o v).Perm (g.getVertexOutEdges o' v)) ∧
    (∀ v, g'.getVertexOutDegree v = g.getVertexInDegree v) ∧ (∀ v, g'.getVertexInDegree v = g.getVertexOutDegree v) := by
  have hm : ∀ u v, (u, v) ∈ g'.pairs ↔ (v, u) ∈ g.pairs := fun u v => by
    rw [← Graph.doesEdgeExist_iff, ← Graph.doesEdgeExist_iff, hr.edge]
  have h1 : ∀ o o' v, (g'.getVertexOutEdges o v).Perm (g.getVertexInEdges o' v) := fun o o' v => by
    rw [List.perm_ext_iff_of_nodup (Graph.out_nodup _ _ _) (Graph.in_nodup _ _ _)]
    intro w; rw [Graph.mem_out, Graph.mem_in hg.ok, hm]
  have h2 : ∀ o o' v, (g'.getVertexInEdges o v).Perm (g.getVertexOutEdges o' v) := fun o o' v => by
    rw [List.perm_ext_iff_of_nodup (Graph.in_nodup _ _ _) (Graph.out_nodup _ _ _)]
    intro w; rw [Graph.mem_in hg'.ok, Graph.mem_out, hm]
  refine ⟨?_, h1, h2, fun v => ?_, fun v => ?_⟩
  · rw [(C02_edge_count_exact hg).1, (C02_edge_count_exact hg').1, ← hr.vertexCount, card_rev hr.edge]
  · rw [← Graph.outDegree_length _ .id, ← Graph.inDegree_length _ .id, (h1 .id .id v).length_eq]
  · rw [← Graph.outDegree_length _ .id, ← Graph.inDegree_length _ .id, (h2 .id .id v).length_eq]

/-- **C86**, results: reversing all edges transposes the pooled matrix and reverses the approximation and the
compressed graph (transposing the blocks and the bits inside them). -/
theorem C86_reverse_results {g g' : Graph} (hg : GReach g) (hg' : GReach g') (hr : Reversed g g') :
    (∀ P o o' b, ResRel (fun m m' : SqMatrix F64 => m.dimension = m'.dimension ∧
      ∀ c r, m'.getEntry f64Numeric c r = m.getEntry f64Numeric r c)
      (g.findAvgPoolMatrix P o b) (g'.findAvgPoolMatrix P o' b)) ∧
    (∀ P o₁ o₂ o₁' o₂' b t, ResRel Reversed (g.approximate P o₁ o₂ b t) (g'.approximate P o₁' o₂' b t)) ∧
    (∀ P P' o₁ o₂ o₁' o₂' l, ∃ c c', g.compress P o₁ o₂ l = .ok c ∧ g'.compress P' o₁' o₂' l = .ok c' ∧
      c'.vertexCount = c.vertexCount ∧ c'.edgeCount = c.edgeCount ∧
      (∀ u v, c'.doesEdgeExist u v = c.doesEdgeExist v u) ∧
      ∀ x y, ∀ i < 8, ∀ j < 8, (c'.getCompressedMatrixEntry x y).testBit (8 * j + i) =
        (c.getCompressedMatrixEntry y x).testBit (8 * i + j)) := by
  refine ⟨rev_pool hg.ok hg'.ok hr, rev_approximate hg.ok hg'.ok hr, fun P P' o₁ o₂ o₁' o₂' l => ?_⟩
  obtain ⟨c, hc, hok, hu, hv, hl, hat, hec⟩ := Graph.compress_spec hg.ok P o₁ o₂ l
  obtain ⟨c', hc', hok', hu', hv', hl', hat', hec'⟩ := Graph.compress_spec hg'.ok P' o₁' o₂' l
  have hvc : c'.vertexCount = c.vertexCount := by rw [hv, hv', hr.vertexCount]
  have he : ∀ u v, c'.doesEdgeExist u v = c.doesEdgeExist v u := fun u v => by
    rw [Bool.eq_iff_iff, compress_edges hg'.ok _ _ _ _ hc', compress_edges hg.ok _ _ _ _ hc, hr.edge,
      blockCount_rev hr.edge, hr.vertexCount]
  refine ⟨c, c', hc, hc', hvc, ?_, he, fun x y i hi j hj => ?_⟩
  · rw [hec, hec']
    unfold CGraph.pairs
    rw [hvc, card_rev he]
  · have := he (8 * x + i) (8 * y + j)
    rw [CGraph.doesEdgeExist_eq, CGraph.doesEdgeExist_eq, show (8 * x + i) / 8 = x by omega,
      show (8 * y + j) / 8 = y by omega, show (8 * x + i) % 8 = i by omega, show (8 * y + j) % 8 = j by omega] at this
    exact this

/-- **C86**, histories: reversing every edge of a history (in which `add_vertex` is used without edges) of a directed
graph gives the reversed graph. -/
theorem C86_reverse_history (h : List Edit) (hv : ∀ v ts, Edit.addVertex v ts ∈ h → ts = none) :
    Reversed (runCode false h) (runCode false (h.map revEdit)) := by
  have key : ∀ (h : List Edit) (g g' : Graph), (∀ v ts, Edit.addVertex v ts ∈ h → ts = none) → g.OK → g'.OK →
      g.isUndirected = false → Reversed g g' → Reversed (h.foldl Edit.call g) ((h.map revEdit).foldl Edit.call g') := by
    intro h
    induction h with
    | nil => intro g g' _ _ _ _ hr; exact hr
    | cons e h ih =>
      intro g g' hv hg hg' hu hr
      rw [List.foldl_cons, List.map_cons, List.foldl_cons]
      have hu' : g'.isUndirected = false := hr.direction ▸ hu
      have hm : ∀ u v, (u, v) ∈ g'.pairs ↔ (v, u) ∈ g.pairs := fun u v => by
        rw [← Graph.doesEdgeExist_iff, ← Graph.doesEdgeExist_iff, hr.edge]
      refine ih _ _ (fun v ts hm => hv v ts (List.mem_cons_of_mem _ hm)) (Graph.OK.call hg e) (Graph.OK.call hg' _) ?_ ?_
      · have := Graph.abs_call g e
        have h2 : (e.call g).isUndirected = (g.abs.applyActual e).undirected := congrArg AGraph.undirected this
        rw [h2]
        cases e with
        | addVertex v ts =>
          obtain rfl := hv v ts (List.mem_cons_self ..)
          unfold AGraph.applyActual AGraph.addVertexActual AGraph.ensureVertex
          simp only [Option.getD_none, if_true]
          split <;> exact hu
        | addEdge u v => unfold AGraph.applyActual AGraph.addEdge; simp only; split <;> exact hu
        | deleteEdge u v => exact hu
      · cases e with
        | addVertex v ts =>
          obtain rfl := hv v ts (List.mem_cons_self ..)
          change Reversed (g.addVertex v none) (g'.addVertex v none)
          rw [Graph.addVertex_none, Graph.addVertex_none]
          refine ⟨?_, ?_, fun x y => ?_⟩
          · rw [Graph.touch_isUndirected, Graph.touch_isUndirected, hr.direction]
          · rw [Graph.touch_vertexCount, Graph.touch_vertexCount, hr.vertexCount]
          · rw [Bool.eq_iff_iff, Graph.doesEdgeExist_iff, Graph.doesEdgeExist_iff, Graph.touch_pairs, Graph.touch_pairs, hm]
        | addEdge u v =>
          change Reversed (g.addEdge u v) (g'.addEdge v u)
          by_cases hb : u < U64_MAX ∧ v < U64_MAX
          · refine ⟨hr.direction, ?_, fun x y => ?_⟩
            · rw [Graph.addEdge_vertexCount hb.1 hb.2, Graph.addEdge_vertexCount hb.2 hb.1, hr.vertexCount, max_comm (u + 1)]
            · rw [Bool.eq_iff_iff, Graph.doesEdgeExist_iff, Graph.doesEdgeExist_iff, Graph.addEdge_pairs hb.1 hb.2,
                Graph.addEdge_pairs hb.2 hb.1, Finset.mem_union, Finset.mem_union, hm]
              unfold Graph.newPairs
              rw [hu, hu']
              simp [and_comm]
          · rw [Graph.addEdge_overflow hb, Graph.addEdge_overflow (by omega)]
            exact hr
        | deleteEdge u v =>
          change Reversed (g.deleteEdge u v) (g'.deleteEdge v u)
          refine ⟨hr.direction, ?_, fun x y => ?_⟩
          · rw [Graph.deleteEdge_vertexCount, Graph.deleteEdge_vertexCount, hr.vertexCount]
          · rw [Bool.eq_iff_iff, Graph.doesEdgeExist_iff, Graph.doesEdgeExist_iff, Graph.deleteEdge_pairs,
              Graph.deleteEdge_pairs, Finset.mem_sdiff, Finset.mem_sdiff, hm]
            unfold Graph.newPairs
            rw [hu, hu']
            simp [and_comm]
  exact key h _ _ hv (Graph.OK.empty false) (Graph.OK.empty false) rfl ⟨rfl, rfl, fun _ _ => rfl⟩

theorem reach_runCode (u : Bool) (h : List Edit) : GReach (runCode u h) := by
  unfold runCode
  refine reach_foldl Edit.call (fun g e hg => ?_) h _ ?_
  · cases e with
    | addVertex v ts => exact hg.addVertex v ts
    | addEdge u v => exact hg.addEdge u v
    | deleteEdge u v => exact hg.deleteEdge u v
  · cases u
    · exact .newDirected
    · exact .newUndirected

example : let h : List Edit := [.addEdge 0 9, .addEdge 3 9, .addEdge 5 2, .deleteEdge 5 2, .addVertex 20 none]
    (∀ v ts, Edit.addVertex v ts ∈ h → ts = none) ∧ GReach (runCode false h) ∧
    (runCode false h).doesEdgeExist 3 9 = true ∧ (runCode false (h.map revEdit)).doesEdgeExist 9 3 = true ∧
    (runCode false (h.map revEdit)).doesEdgeExist 3 9 = false ∧
    okAnd ((runCode false h).compress exP .id .id 2) fun c => c.getCompressedMatrixEntry 0 1 == 2 ^ 8 + 2 ^ 11 := by
  refine ⟨?_, ?_, by decide, by decide, by decide, by decide +kernel⟩
  · intro v ts hm
    simp at hm
    exact hm.2
  · exact reach_runCode _ _

/-! ## C87 -/

/-- Every edge of `g` is an edge of `g'`, which may also have more vertices. -/
structure SubGraph (g g' : Graph) : Prop where
  direction : g.isUndirected = g'.isUndirected
  vertexCount : g.vertexCount ≤ g'.vertexCount
  edge : ∀ u v, g.doesEdgeExist u v = true → g'.doesEdgeExist u v = true

theorem blockCount_le_of {e e' : Nat → Nat → Bool} (h : ∀ u v, e u v = true → e' u v = true) (b c r : Nat) :
    blockCount e b c r ≤ blockCount e' b c r := by
  unfold blockCount
  apply Finset.card_le_card
  intro p hp
  rw [Finset.mem_filter] at hp ⊢
  exact ⟨hp.1, h _ _ hp.2⟩

theorem pairs_sub {g g' : Graph} (h : SubGraph g g') : g.pairs ⊆ g'.pairs := by
  rintro ⟨u, v⟩ hp
  rw [← Graph.doesEdgeExist_iff] at hp ⊢
  exact h.edge _ _ hp

/-- **C87**, queries: more edges mean larger counts and longer neighbour lists; adding edges and vertices gives more,
deleting gives less. -/
theorem C87_more_edges_queries {g g' : Graph} (hg : GReach g) (hg' : GReach g') (hs : SubGraph g g') :
    g.edgeCount ≤ g'.edgeCount ∧ (∀ v, g.getVertexOutDegree v ≤ g'.getVertexOutDegree v) ∧
    (∀ v, g.getVertexInDegree v ≤ g'.getVertexInDegree v) ∧
    (∀ o o' v w, w ∈ g.getVertexOutEdges o v → w ∈ g'.getVertexOutEdges o' v) ∧
    (∀ o o' v w, w ∈ g.getVertexInEdges o v → w ∈ g'.getVertexInEdges o' v) ∧
    (∀ u v, SubGraph g (g'.addEdge u v)) ∧ (∀ v ts, SubGraph g (g'.addVertex v ts)) ∧
    (∀ u v, SubGraph (g.deleteEdge u v) g') := by
  have hp := pairs_sub hs
  have hadd : ∀ (g' : Graph), GReach g' → SubGraph g g' → ∀ u v, SubGraph g (g'.addEdge u v) := by
    intro g' hg' hs u v
    by_cases hb : u < U64_MAX ∧ v < U64_MAX
    · refine ⟨hs.direction, ?_, fun x y h => ?_⟩
      · rw [Graph.addEdge_vertexCount hb.1 hb.2]; have := hs.vertexCount; omega
      · rw [(C05_add_edge_exact hg' hb.1 hb.2).2.1]; exact .inr (.inr (hs.edge _ _ h))
    · rw [Graph.addEdge_overflow hb]; exact hs
  refine ⟨?_, fun v => ?_, fun v => ?_, fun o o' v w => ?_, fun o o' v w => ?_, hadd g' hg' hs, fun v ts => ?_,
    fun u v => ?_⟩
  · rw [Graph.edgeCount_eq hg.ok, Graph.edgeCount_eq hg'.ok]; exact Finset.card_le_card hp
  · rw [Graph.outDegree_eq, Graph.outDegree_eq]; exact Finset.card_le_card (Finset.filter_subset_filter _ hp)
  · rw [Graph.inDegree_eq hg.ok, Graph.inDegree_eq hg'.ok]; exact Finset.card_le_card (Finset.filter_subset_filter _ hp)
  · rw [Graph.mem_out, Graph.mem_out]; exact fun h => hp h
  · rw [Graph.mem_in hg.ok, Graph.mem_in hg'.ok]; exact fun h => hp h
  · have ht : SubGraph g (g'.touch v) := by
      refine ⟨?_, ?_, fun x y h => ?_⟩
      · rw [Graph.touch_isUndirected]; exact hs.direction
      · rw [Graph.touch_vertexCount]; have := hs.vertexCount; split <;> omega
      · rw [Graph.doesEdgeExist_iff, Graph.touch_pairs, ← Graph.doesEdgeExist_iff]; exact hs.edge _ _ h
    match ts with
    | none => rw [Graph.addVertex_none]; exact ht
    | some [] => rw [Graph.addVertex_nil]; exact ht
    | some (t :: ts) =>
      rw [Graph.addVertex_cons]
      suffices h : ∀ (l : List Nat) (g' : Graph), GReach g' → SubGraph g g' →
          SubGraph g (l.foldl (fun g t => g.addEdge v t) g') from h _ g' hg' hs
      intro l
      induction l with
      | nil => intro g' _ h; exact h
      | cons t l ih => intro g' hg' h; exact ih _ (.addEdge _ _ hg') (hadd g' hg' h v t)
  · obtain ⟨h1, h2, h3, _⟩ := C06_delete_edge_exact hg u v
    exact ⟨h1.trans hs.direction, by rw [h2]; exact hs.vertexCount, fun x y h => hs.edge _ _ ((h3 x y).1 h).1⟩

/-- **C87**, results: with the same effective block dimension, more edges mean larger pooled entries, a larger
approximation (at any threshold) and a larger compressed graph (at any level). -/
theorem C87_more_edges_results {g g' : Graph} (hg : GReach g) (hg' : GReach g') (hs : SubGraph g g') :
    (∀ P o o' b, effBlock g.vertexCount b = effBlock g'.vertexCount b → effBlock g.vertexCount b < 2 ^ 32 →
      ∃ m m', g.findAvgPoolMatrix P o b = .ok m ∧ g'.findAvgPoolMatrix P o' b = .ok m' ∧
        ∀ c r, ∃ x x' : ℚ, m.getEntry f64Numeric c r = .fin x ∧ m'.getEntry f64Numeric c r = .fin x' ∧ x ≤ x') ∧
    (∀ P o₁ o₂ o₁' o₂' b t, effBlock g.vertexCount b = effBlock g'.vertexCount b → effBlock g.vertexCount b < 2 ^ 32 →
      ∃ a a', g.approximate P o₁ o₂ b t = .ok a ∧ g'.approximate P o₁' o₂' b t = .ok a' ∧ SubGraph a a') ∧
    (∀ P P' o₁ o₂ o₁' o₂' l, min 8 g.vertexCount = min 8 g'.vertexCount →
      ∃ c c', g.compress P o₁ o₂ l = .ok c ∧ g'.compress P' o₁' o₂' l = .ok c' ∧
        ∀ u v, c.doesEdgeExist u v = true → c'.doesEdgeExist u v = true) := by
  have hpool : ∀ P o o' b, effBlock g.vertexCount b = effBlock g'.vertexCount b → effBlock g.vertexCount b < 2 ^ 32 →
      g.vertexCount ≠ 0 → ∃ m m', g.findAvgPoolMatrix P o b = .ok m ∧ g'.findAvgPoolMatrix P o' b = .ok m' ∧
        ∀ c r, (∀ v, m.at? c r = some v → ∃ x x' : ℚ, v = .fin x ∧ m'.at? c r = some (.fin x') ∧ x ≤ x') ∧
          (m.at? c r = none → m'.at? c r = none ∨ ∃ x' : ℚ, m'.at? c r = some (.fin x') ∧ 0 ≤ x') := by
    intro P o o' b heq hlt hn
    have hn' : g'.vertexCount ≠ 0 := by have := hs.vertexCount; omega
    obtain ⟨m, hm, _, _, hat⟩ := Graph.pool_ok hg.ok P o b hn (by rw [clamp_eff hn]; exact hlt)
    obtain ⟨m', hm', _, _, hat'⟩ := Graph.pool_ok hg'.ok P o' b hn' (by rw [clamp_eff hn', ← heq]; exact hlt)
    rw [clamp_eff hn] at hat
    rw [clamp_eff hn', ← heq] at hat'
    refine ⟨m, m', hm, hm', fun c r => ?_⟩
    have hpos : 0 < effBlock g.vertexCount b := by unfold effBlock; omega
    have hle := blockCount_le_of hs.edge (effBlock g.vertexCount b) c r
    have hsq := Graph.sq_le_U64 hlt
    have h1 : 1 ≤ effBlock g.vertexCount b * effBlock g.vertexCount b := Nat.mul_pos hpos hpos
    constructor
    · intro v hv
      rw [hat] at hv
      split at hv
      · cases hv
      · next h0 =>
        cases hv
        refine ⟨_, _, rfl, ?_, F64.poolQ_mono h1 hsq hle⟩
        rw [hat', if_neg (by omega)]
    · intro _
      rw [hat']
      split
      · exact .inl rfl
      · exact .inr ⟨_, rfl, F64.poolQ_nonneg h1 hsq _⟩
  refine ⟨fun P o o' b heq hlt => ?_, fun P o₁ o₂ o₁' o₂' b t heq hlt => ?_, fun P P' o₁ o₂ o₁' o₂' l h8 => ?_⟩
  · by_cases hn : g.vertexCount = 0
    · obtain ⟨m', hm', hv⟩ := ((C46_no_overflow_partial hg' P o' .id b (.fin 0)).1 (heq ▸ hlt)).1
      refine ⟨SqMatrix.new, m', by unfold Graph.findAvgPoolMatrix; rw [if_pos hn], hm', fun c r => ?_⟩
      obtain ⟨q, h1, h2, _⟩ := hv c r
      exact ⟨0, q, F64.lit_zero, h1, h2⟩
    · obtain ⟨m, m', hm, hm', h⟩ := hpool P o o' b heq hlt hn
      refine ⟨m, m', hm, hm', fun c r => ?_⟩
      obtain ⟨ha, hb⟩ := h c r
      rw [SqMatrix.getEntry_eq, SqMatrix.getEntry_eq]
      cases hat : m.at? c r with
      | some v =>
        obtain ⟨x, x', hx, hx', hle⟩ := ha v hat
        rw [hx']
        exact ⟨x, x', hx, rfl, hle⟩
      | none =>
        rcases hb hat with h0 | ⟨x', h0, hle⟩
        · rw [h0]; exact ⟨0, 0, F64.lit_zero, F64.lit_zero, le_refl _⟩
        · rw [h0]; exact ⟨0, x', F64.lit_zero, rfl, hle⟩
  · have hv := hs.vertexCount
    by_cases hsm : b ≤ 1 ∨ g.vertexCount ≤ 1
    · have hsm' : b ≤ 1 ∨ g'.vertexCount ≤ 1 := by unfold effBlock at heq; omega
      exact ⟨g, g', C43_copy g P o₁ o₂ b t hsm, C43_copy g' P o₁' o₂' b t hsm', hs⟩
    · push Not at hsm
      obtain ⟨m, m', hm, hm', h⟩ := hpool P o₁ o₁' b heq hlt (by omega)
      obtain ⟨a, ha, _, hu, hv1, he⟩ := Graph.approximate_spec hg.ok o₂ t (by omega) (by omega) hm
      obtain ⟨a', ha', _, hu', hv2, he'⟩ := Graph.approximate_spec hg'.ok o₂' t (by omega) (by omega) hm'
      refine ⟨a, a', ha, ha', by rw [hu, hu', hs.direction], ?_, fun u v huv => ?_⟩
      · rw [hv1, hv2]
        have : min b g.vertexCount = min b g'.vertexCount := by unfold effBlock at heq; omega
        rw [← this]
        exact Nat.div_le_div_right (by omega)
      · rw [he] at huv
        rw [he']
        obtain ⟨x, hx, hle⟩ := huv
        obtain ⟨q, q', rfl, hq', hqq⟩ := (h u v).1 x hx
        refine ⟨_, hq', ?_⟩
        cases ht : clampThreshold t with
        | nan => rw [ht] at hle; cases hle
        | inf s => rw [ht] at hle; cases s <;> simp_all [F64.le, F64.lt]
        | fin y =>
          rw [ht, F64_le_fin] at hle
          rw [F64_le_fin]
          exact hle.trans hqq
  · obtain ⟨c, hc, _⟩ := Graph.compress_spec hg.ok P o₁ o₂ l
    obtain ⟨c', hc', _⟩ := Graph.compress_spec hg'.ok P' o₁' o₂' l
    refine ⟨c, c', hc, hc', fun u v h => ?_⟩
    rw [compress_edges hg.ok _ _ _ _ hc] at h
    rw [compress_edges hg'.ok _ _ _ _ hc', ← h8]
    exact ⟨hs.edge _ _ h.1, h.2.trans (Nat.mul_le_mul_left _ (blockCount_le_of hs.edge _ _ _))⟩

/-- A graph and a larger one whose approximation and compression are larger. -/
example : GReach exC ∧ SubGraph exC (exC.addEdge 16 17) ∧ effBlock exC.vertexCount 4 = effBlock (exC.addEdge 16 17).vertexCount 4 ∧
    okAnd (exC.compress exP .id .id 2) (fun c => !c.doesEdgeExist 16 17) ∧
    okAnd ((exC.addEdge 16 17).compress exP .id .id 2) fun c => c.doesEdgeExist 16 17 :=
  ⟨exC_reach, (C87_more_edges_queries exC_reach exC_reach ⟨rfl, le_refl _, fun _ _ h => h⟩).2.2.2.2.2.1 16 17,
    by decide +kernel, by decide +kernel, by decide +kernel⟩

/-! ## C88 -/

theorem ceilDiv_le {n b k : Nat} (hb : 1 ≤ b) : ceilDiv n b ≤ k ↔ n ≤ k * b := by
  unfold ceilDiv
  rw [← Nat.lt_succ_iff, Nat.div_lt_iff_lt_mul (by omega), Nat.succ_mul]
  omega

theorem ceilDiv_ceilDiv (n a b : Nat) (ha : 1 ≤ a) (hb : 1 ≤ b) : ceilDiv (ceilDiv n a) b = ceilDiv n (a * b) := by
  have hab : 1 ≤ a * b := Nat.mul_pos ha hb
  have h : ∀ k, ceilDiv (ceilDiv n a) b ≤ k ↔ ceilDiv n (a * b) ≤ k := by
    intro k
    rw [ceilDiv_le hb, ceilDiv_le ha, ceilDiv_le hab, Nat.mul_assoc, Nat.mul_comm b a]
  exact le_antisymm ((h _).2 (le_refl _)) ((h _).1 (le_refl _))

theorem ceilDiv_min (n b : Nat) (hb : 1 ≤ b) (hn : 1 ≤ n) : ceilDiv n (min b n) = ceilDiv n b := by
  rcases Nat.le_total b n with h | h
  · rw [min_eq_left h]
  · rw [min_eq_right h]
    apply le_antisymm
    · rw [ceilDiv_le hn]
      have : ¬ ceilDiv n b ≤ 0 := by rw [ceilDiv_le hb]; omega
      calc n = 1 * n := by omega
        _ ≤ ceilDiv n b * n := Nat.mul_le_mul_right _ (by omega)
    · rw [ceilDiv_le hb]
      have : ¬ ceilDiv n n ≤ 0 := by rw [ceilDiv_le hn]; omega
      calc n ≤ 1 * b := by omega
        _ ≤ ceilDiv n n * b := Nat.mul_le_mul_right _ (by omega)

/-- At threshold zero or below an edge of the approximation is a pair of blocks joined by an edge. -/
theorem zero_approx {g : Graph} (hg : GReach g) (P : Platform) (o₁ o₂ : HashOrder) {b : Nat} {t : F64}
    (ht : NonPos t) (hb : 1 ≤ b) (h9 : min b g.vertexCount ≤ 10 ^ 9) :
    ∃ a, g.approximate P o₁ o₂ b t = .ok a ∧ a.isUndirected = g.isUndirected ∧ a.vertexCount = ceilDiv g.vertexCount b ∧
      ∀ c r, a.doesEdgeExist c r = true ↔ ∃ u v, g.doesEdgeExist u v = true ∧ u / b = c ∧ v / b = r := by
  have hrange := (C02_edge_count_exact hg).2
  by_cases hsm : b ≤ 1 ∨ g.vertexCount ≤ 1
  · refine ⟨g, C43_copy g P o₁ o₂ b t hsm, rfl, ?_, fun c r => ?_⟩
    · rcases hsm with h | h
      · obtain rfl : b = 1 := by omega
        unfold ceilDiv; rw [Nat.div_one]; omega
      · apply le_antisymm
        · by_contra hc
          have h0 : ceilDiv g.vertexCount b ≤ 0 := by omega
          rw [ceilDiv_le hb] at h0
          omega
        · rw [ceilDiv_le hb]
          calc g.vertexCount = g.vertexCount * 1 := by omega
            _ ≤ g.vertexCount * b := Nat.mul_le_mul_left _ hb
    · rcases hsm with h | h
      · obtain rfl : b = 1 := by omega
        simp only [Nat.div_one]
        exact ⟨fun h => ⟨c, r, h, rfl, rfl⟩, fun ⟨u, v, h, h1, h2⟩ => h1 ▸ h2 ▸ h⟩
      · constructor
        · intro he
          have := hrange c r he
          obtain rfl : c = 0 := by omega
          obtain rfl : r = 0 := by omega
          exact ⟨0, 0, he, Nat.zero_div _, Nat.zero_div _⟩
        · rintro ⟨u, v, he, rfl, rfl⟩
          have := hrange u v he
          obtain rfl : u = 0 := by omega
          obtain rfl : v = 0 := by omega
          rw [Nat.zero_div]; exact he
  · push Not at hsm
    obtain ⟨a, ha, he⟩ := C45_zero_threshold_partial hg P o₁ o₂ ht (by omega : 2 ≤ b) (by omega) (by omega)
    obtain ⟨m, hm, _⟩ := C38_pooling_covers hg P o₁ .id b (by unfold effBlock; omega)
    obtain ⟨a', ha', hu, hv, _⟩ := C40_approximate_keeps hg P o₁ o₂ t (by omega : 2 ≤ b) (by omega) hm
    rw [ha] at ha'; cases ha'
    refine ⟨a, ha, hu, by rw [hv, ceilDiv_min _ _ hb (by omega)], fun c r => ?_⟩
    rw [(he c r).2.1 h9]
    have hpos : 0 < min b g.vertexCount := by omega
    have hdiv : ∀ u < g.vertexCount, u / min b g.vertexCount = u / b := by
      intro u hu
      rcases Nat.le_total b g.vertexCount with h | h
      · rw [min_eq_left h]
      · rw [min_eq_right h, Nat.div_eq_of_lt hu, Nat.div_eq_of_lt (by omega)]
    unfold blockCount
    rw [Finset.card_pos]
    constructor
    · rintro ⟨⟨i, j⟩, hp⟩
      rw [Finset.mem_filter, Finset.mem_product, Finset.mem_range, Finset.mem_range] at hp
      obtain ⟨⟨hi, hj⟩, hedge⟩ := hp
      have hr := hrange _ _ hedge
      refine ⟨_, _, hedge, ?_, ?_⟩
      · rw [← hdiv _ hr.1, Nat.add_comm, Nat.add_mul_div_right _ _ hpos, Nat.div_eq_of_lt hi, Nat.zero_add]
      · rw [← hdiv _ hr.2, Nat.add_comm, Nat.add_mul_div_right _ _ hpos, Nat.div_eq_of_lt hj, Nat.zero_add]
    · rintro ⟨u, v, hedge, rfl, rfl⟩
      have hr := hrange _ _ hedge
      rw [← hdiv _ hr.1, ← hdiv _ hr.2]
      refine ⟨(u % min b g.vertexCount, v % min b g.vertexCount), ?_⟩
      rw [Finset.mem_filter, Finset.mem_product, Finset.mem_range, Finset.mem_range]
      refine ⟨⟨Nat.mod_lt _ hpos, Nat.mod_lt _ hpos⟩, ?_⟩
      rw [Nat.mul_comm, Nat.div_add_mod, Nat.mul_comm, Nat.div_add_mod]
      exact hedge

/-- **C88, as wished.** Coarsening twice is coarsening once, for blocks of every size. -/
def C88_full : Prop :=
  ∀ (g : Graph), GReach g → ∀ (P P' P'' : Platform) (o₁ o₂ o₃ o₄ o₅ o₆ : HashOrder) (b₁ b₂ : Nat) (t t' t'' : F64),
    NonPos t → NonPos t' → NonPos t'' → 1 ≤ b₁ → 1 ≤ b₂ →
    ∀ a a' a'', g.approximate P o₁ o₂ b₁ t = .ok a → a.approximate P' o₃ o₄ b₂ t' = .ok a' →
      g.approximate P'' o₅ o₆ (b₁ * b₂) t'' = .ok a'' → Same a' a''

/-- **C88 is false of the code** for huge blocks: an edge that alone occupies a block of `2^31 × 2^31` pairs is dropped, but
kept when the blocks are first of `2^16` and then of `2^15` vertices. -/
theorem C88_full_false : ¬ C88_full := by
  intro hC
  have h1 : okAnd (bigG.approximate exP .id .id (2 ^ 16) (.fin 0)) (fun a =>
      okAnd (a.approximate exP .id .id (2 ^ 15) (.fin 0)) fun a' => a'.doesEdgeExist 0 0) = true := by decide +kernel
  have h2 : okAnd (bigG.approximate exP .id .id (2 ^ 16 * 2 ^ 15) (.fin 0)) (fun a => !a.doesEdgeExist 0 0) = true := by
    decide +kernel
  obtain ⟨a, ha, h1⟩ := okAnd_elim h1
  obtain ⟨a', ha', h1⟩ := okAnd_elim h1
  obtain ⟨a'', ha'', h2⟩ := okAnd_elim h2
  have hz : NonPos (.fin 0) := Or.inr ⟨0, le_refl _, rfl⟩
  have h := hC bigG bigG_reach exP exP exP .id .id .id .id .id .id (2 ^ 16) (2 ^ 15) _ _ _ hz hz hz (by norm_num)
    (by norm_num) a a' a'' ha ha' ha''
  have he := h.edge 0 0
  rw [h1] at he
  rw [← he] at h2
  cases h2

/-- **C88, the part that holds** (`C88_full` is false): at thresholds of zero or below, approximating with block dimension
`b₁` and then with `b₂` gives the same graph as approximating with `b₁ * b₂`, for blocks up to `10^9`. -/
theorem C88_coarsen_twice_partial {g : Graph} (hg : GReach g) (P P' P'' : Platform) (o₁ o₂ o₃ o₄ o₅ o₆ : HashOrder)
    {b₁ b₂ : Nat} {t t' t'' : F64} (ht : NonPos t) (ht' : NonPos t') (ht'' : NonPos t'') (h1 : 1 ≤ b₁) (h2 : 1 ≤ b₂)
    (h9 : min (b₁ * b₂) g.vertexCount ≤ 10 ^ 9) :
    ∃ a a' a'', g.approximate P o₁ o₂ b₁ t = .ok a ∧ a.approximate P' o₃ o₄ b₂ t' = .ok a' ∧
      g.approximate P'' o₅ o₆ (b₁ * b₂) t'' = .ok a'' ∧ Same a' a'' := by
  have hb1 : b₁ ≤ b₁ * b₂ := Nat.le_mul_of_pos_right _ h2
  have hb2 : b₂ ≤ b₁ * b₂ := Nat.le_mul_of_pos_left _ h1
  obtain ⟨a, ha, hu, hv, he⟩ := zero_approx hg P o₁ o₂ ht h1 (by omega)
  have har : GReach a := .approximate _ _ _ _ _ hg ha
  have hva : a.vertexCount ≤ g.vertexCount := by
    rw [hv, ceilDiv_le h1]; exact Nat.le_mul_of_pos_right _ h1
  obtain ⟨a', ha', hu', hv', he'⟩ := zero_approx har P' o₃ o₄ ht' h2 (by omega)
  obtain ⟨a'', ha'', hu'', hv'', he''⟩ := zero_approx hg P'' o₅ o₆ (b := b₁ * b₂) ht'' (by omega) h9
  refine ⟨a, a', a'', ha, ha', ha'', same_of_obs (GReach.ok (.approximate _ _ _ _ _ har ha'))
    (GReach.ok (.approximate _ _ _ _ _ hg ha'')) (by rw [hu', hu, hu'']) ?_ fun c r => ?_⟩
  · rw [hv', hv, hv'', ceilDiv_ceilDiv _ _ _ h1 h2]
  · rw [Bool.eq_iff_iff, he', he'']
    constructor
    · rintro ⟨x, y, hxy, rfl, rfl⟩
      obtain ⟨u, v, huv, rfl, rfl⟩ := (he x y).1 hxy
      exact ⟨u, v, huv, by rw [Nat.div_div_eq_div_mul], by rw [Nat.div_div_eq_div_mul]⟩
    · rintro ⟨u, v, huv, rfl, rfl⟩
      exact ⟨u / b₁, v / b₁, (he _ _).2 ⟨u, v, huv, rfl, rfl⟩, by rw [Nat.div_div_eq_div_mul],
        by rw [Nat.div_div_eq_div_mul]⟩

/-- Blocks of 2, then of 3; 20 vertices become 10, then 4. -/
example : GReach exC ∧ NonPos (.fin 0) ∧ min (2 * 3) exC.vertexCount ≤ 10 ^ 9 ∧
    okAnd (exC.approximate exP .id .id 2 (.fin 0)) (fun a => a.vertexCount == 10 &&
      okAnd (a.approximate exP .id .id 3 (.fin 0)) fun a' => a'.vertexCount == 4 && a'.edgeCount != 0) :=
  ⟨exC_reach, Or.inr ⟨0, le_refl _, rfl⟩, by decide +kernel, by decide +kernel⟩

end Verif.Props
