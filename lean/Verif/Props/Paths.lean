import Verif.Props.Losses
import Verif.Props.Metamorphic
import Verif.Spec.Paths

/-!
# Walks, distances and patterns in edited, compressed and approximated graphs (C131)
-/

namespace Verif.Props

open Verif Spec

theorem Walk.map {edge edge' : Nat → Nat → Bool} (f : Nat → Nat)
    (h : ∀ u v, edge u v = true → edge' (f u) (f v) = true) {k u v : Nat} (hw : Walk edge k u v) :
    Walk edge' k (f u) (f v) := by
  induction hw with
  | nil => exact .nil
  | cons he _ ih => exact .cons (h _ _ he) ih

theorem Walk.mono {edge edge' : Nat → Nat → Bool} (h : ∀ u v, edge u v = true → edge' u v = true) {k u v : Nat}
    (hw : Walk edge k u v) : Walk edge' k u v := Walk.map id h hw

theorem Walk.snoc {edge : Nat → Nat → Bool} {k u w v : Nat} (hw : Walk edge k u w) (h : edge w v = true) :
    Walk edge (k + 1) u v := by
  induction hw with
  | nil => exact .cons h .nil
  | cons he _ ih => exact .cons he (ih h)

theorem Walk.reverse {edge : Nat → Nat → Bool} (h : ∀ u v, edge u v = edge v u) {k u v : Nat} (hw : Walk edge k u v) :
    Walk edge k v u := by
  induction hw with
  | nil => exact .nil
  | cons he _ ih => exact Walk.snoc ih ((h _ _).trans he)

theorem exists_dist {edge : Nat → Nat → Bool} {k u v : Nat} (hw : Walk edge k u v) : ∃ j ≤ k, IsDist edge u v j := by
  classical
  have hex : ∃ j, Walk edge j u v := ⟨k, hw⟩
  exact ⟨Nat.find hex, Nat.find_min' hex hw, Nat.find_spec hex, fun j hj => Nat.find_min' hex hj⟩

theorem IsDist.unique {edge : Nat → Nat → Bool} {u v i j : Nat} (hi : IsDist edge u v i) (hj : IsDist edge u v j) : i = j :=
  Nat.le_antisymm (hi.2 _ hj.1) (hj.2 _ hi.1)

/-- The vertices of a shortest walk, by their distance to its end. -/
theorem IsDist.suffix {edge : Nat → Nat → Bool} {n : Nat} (hr : ∀ u v, edge u v = true → u < n ∧ v < n) {v : Nat} :
    ∀ {k u : Nat}, IsDist edge u v k → u < n → ∀ i ≤ k, ∃ w < n, IsDist edge w v i := by
  intro k
  induction k with
  | zero => intro u h hu i hi; obtain rfl : i = 0 := by omega
            exact ⟨u, hu, h⟩
  | succ k ih =>
    intro u h hu i hi
    rcases Nat.lt_or_ge k i with hlt | hge
    · obtain rfl : i = k + 1 := by omega
      exact ⟨u, hu, h⟩
    · obtain ⟨h1, h2⟩ := h
      cases h1 with
      | cons he hw =>
        exact ih ⟨hw, fun j hj => by have := h2 _ (.cons he hj); omega⟩ (hr _ _ he).2 i hge

/-- **C131.** A shortest walk of a graph has fewer edges than the graph has vertices; in an undirected graph walks can be
reversed. -/
theorem C131_graph {g : Graph} (hg : GReach g) :
    (∀ u v k, IsDist g.doesEdgeExist u v k → u < g.vertexCount → k < g.vertexCount) ∧
    (g.isUndirected = true → ∀ k u v, Walk g.doesEdgeExist k u v ↔ Walk g.doesEdgeExist k v u) := by
  constructor
  · intro u v k h hu
    classical
    have hs := IsDist.suffix (C02_edge_count_exact hg).2 h hu
    choose f hf hd using hs
    have : (Finset.range (k + 1)).card ≤ (Finset.range g.vertexCount).card := by
      refine Finset.card_le_card_of_injOn (fun i => if h : i ≤ k then f i h else 0) ?_ ?_
      · intro i hi
        have hi : i ≤ k := by have := Finset.mem_range.1 (Finset.mem_coe.1 hi); omega
        simp only [dif_pos hi]
        exact Finset.mem_coe.2 (Finset.mem_range.2 (hf i hi))
      · intro i hi j hj e
        have hi : i ≤ k := by have := Finset.mem_range.1 (Finset.mem_coe.1 hi); omega
        have hj : j ≤ k := by have := Finset.mem_range.1 (Finset.mem_coe.1 hj); omega
        simp only [dif_pos hi, dif_pos hj] at e
        have h1 := hd i hi
        rw [e] at h1
        exact IsDist.unique h1 (hd j hj)
    rw [Finset.card_range, Finset.card_range] at this
    omega
  · intro hu k u v
    have hs := C04_undirected_symmetric hg hu
    exact ⟨Walk.reverse hs, Walk.reverse hs⟩

/-- **C131.** Adding edges or vertices destroys no walk and makes no distance longer; deleting edges creates none and
makes none shorter. -/
theorem C131_edits {g : Graph} (hg : GReach g) :
    (∀ a b k u v, Walk g.doesEdgeExist k u v → Walk (g.addEdge a b).doesEdgeExist k u v) ∧
    (∀ a ts k u v, Walk g.doesEdgeExist k u v → Walk (g.addVertex a ts).doesEdgeExist k u v) ∧
    (∀ a b k u v, Walk (g.deleteEdge a b).doesEdgeExist k u v → Walk g.doesEdgeExist k u v) ∧
    (∀ a b i u v, IsDist g.doesEdgeExist u v i → ∃ j ≤ i, IsDist (g.addEdge a b).doesEdgeExist u v j) ∧
    (∀ a b j u v, IsDist (g.deleteEdge a b).doesEdgeExist u v j → ∃ i ≤ j, IsDist g.doesEdgeExist u v i) := by
  have hs : SubGraph g g := ⟨rfl, le_rfl, fun _ _ h => h⟩
  obtain ⟨_, _, _, _, _, h1, h2, h3⟩ := C87_more_edges_queries hg hg hs
  exact ⟨fun a b k u v => Walk.mono (h1 a b).edge, fun a ts k u v => Walk.mono (h2 a ts).edge,
    fun a b k u v => Walk.mono (h3 a b).edge, fun a b i u v h => exists_dist (Walk.mono (h1 a b).edge h.1),
    fun a b i u v h => exists_dist (Walk.mono (h3 a b).edge h.1)⟩

/-- **C131.** The walks of a compressed graph are walks of the graph — with at least 8 vertices those that use only blocks
with as many edges as the level says; at level 1 all of them. So distances do not become shorter, and every pattern of
the compressed graph is in the graph. Decompressing changes nothing. -/
theorem C131_compress {g : Graph} (hg : GReach g) (P : Platform) (o₁ o₂ : HashOrder) (l : Nat) :
    ∃ c, g.compress P o₁ o₂ l = .ok c ∧
      (∀ k u v, Walk c.doesEdgeExist k u v → Walk g.doesEdgeExist k u v) ∧
      (l ≤ 1 → ∀ k u v, Walk c.doesEdgeExist k u v ↔ Walk g.doesEdgeExist k u v) ∧
      (8 ≤ g.vertexCount → ∀ k u v, Walk c.doesEdgeExist k u v ↔ Walk (fun x y =>
        g.doesEdgeExist x y && decide (max 1 (min l 64) ≤ blockCount g.doesEdgeExist 8 (x / 8) (y / 8))) k u v) ∧
      (∀ u v j, IsDist c.doesEdgeExist u v j → ∃ i ≤ j, IsDist g.doesEdgeExist u v i) ∧
      (∀ (V : Type) (E : V → V → Prop) φ, OccursIn E φ c.doesEdgeExist → OccursIn E φ g.doesEdgeExist) ∧
      ∀ P' o, ∃ d, c.decompress P' o = .ok d ∧ ∀ k u v, Walk d.doesEdgeExist k u v ↔ Walk c.doesEdgeExist k u v := by
  obtain ⟨c, hc, _⟩ := Graph.compress_spec hg.ok P o₁ o₂ l
  have hed := compress_edges hg.ok P o₁ o₂ l hc
  have hsub : ∀ u v, c.doesEdgeExist u v = true → g.doesEdgeExist u v = true := fun u v h => ((hed u v).1 h).1
  refine ⟨c, hc, fun k u v => Walk.mono hsub, fun hl k u v => ⟨Walk.mono hsub, Walk.mono fun x y h => ?_⟩, fun hn k u v => ?_,
    fun u v j h => exists_dist (Walk.mono hsub h.1), fun V E φ h x y hxy => hsub _ _ (h x y hxy), fun P' o => ?_⟩
  · rw [hed]
    refine ⟨h, ?_⟩
    have h1 := blockCount_pos h
    have h2 := min_sq_le g.vertexCount
    rw [show max 1 (min l 64) = 1 by omega]
    omega
  · rw [min_eq_left hn] at hed
    have : ∀ x y, c.doesEdgeExist x y = true ↔ (g.doesEdgeExist x y &&
        decide (max 1 (min l 64) ≤ blockCount g.doesEdgeExist 8 (x / 8) (y / 8))) = true := fun x y => by
      rw [hed, Bool.and_eq_true, decide_eq_true_iff]
      exact and_congr_right fun _ => by omega
    exact ⟨Walk.mono fun x y h => (this x y).1 h, Walk.mono fun x y h => (this x y).2 h⟩
  · obtain ⟨d, hd, he⟩ := C27_decompress_compressed hg P P' o₁ o₂ o l hc
    exact ⟨d, hd, fun k u v => ⟨Walk.mono fun x y h => by rw [← he]; exact h, Walk.mono fun x y h => by rw [he]; exact h⟩⟩

theorem blockCount_pos_iff {edge : Nat → Nat → Bool} {e : Nat} (he : 0 < e) (c r : Nat) :
    0 < blockCount edge e c r ↔ ∃ u v, edge u v = true ∧ u / e = c ∧ v / e = r := by
  unfold blockCount
  rw [Finset.card_pos]
  constructor
  · rintro ⟨⟨i, j⟩, h⟩
    rw [Finset.mem_filter, Finset.mem_product, Finset.mem_range, Finset.mem_range] at h
    refine ⟨_, _, h.2, ?_, ?_⟩
    · rw [Nat.mul_comm, Nat.mul_add_div he, Nat.div_eq_of_lt h.1.1]; rfl
    · rw [Nat.mul_comm, Nat.mul_add_div he, Nat.div_eq_of_lt h.1.2]; rfl
  · rintro ⟨u, v, h, rfl, rfl⟩
    refine ⟨(u % e, v % e), ?_⟩
    rw [Finset.mem_filter, Finset.mem_product, Finset.mem_range, Finset.mem_range]
    refine ⟨⟨Nat.mod_lt _ he, Nat.mod_lt _ he⟩, ?_⟩
    simp only
    rw [Nat.div_add_mod', Nat.div_add_mod']
    exact h

theorem effBlock_pos (n b : Nat) : 0 < effBlock n b := by unfold effBlock; omega

/-- **C131.** An approximation at threshold zero (blocks up to 10^9) has an edge between two blocks exactly if the graph
has an edge between vertices of them. So every walk of the graph is a walk of the approximation, distances do not become
longer, and every pattern of the graph is in the approximation. -/
theorem C131_approximate {g : Graph} (hg : GReach g) (P : Platform) (o₁ o₂ : HashOrder) {b : Nat} {t : F64}
    (ht : NonPos t) (h9 : effBlock g.vertexCount b ≤ 10 ^ 9) :
    let e := effBlock g.vertexCount b
    ∃ a, g.approximate P o₁ o₂ b t = .ok a ∧
      (∀ x y, a.doesEdgeExist x y = true ↔ ∃ u v, g.doesEdgeExist u v = true ∧ u / e = x ∧ v / e = y) ∧
      (∀ k u v, Walk g.doesEdgeExist k u v → Walk a.doesEdgeExist k (u / e) (v / e)) ∧
      (∀ u v i, IsDist g.doesEdgeExist u v i → ∃ j ≤ i, IsDist a.doesEdgeExist (u / e) (v / e) j) ∧
      (∀ (V : Type) (E : V → V → Prop) φ, OccursIn E φ g.doesEdgeExist → OccursIn E (fun x => φ x / e) a.doesEdgeExist) := by
  intro e
  have hex : ∃ a, g.approximate P o₁ o₂ b t = .ok a ∧
      ∀ x y, a.doesEdgeExist x y = true ↔ ∃ u v, g.doesEdgeExist u v = true ∧ u / e = x ∧ v / e = y := by
    by_cases hb : 2 ≤ b ∧ 2 ≤ g.vertexCount
    · have he : e = min b g.vertexCount := by simp only [e]; unfold effBlock; omega
      have h9' : min b g.vertexCount ≤ 10 ^ 9 := by rw [← he]; exact h9
      obtain ⟨a, ha, hx⟩ := C45_zero_threshold_partial hg P o₁ o₂ ht hb.1 hb.2 (by omega)
      refine ⟨a, ha, fun x y => ?_⟩
      rw [(hx x y).2.1 h9', blockCount_pos_iff (by omega), he]
    · have he : e = 1 := by simp only [e]; unfold effBlock; omega
      have hcond : b ≤ 1 ∨ g.vertexCount ≤ 1 := by omega
      refine ⟨g, by unfold Graph.approximate; rw [if_pos hcond], fun x y => ?_⟩
      rw [he]
      simp only [Nat.div_one]
      exact ⟨fun h => ⟨x, y, h, rfl, rfl⟩, by rintro ⟨_, _, h, rfl, rfl⟩; exact h⟩
  obtain ⟨a, ha, hx⟩ := hex
  have hm : ∀ u v, g.doesEdgeExist u v = true → a.doesEdgeExist (u / e) (v / e) = true :=
    fun u v h => (hx _ _).2 ⟨u, v, h, rfl, rfl⟩
  exact ⟨a, ha, hx, fun k u v => Walk.map (· / e) hm, fun u v i h => exists_dist (Walk.map (· / e) hm h.1),
    fun V E φ h x y hxy => hm _ _ (h x y hxy)⟩

/-- **C131.** At any threshold an edge of an approximation stands for an edge of the graph. -/
theorem C131_any_threshold {g : Graph} (hg : GReach g) (P : Platform) (o₁ o₂ : HashOrder) {b : Nat} (t : F64)
    (h32 : effBlock g.vertexCount b < 2 ^ 32) :
    let e := effBlock g.vertexCount b
    ∃ a, g.approximate P o₁ o₂ b t = .ok a ∧
      ∀ x y, a.doesEdgeExist x y = true → ∃ u v, g.doesEdgeExist u v = true ∧ u / e = x ∧ v / e = y := by
  intro e
  by_cases hb : 2 ≤ b ∧ 2 ≤ g.vertexCount
  · have he : e = min b g.vertexCount := by simp only [e]; unfold effBlock; omega
    obtain ⟨a, ha, hx⟩ := approx_edges hg P o₁ o₂ t hb.1 hb.2 (by rw [← he]; exact h32)
    refine ⟨a, ha, fun x y h => ?_⟩
    rw [he]
    exact (blockCount_pos_iff (by omega) x y).1 ((hx x y).1 h).1
  · have he : e = 1 := by simp only [e]; unfold effBlock; omega
    have hcond : b ≤ 1 ∨ g.vertexCount ≤ 1 := by omega
    refine ⟨g, by unfold Graph.approximate; rw [if_pos hcond], fun x y h => ?_⟩
    rw [he]
    simp only [Nat.div_one]
    exact ⟨x, y, h, rfl, rfl⟩

/-- Edges 0→2 and 3→4 of 6 vertices. -/
def exW : Graph := ((Graph.newDirected.addEdge 0 2).addEdge 3 4).addVertex 5 none
theorem exW_reach : GReach exW := .addVertex _ _ (.addEdge _ _ (.addEdge _ _ .newDirected))

theorem exW_edge (u v : Nat) : exW.doesEdgeExist u v = true ↔ (u = 0 ∧ v = 2) ∨ (u = 3 ∧ v = 4) := by
  rw [Graph.doesEdgeExist_iff]
  have : exW.pairs = {(0, 2), (3, 4)} := by decide +kernel
  rw [this]
  simp

/-- **C131.** What is not true: a walk of an approximation need not come from a walk of the graph (it may change vertices
inside a block), and above threshold zero walks can be lost. -/
theorem C131_converse_fails :
    GReach exW ∧ effBlock exW.vertexCount 2 = 2 ∧
    (okAnd (exW.approximate exP .id .id 2 (.fin 0)) fun a => a.doesEdgeExist 0 1 && a.doesEdgeExist 1 2) = true ∧
    (∀ k u v, u / 2 = 0 → v / 2 = 2 → ¬ Walk exW.doesEdgeExist k u v) ∧
    Walk exW.doesEdgeExist 1 0 2 ∧
    (okAnd (exW.approximate exP .id .id 2 (.fin (1 / 2))) fun a => a.edgeCount == 0) = true := by
  refine ⟨exW_reach, by decide +kernel, by decide +kernel, ?_, .cons (by decide +kernel) .nil, by decide +kernel⟩
  intro k u v hu hv hw
  cases hw with
  | nil => omega
  | cons he hw =>
    rw [exW_edge] at he
    rcases he with ⟨_, rfl⟩ | ⟨rfl, _⟩
    · cases hw with
      | nil => omega
      | cons he _ => rw [exW_edge] at he; omega
    · omega

/-- In `exW` vertex 4 is one edge from 3, in a block of its own at the end; the hypotheses of the theorems above hold. -/
example : GReach exW ∧ IsDist exW.doesEdgeExist 3 4 1 ∧ 3 < exW.vertexCount ∧ NonPos (.fin 0) ∧
    effBlock exW.vertexCount 2 ≤ 10 ^ 9 ∧ OccursIn (fun x y : Bool => x = false ∧ y = true) (fun x => if x then 4 else 3)
      exW.doesEdgeExist := by
  refine ⟨exW_reach, ⟨.cons (by decide +kernel) .nil, fun j hj => ?_⟩, by decide +kernel, .inr ⟨0, le_rfl, rfl⟩, by decide +kernel, ?_⟩
  · cases hj with
    | cons => omega
  · rintro x y ⟨rfl, rfl⟩
    decide +kernel

/-- In `exC` at level 2 the walk 8 → 0 stays and the walk 19 → 18 is lost. -/
example : GReach exC ∧ Walk exC.doesEdgeExist 1 8 0 ∧ Walk exC.doesEdgeExist 1 19 18 ∧
    okAnd (exC.compress exP .id .id 2) (fun c => c.doesEdgeExist 8 0 && !c.doesEdgeExist 19 18) :=
  ⟨exC_reach, .cons (by decide +kernel) .nil, .cons (by decide +kernel) .nil, by decide +kernel⟩

end Verif.Props
