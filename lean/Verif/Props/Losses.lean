import Mathlib.Algebra.Group.Action.Defs
import Mathlib.Tactic.Linarith
import Verif.Props.Images
import Verif.Props.Cutoff
import Verif.Spec.Losses

/-!
# How much compressing and approximating can lose (C130)
-/

namespace Verif.Props

open Verif Spec

/-! ## Compression -/

theorem missing_eq {g : Graph} (hg : g.OK) (kept : Nat → Nat → Bool) :
    missing g.vertexCount g.doesEdgeExist kept = (g.pairs.filter fun p => kept p.1 p.2 = false).card := by
  unfold missing
  congr 1
  ext ⟨u, v⟩
  rw [Finset.mem_filter, Finset.mem_filter, Finset.mem_product, Finset.mem_range, Finset.mem_range,
    Graph.doesEdgeExist_iff]
  exact ⟨fun h => h.2, fun h => ⟨hg.wf.bound (u, v) h.1, h⟩⟩

/-- If whole blocks are dropped, what is missing is the sum of what was in them. -/
theorem missing_blocks {g : Graph} (hg : g.OK) {b : Nat} (hb : 0 < b) {kept : Nat → Nat → Bool}
    {drop : Nat → Nat → Prop} [∀ x y, Decidable (drop x y)]
    (hk : ∀ u v, g.doesEdgeExist u v = true → (kept u v = false ↔ drop (u / b) (v / b))) :
    missing g.vertexCount g.doesEdgeExist kept =
      ∑ p ∈ blocks g.vertexCount b, if drop p.1 p.2 then blockCount g.doesEdgeExist b p.1 p.2 else 0 := by
  rw [missing_eq hg, Finset.card_eq_sum_card_fiberwise (f := fun p : Nat × Nat => (p.1 / b, p.2 / b))
    (t := blocks g.vertexCount b)]
  · apply Finset.sum_congr rfl
    rintro ⟨c, r⟩ _
    simp only
    split
    · rename_i hd
      rw [blockCount_fiber hg hb, Finset.filter_filter]
      congr 1
      apply Finset.filter_congr
      rintro ⟨u, v⟩ hp
      refine ⟨fun h => h.2, fun h => ⟨?_, h⟩⟩
      rw [hk u v (Graph.doesEdgeExist_iff.2 hp)]
      cases h
      exact hd
    · rename_i hd
      rw [Finset.card_eq_zero, Finset.filter_filter, Finset.filter_eq_empty_iff]
      rintro ⟨u, v⟩ hp ⟨h1, h2⟩
      rw [hk u v (Graph.doesEdgeExist_iff.2 hp)] at h1
      cases h2
      exact hd h1
  · intro p hp
    have := hg.wf.bound p (Finset.mem_filter.1 (Finset.mem_coe.1 hp)).1
    rw [Finset.mem_coe, blocks, Finset.mem_product, Finset.mem_range, Finset.mem_range]
    exact ⟨Graph.div_lt_ceilDiv hb this.1, Graph.div_lt_ceilDiv hb this.2⟩

theorem missing_add {g : Graph} (hg : GReach g) {kept : Nat → Nat → Bool}
    (h : ∀ u v, kept u v = true → g.doesEdgeExist u v = true) :
    ((Finset.range g.vertexCount ×ˢ Finset.range g.vertexCount).filter fun p => kept p.1 p.2 = true).card +
      missing g.vertexCount g.doesEdgeExist kept = g.edgeCount := by
  rw [(C02_edge_count_exact hg).1, missing,
    ← Finset.card_filter_add_card_filter_not (s := (Finset.range g.vertexCount ×ˢ Finset.range g.vertexCount).filter
      fun p => g.doesEdgeExist p.1 p.2 = true) (fun p => kept p.1 p.2 = true), Finset.filter_filter, Finset.filter_filter]
  congr 2
  · apply Finset.filter_congr
    rintro ⟨u, v⟩ _
    exact ⟨fun h' => ⟨h u v h', h'⟩, fun h' => h'.2⟩
  · apply Finset.filter_congr
    rintro ⟨u, v⟩ _
    simp only [Bool.not_eq_true]

theorem blocks_card (n b : Nat) : (blocks n b).card = ceilDiv n b * ceilDiv n b := by
  rw [blocks, Finset.card_product, Finset.card_range]

/-- **C130.** At least 8 vertices: the edges that compressing loses are those of the blocks with fewer edges than the
level; the count of the compressed graph is the count of the graph without them; there are at most (level - 1) for each
block that is dropped, and so at most (level - 1) times the number of blocks. -/
theorem C130_compress {g : Graph} (hg : GReach g) (hn : 8 ≤ g.vertexCount) (hE : g.edgeCount ≤ U64_MAX) (P : Platform)
    (o₁ o₂ : HashOrder) (l : Nat) : ∃ c, g.compress P o₁ o₂ l = .ok c ∧
      let L := max 1 (min l 64)
      let lost := missing g.vertexCount g.doesEdgeExist c.doesEdgeExist
      c.edgeCount + lost = g.edgeCount ∧
      lost = ∑ p ∈ blocks g.vertexCount 8,
        (if blockCount g.doesEdgeExist 8 p.1 p.2 < L then blockCount g.doesEdgeExist 8 p.1 p.2 else 0) ∧
      lost ≤ (L - 1) * ((blocks g.vertexCount 8).filter fun p =>
        0 < blockCount g.doesEdgeExist 8 p.1 p.2 ∧ blockCount g.doesEdgeExist 8 p.1 p.2 < L).card ∧
      lost ≤ (L - 1) * (ceilDiv g.vertexCount 8 * ceilDiv g.vertexCount 8) := by
  obtain ⟨c, hc, _⟩ := Graph.compress_spec hg.ok P o₁ o₂ l
  have hed := compress_edges hg.ok P o₁ o₂ l hc
  rw [min_eq_left hn] at hed
  refine ⟨c, hc, ?_⟩
  intro L lost
  have hv : c.vertexCount = g.vertexCount := by
    obtain ⟨c', hc', _, _, hv, _⟩ := Graph.compress_spec hg.ok P o₁ o₂ l
    rw [hc] at hc'; cases hc'; exact hv
  have hsum : lost = ∑ p ∈ blocks g.vertexCount 8,
      (if blockCount g.doesEdgeExist 8 p.1 p.2 < L then blockCount g.doesEdgeExist 8 p.1 p.2 else 0) := by
    refine missing_blocks hg.ok (b := 8) (by omega) (drop := fun x y => blockCount g.doesEdgeExist 8 x y < L)
      (fun u v h => ?_)
    rw [← Bool.not_eq_true, hed]
    constructor
    · intro h'
      by_contra hcon
      exact h' ⟨h, by simp only [L] at hcon; omega⟩
    · rintro h' ⟨_, h2⟩
      simp only [L] at h'
      omega
  have hle : lost ≤ (L - 1) * ((blocks g.vertexCount 8).filter fun p =>
        0 < blockCount g.doesEdgeExist 8 p.1 p.2 ∧ blockCount g.doesEdgeExist 8 p.1 p.2 < L).card := by
    rw [hsum, Nat.mul_comm, ← smul_eq_mul, ← Finset.sum_const, Finset.sum_filter]
    apply Finset.sum_le_sum
    intro p _
    split <;> split <;> omega
  refine ⟨?_, hsum, hle, hle.trans (Nat.mul_le_mul_left _ ?_)⟩
  · have h1 := (C25_edge_count_exact hg hE P o₁ o₂ l hc).1
    rw [hv] at h1
    rw [h1]
    exact missing_add hg fun u v h => ((hed u v).1 h).1
  · rw [← blocks_card]
    exact Finset.card_filter_le _ _

/-- Level 2: one edge of six is lost. -/
example : GReach exC ∧ 8 ≤ exC.vertexCount ∧ exC.edgeCount ≤ U64_MAX ∧ exC.edgeCount = 6 ∧
    okAnd (exC.compress exP .id .id 2) (fun c => c.edgeCount == 5 &&
      missing exC.vertexCount exC.doesEdgeExist c.doesEdgeExist == 1) :=
  ⟨exC_reach, by decide +kernel, by decide +kernel, by decide +kernel, by decide +kernel⟩

/-- **C130.** Fewer than 8 vertices: everything is kept or everything is lost. -/
theorem C130_small {g : Graph} (hg : GReach g) (hn : g.vertexCount < 8) (P : Platform) (o₁ o₂ : HashOrder) (l : Nat) :
    ∃ c, g.compress P o₁ o₂ l = .ok c ∧ c.edgeCount =
      (if max 1 (min l 64) * (g.vertexCount * g.vertexCount) ≤ 64 * g.edgeCount then g.edgeCount else 0) := by
  obtain ⟨c, hc, _, _, hv, _⟩ := Graph.compress_spec hg.ok P o₁ o₂ l
  refine ⟨c, hc, ?_⟩
  have hed := compress_edges hg.ok P o₁ o₂ l hc
  rw [min_eq_right (show g.vertexCount ≤ 8 by omega)] at hed
  have hE : g.edgeCount ≤ g.vertexCount * g.vertexCount := by
    rw [(C02_edge_count_exact hg).1]
    refine (Finset.card_filter_le _ _).trans ?_
    rw [Finset.card_product, Finset.card_range]
  have hsq : g.vertexCount * g.vertexCount ≤ 7 * 7 := Nat.mul_le_mul (by omega) (by omega)
  have h0 : g.vertexCount = 0 ∨ ceilDiv g.vertexCount 8 = 1 := by unfold ceilDiv; omega
  have hb : blockCount g.doesEdgeExist 8 0 0 = g.edgeCount := by
    rcases h0 with h0 | h0
    · rw [blockCount_zero_of_empty hg.ok h0]
      rw [h0] at hE
      omega
    · rw [← sum_blocks hg.ok (b := 8) (by omega), h0]
      simp
  have h1 := (C25_edge_count_exact hg (by unfold U64_MAX; omega) P o₁ o₂ l hc).1
  rw [hv] at h1
  rw [h1]
  have hz : ∀ u v, g.doesEdgeExist u v = true → u / 8 = 0 ∧ v / 8 = 0 := fun u v h => by
    have := (C02_edge_count_exact hg).2 u v h
    omega
  split
  · rename_i hif
    rw [(C02_edge_count_exact hg).1]
    congr 1
    apply Finset.filter_congr
    rintro ⟨u, v⟩ _
    rw [hed]
    refine ⟨fun h => h.1, fun h => ⟨h, ?_⟩⟩
    rw [(hz u v h).1, (hz u v h).2, hb]
    exact hif
  · rename_i hif
    rw [Finset.card_eq_zero, Finset.filter_eq_empty_iff]
    rintro ⟨u, v⟩ _ h
    have h' := (hed u v).1 h
    rw [(hz u v h'.1).1, (hz u v h'.1).2, hb] at h'
    exact hif h'.2

/-- Six vertices and two edges: kept at level 3, lost at level 4. -/
example : GReach exD ∧ exD.vertexCount < 8 ∧ exD.edgeCount = 2 ∧
    okAnd (exD.compress exP .id .id 3) (fun c => c.edgeCount == 2) ∧
    okAnd (exD.compress exP .id .id 4) (fun c => c.edgeCount == 0) :=
  ⟨exD_reach, by decide +kernel, by decide +kernel, by decide +kernel, by decide +kernel⟩

theorem cell_count : ∀ L ≤ 64, 1 ≤ L →
    ((Finset.range 8 ×ˢ Finset.range 8).filter fun p : Nat × Nat => p.1 * 8 + p.2 < L - 1).card = L - 1 := by
  decide +kernel

/-- **C130.** The bound cannot be improved: for every level and every number of blocks there is a graph that loses
(level - 1) edges in each of its blocks — all it has. -/
theorem C130_tight {L B : Nat} (h1 : 1 ≤ L) (hL : L ≤ 64) (hB : 1 ≤ B) (hm : 8 * B ≤ 2 ^ 64 - 1) :
    ∃ g, GReach g ∧ g.vertexCount = 8 * B ∧ g.edgeCount = (L - 1) * (B * B) ∧
      ∀ (P : Platform) (o₁ o₂ : HashOrder), ∃ c, g.compress P o₁ o₂ L = .ok c ∧ c.edgeCount = 0 ∧
        ∀ u v, c.doesEdgeExist u v = false := by
  obtain ⟨g, hg, hu, hn, he⟩ := (C126_graphs false (8 * B) ((Finset.range (8 * B) ×ˢ Finset.range (8 * B)).filter
    fun p => p.1 % 8 * 8 + p.2 % 8 < L - 1)).2 ⟨hm, fun p hp => by
      have := (Finset.mem_filter.1 hp).1
      rw [Finset.mem_product, Finset.mem_range, Finset.mem_range] at this
      exact this, by simp⟩
  have hcd : ceilDiv g.vertexCount 8 = B := by unfold ceilDiv; omega
  have hedge : ∀ u v, g.doesEdgeExist u v = true ↔ (u < 8 * B ∧ v < 8 * B) ∧ u % 8 * 8 + v % 8 < L - 1 := fun u v => by
    rw [he, Finset.mem_filter, Finset.mem_product, Finset.mem_range, Finset.mem_range]
  have hbc : ∀ x y, x < B → y < B → blockCount g.doesEdgeExist 8 x y = L - 1 := by
    intro x y hx hy
    rw [← cell_count L hL h1, blockCount]
    congr 1
    apply Finset.filter_congr
    rintro ⟨i, j⟩ hp
    rw [Finset.mem_product, Finset.mem_range, Finset.mem_range] at hp
    rw [hedge]
    simp only at hp ⊢
    rw [show (x * 8 + i) % 8 = i by omega, show (y * 8 + j) % 8 = j by omega]
    exact ⟨fun h => h.2, fun h => ⟨by omega, h⟩⟩
  refine ⟨g, hg, hn, ?_, fun P o₁ o₂ => ?_⟩
  · rw [← sum_blocks hg.ok (b := 8) (by omega), hcd, Finset.sum_congr rfl (g := fun _ => L - 1), Finset.sum_const,
      smul_eq_mul, Finset.card_product, Finset.card_range, Nat.mul_comm]
    intro p hp
    rw [Finset.mem_product, Finset.mem_range, Finset.mem_range] at hp
    exact hbc _ _ hp.1 hp.2
  · obtain ⟨c, hc, _, _, hv, _, _, hec⟩ := Graph.compress_spec hg.ok P o₁ o₂ L
    have hnone : ∀ u v, c.doesEdgeExist u v = false := by
      intro u v
      rw [← Bool.not_eq_true, compress_edges hg.ok P o₁ o₂ L hc, min_eq_left (show 8 ≤ g.vertexCount by omega)]
      rintro ⟨h, h2⟩
      have := (hedge u v).1 h
      rw [hbc _ _ (by omega) (by omega)] at h2
      omega
    refine ⟨c, hc, ?_, hnone⟩
    rw [hec]
    have : c.pairs = ∅ := by
      unfold CGraph.pairs
      rw [Finset.filter_eq_empty_iff]
      intro p _
      rw [hnone]
      simp
    rw [this]
    rfl

example : (1 ≤ 64 ∧ 64 ≤ 64) ∧ 1 ≤ 1000 ∧ 8 * 1000 ≤ 2 ^ 64 - 1 ∧ (64 - 1) * (1000 * 1000) = 63000000 := by decide

/-! ## Degrees -/

/-- The neighbours of `v` that are lost, counted block by block. -/
theorem lost_degree {n L : Nat} (hL : 1 ≤ L) {e k : Nat → Bool} {bc : Nat → Nat}
    (hk : ∀ w, k w = true ↔ e w = true ∧ L ≤ bc (w / 8))
    (hbc : ∀ y, ((Finset.range 8).filter fun j => e (y * 8 + j) = true).card ≤ bc y) :
    ((Finset.range n).filter fun w => e w = true).card ≤ ((Finset.range n).filter fun w => k w = true).card +
      min 8 (L - 1) * ceilDiv n 8 := by
  rw [← Finset.card_filter_add_card_filter_not (s := (Finset.range n).filter fun w => e w = true) (fun w => k w = true)]
  refine Nat.add_le_add (Finset.card_le_card ?_) ?_
  · intro w hw
    simp only [Finset.mem_filter] at hw ⊢
    exact ⟨hw.1.1, hw.2⟩
  · rw [Finset.card_eq_sum_card_fiberwise (f := fun w : Nat => w / 8) (t := Finset.range (ceilDiv n 8))]
    · refine (Finset.sum_le_card_nsmul _ _ (min 8 (L - 1)) ?_).trans ?_
      · intro y _
        rcases Nat.lt_or_ge (bc y) L with hlt | hge
        · have hcard : (Finset.filter (fun a => a / 8 = y) (Finset.filter (fun w => ¬k w = true)
              (Finset.filter (fun w => e w = true) (Finset.range n)))).card ≤
              ((Finset.range 8).filter fun j => e (y * 8 + j) = true).card := by
            refine Finset.card_le_card_of_injOn (fun w => w % 8) ?_ ?_
            · intro w hw
              simp only [Finset.coe_filter, Finset.mem_filter, Finset.mem_range, Set.mem_ofPred_eq] at hw ⊢
              refine ⟨by omega, ?_⟩
              rw [show y * 8 + w % 8 = w by omega]
              exact hw.1.1.2
            · intro w hw w' hw' h
              simp only [Finset.coe_filter, Finset.mem_filter, Finset.mem_range, Set.mem_ofPred_eq] at hw hw' h
              omega
          have h8 : ((Finset.range 8).filter fun j => e (y * 8 + j) = true).card ≤ 8 := by
            refine (Finset.card_filter_le _ _).trans ?_
            rw [Finset.card_range]
          have := hbc y
          omega
        · rw [Finset.card_eq_zero.2]
          · omega
          · rw [Finset.filter_eq_empty_iff]
            intro w hw h
            simp only [Finset.mem_filter] at hw
            exact hw.2 ((hk w).2 ⟨hw.1.2, by rw [h]; exact hge⟩)
      · rw [Finset.card_range, smul_eq_mul, Nat.mul_comm]
    · intro w hw
      simp only [Finset.coe_filter, Finset.mem_filter, Finset.mem_range, Set.mem_ofPred_eq] at hw
      rw [Finset.mem_coe, Finset.mem_range]
      exact Graph.div_lt_ceilDiv (by omega) hw.1.1

theorem row_le_block (edge : Nat → Nat → Bool) (v y : Nat) :
    ((Finset.range 8).filter fun j => edge v (y * 8 + j) = true).card ≤ blockCount edge 8 (v / 8) y := by
  unfold blockCount
  refine Finset.card_le_card_of_injOn (fun j => (v % 8, j)) ?_ ?_
  · intro j hj
    simp only [Finset.coe_filter, Finset.mem_range, Set.mem_ofPred_eq, Finset.mem_product] at hj ⊢
    exact ⟨⟨by omega, hj.1⟩, by rw [show v / 8 * 8 + v % 8 = v by omega]; exact hj.2⟩
  · intro j _ j' _ h
    exact (Prod.mk.inj h).2

theorem col_le_block (edge : Nat → Nat → Bool) (v x : Nat) :
    ((Finset.range 8).filter fun i => edge (x * 8 + i) v = true).card ≤ blockCount edge 8 x (v / 8) := by
  unfold blockCount
  refine Finset.card_le_card_of_injOn (fun i => (i, v % 8)) ?_ ?_
  · intro j hj
    simp only [Finset.coe_filter, Finset.mem_range, Set.mem_ofPred_eq, Finset.mem_product] at hj ⊢
    exact ⟨⟨hj.1, by omega⟩, by rw [show v / 8 * 8 + v % 8 = v by omega]; exact hj.2⟩
  · intro j _ j' _ h
    exact (Prod.mk.inj h).1

theorem outDegree_card {g : Graph} (hg : GReach g) (v : Nat) :
    g.getVertexOutDegree v = ((Finset.range g.vertexCount).filter fun w => g.doesEdgeExist v w = true).card := by
  obtain ⟨h1, _, h3, _, h5, _⟩ := C10_neighbours hg .id v
  rw [h5, ← List.toFinset_card_of_nodup h3]
  congr 1
  ext w
  rw [List.mem_toFinset, h1, Finset.mem_filter, Finset.mem_range]
  exact ⟨fun h => ⟨((C02_edge_count_exact hg).2 _ _ h).2, h⟩, fun h => h.2⟩

theorem inDegree_card {g : Graph} (hg : GReach g) (v : Nat) :
    g.getVertexInDegree v = ((Finset.range g.vertexCount).filter fun u => g.doesEdgeExist u v = true).card := by
  obtain ⟨_, h1, _, h3, _, h5, _⟩ := C10_neighbours hg .id v
  rw [h5, ← List.toFinset_card_of_nodup h3]
  congr 1
  ext w
  rw [List.mem_toFinset, h1, Finset.mem_filter, Finset.mem_range]
  exact ⟨fun h => ⟨((C02_edge_count_exact hg).2 _ _ h).1, h⟩, fun h => h.2⟩

/-- **C130.** Degrees after compressing and decompressing: no vertex gains, and none loses more than 8, or one less than
the level if that is smaller, for each block across the graph. -/
theorem C130_degrees {g : Graph} (hg : GReach g) (hn : 8 ≤ g.vertexCount) (P P' : Platform) (o₁ o₂ o : HashOrder)
    (l v : Nat) : ∃ c d, g.compress P o₁ o₂ l = .ok c ∧ c.decompress P' o = .ok d ∧
      d.getVertexOutDegree v ≤ g.getVertexOutDegree v ∧ d.getVertexInDegree v ≤ g.getVertexInDegree v ∧
      g.getVertexOutDegree v ≤ d.getVertexOutDegree v + min 8 (max 1 (min l 64) - 1) * ceilDiv g.vertexCount 8 ∧
      g.getVertexInDegree v ≤ d.getVertexInDegree v + min 8 (max 1 (min l 64) - 1) * ceilDiv g.vertexCount 8 := by
  obtain ⟨c, hc, hok, _, hv, _⟩ := Graph.compress_spec hg.ok P o₁ o₂ l
  obtain ⟨d, hd, hde⟩ := C27_decompress_compressed hg P P' o₁ o₂ o l hc
  obtain ⟨d', hd', _, _, hdv, _⟩ := CGraph.decompress_spec hok P' o
  rw [hd] at hd'; cases hd'
  have hdr : GReach d := GReach.decompress P' o (.compress _ _ _ _ hg hc) hd
  have hed := compress_edges hg.ok P o₁ o₂ l hc
  rw [min_eq_left hn] at hed
  have hk : ∀ u w, d.doesEdgeExist u w = true ↔ g.doesEdgeExist u w = true ∧
      max 1 (min l 64) ≤ blockCount g.doesEdgeExist 8 (u / 8) (w / 8) := fun u w => by
    rw [hde, hed]
    exact and_congr_right fun _ => by omega
  refine ⟨c, d, hc, hd, ?_, ?_, ?_, ?_⟩
  · rw [outDegree_card hg, outDegree_card hdr, hdv, hv]
    refine Finset.card_le_card fun w hw => ?_
    rw [Finset.mem_filter] at hw ⊢
    exact ⟨hw.1, ((hk _ _).1 hw.2).1⟩
  · rw [inDegree_card hg, inDegree_card hdr, hdv, hv]
    refine Finset.card_le_card fun w hw => ?_
    rw [Finset.mem_filter] at hw ⊢
    exact ⟨hw.1, ((hk _ _).1 hw.2).1⟩
  · rw [outDegree_card hg, outDegree_card hdr, hdv, hv]
    exact lost_degree (e := fun w => g.doesEdgeExist v w) (k := fun w => d.doesEdgeExist v w)
      (bc := fun y => blockCount g.doesEdgeExist 8 (v / 8) y) (by omega) (fun w => hk v w) (fun y => row_le_block _ v y)
  · rw [inDegree_card hg, inDegree_card hdr, hdv, hv]
    exact lost_degree (e := fun w => g.doesEdgeExist w v) (k := fun w => d.doesEdgeExist w v)
      (bc := fun x => blockCount g.doesEdgeExist 8 x (v / 8)) (by omega) (fun w => hk w v) (fun x => col_le_block _ v x)

/-- In `exC` at level 2 vertex 19 loses its only edge; the bound is 1 for each of the 3 blocks. -/
example : GReach exC ∧ 8 ≤ exC.vertexCount ∧ exC.getVertexOutDegree 19 = 1 ∧
    min 8 (max 1 (min 2 64) - 1) * ceilDiv exC.vertexCount 8 = 3 ∧
    okAnd (exC.compress exP .id .id 2) (fun c => okAnd (c.decompress exP .id) fun d => d.getVertexOutDegree 19 == 0) :=
  ⟨exC_reach, by decide +kernel, by decide +kernel, by decide +kernel, by decide +kernel⟩

theorem card_mod (m B : Nat) : ((Finset.range (8 * B)).filter fun w => w % 8 < m).card = min 8 m * B := by
  rw [Finset.card_filter]
  induction B with
  | zero => simp
  | succ B ih =>
    rw [show 8 * (B + 1) = 8 * B + 1 + 1 + 1 + 1 + 1 + 1 + 1 + 1 by omega]
    simp only [Finset.sum_range_succ]
    rw [ih, Nat.mul_succ]
    have e : ∀ i < 8, (8 * B + i) % 8 = i := by omega
    simp only [Nat.add_assoc]
    rw [show 8 * B % 8 = 0 by omega, e 1 (by omega), e 2 (by omega), e 3 (by omega), e 4 (by omega), e 5 (by omega),
      e 6 (by omega), e 7 (by omega)]
    congr 1
    rcases Nat.lt_or_ge m 8 with h | h
    · interval_cases m <;> rfl
    · rw [min_eq_left h]
      repeat rw [if_pos (by omega)]

/-- **C130.** Nor can the bound for degrees: for every level and number of blocks there is a graph with a vertex that
loses as much. -/
theorem C130_degrees_tight {L B : Nat} (h1 : 1 ≤ L) (hL : L ≤ 64) (hB : 1 ≤ B) (hm : 8 * B ≤ 2 ^ 64 - 1) :
    ∃ g, GReach g ∧ g.vertexCount = 8 * B ∧ g.getVertexOutDegree 0 = min 8 (L - 1) * ceilDiv g.vertexCount 8 ∧
      ∀ (P P' : Platform) (o₁ o₂ o : HashOrder), ∃ c d, g.compress P o₁ o₂ L = .ok c ∧ c.decompress P' o = .ok d ∧
        d.getVertexOutDegree 0 = 0 := by
  obtain ⟨g, hg, hu, hn, he⟩ := (C126_graphs false (8 * B) ((Finset.range (8 * B) ×ˢ Finset.range (8 * B)).filter
    fun p => p.1 = 0 ∧ p.2 % 8 < L - 1)).2 ⟨hm, fun p hp => by
      have := (Finset.mem_filter.1 hp).1
      rw [Finset.mem_product, Finset.mem_range, Finset.mem_range] at this
      exact this, by simp⟩
  have hedge : ∀ u v, g.doesEdgeExist u v = true ↔ (u < 8 * B ∧ v < 8 * B) ∧ u = 0 ∧ v % 8 < L - 1 := fun u v => by
    rw [he, Finset.mem_filter, Finset.mem_product, Finset.mem_range, Finset.mem_range]
  refine ⟨g, hg, hn, ?_, fun P P' o₁ o₂ o => ?_⟩
  · rw [outDegree_card hg, hn, show ceilDiv (8 * B) 8 = B by unfold ceilDiv; omega, ← card_mod]
    congr 1
    apply Finset.filter_congr
    intro w hw
    rw [hedge]
    have := Finset.mem_range.1 hw
    exact ⟨fun h => h.2.2, fun h => ⟨⟨by omega, this⟩, rfl, h⟩⟩
  · obtain ⟨c, hc, _⟩ := Graph.compress_spec hg.ok P o₁ o₂ L
    obtain ⟨d, hd, hde⟩ := C27_decompress_compressed hg P P' o₁ o₂ o L hc
    have hdr : GReach d := GReach.decompress P' o (.compress _ _ _ _ hg hc) hd
    refine ⟨c, d, hc, hd, ?_⟩
    rw [outDegree_card hdr, Finset.card_eq_zero, Finset.filter_eq_empty_iff]
    intro w _
    rw [hde, compress_edges hg.ok P o₁ o₂ L hc, min_eq_left (show 8 ≤ g.vertexCount by omega)]
    rintro ⟨_, h2⟩
    have hle : blockCount g.doesEdgeExist 8 (0 / 8) (w / 8) ≤ L - 1 := by
      unfold blockCount
      refine (Finset.card_le_card_of_injOn (t := Finset.range (L - 1)) (fun p => p.2) ?_ ?_).trans
        (Finset.card_range _).le
      · rintro ⟨i, j⟩ hp
        simp only [Finset.coe_filter, Finset.mem_product, Finset.mem_range, Set.mem_ofPred_eq, hedge] at hp
        rw [Finset.mem_coe, Finset.mem_range]
        simp only
        omega
      · rintro ⟨i, j⟩ hp ⟨i', j'⟩ hp' h
        simp only [Finset.coe_filter, Finset.mem_product, Finset.mem_range, Set.mem_ofPred_eq, hedge] at hp hp' h
        rw [Prod.mk.injEq]
        omega
    omega

/-! ## Approximation -/

theorem approx_count {g a : Graph} (ha : GReach a) {b' : Nat} (hv : a.vertexCount = ceilDiv g.vertexCount b')
    {keep : Nat → Nat → Prop} [∀ x y, Decidable (keep x y)] (he : ∀ c r, a.doesEdgeExist c r = true ↔ keep c r) :
    a.edgeCount = ((blocks g.vertexCount b').filter fun p => keep p.1 p.2).card := by
  rw [(C02_edge_count_exact ha).1, hv, blocks]
  congr 1
  apply Finset.filter_congr
  rintro ⟨u, v⟩ _
  exact he u v

theorem approx_vertexCount {g a : Graph} (hg : GReach g) {P : Platform} {o₁ o₂ : HashOrder} {b : Nat} {t : F64}
    (hb : 2 ≤ b) (hn : 2 ≤ g.vertexCount) (h32 : min b g.vertexCount < 2 ^ 32) (ha : g.approximate P o₁ o₂ b t = .ok a) :
    a.vertexCount = ceilDiv g.vertexCount (min b g.vertexCount) := by
  have hcl : Graph.clampBlockDimension g.vertexCount b = min b g.vertexCount := Graph.clamp_min (by omega)
  obtain ⟨m, hm, _⟩ := Graph.pool_ok hg.ok P o₁ b (by omega) (by rw [hcl]; exact h32)
  obtain ⟨a', ha', _, hv, _⟩ := C40_approximate_keeps hg P o₁ o₂ t hb hn hm
  rw [ha] at ha'; cases ha'
  exact hv

/-- Bounds for a sum over blocks from bounds for the blocks in a set and for the others. -/
theorem sum_bounds {s : Finset (Nat × Nat)} {f : Nat × Nat → Nat} {keep : Nat × Nat → Prop} [DecidablePred keep]
    {lo hi rest : ℚ} (h1 : ∀ p ∈ s, keep p → lo ≤ f p ∧ f p ≤ hi) (h2 : ∀ p ∈ s, ¬ keep p → (f p : ℚ) ≤ rest) :
    lo * (s.filter keep).card ≤ ((∑ p ∈ s, f p : Nat) : ℚ) ∧
    ((∑ p ∈ s, f p : Nat) : ℚ) ≤ hi * (s.filter keep).card + rest * (s.card - (s.filter keep).card) := by
  induction s using Finset.induction_on with
  | empty => simp
  | insert a s ha ih =>
    obtain ⟨i1, i2⟩ := ih (fun p hp => h1 p (Finset.mem_insert_of_mem hp)) (fun p hp => h2 p (Finset.mem_insert_of_mem hp))
    rw [Finset.sum_insert ha, Finset.filter_insert, Finset.card_insert_of_notMem ha, Nat.cast_add]
    by_cases hk : keep a
    · rw [if_pos hk, Finset.card_insert_of_notMem (fun h => ha (Finset.mem_filter.1 h).1)]
      have := h1 a (Finset.mem_insert_self ..) hk
      push_cast at i1 i2 ⊢
      constructor <;> linarith
    · rw [if_neg hk]
      have := h2 a (Finset.mem_insert_self ..) hk
      push_cast at i1 i2 ⊢
      have h0 : (0 : ℚ) ≤ f a := Nat.cast_nonneg _
      constructor <;> linarith

/-- **C130.** A block dimension and a threshold stand for a number of edges `K` (or no number reaches the threshold): the
count of an approximation is the number of blocks with at least `K` edges, and the count of the graph lies between `K`
for each edge of the approximation and that many full blocks together with `K - 1` edges in each other block. -/
theorem C130_approximate (b' : Nat) (h32 : b' < 2 ^ 32) (t : F64) :
    ∃ K : Option Nat, (∀ k, K = some k → 1 ≤ k) ∧
      ∀ g : Graph, GReach g → ∀ (P : Platform) (o₁ o₂ : HashOrder) (b : Nat), 2 ≤ b → 2 ≤ g.vertexCount →
        min b g.vertexCount = b' → ∃ a, g.approximate P o₁ o₂ b t = .ok a ∧
          (K = none → a.edgeCount = 0) ∧ ∀ k, K = some k →
            a.edgeCount = ((blocks g.vertexCount b').filter fun p => k ≤ blockCount g.doesEdgeExist b' p.1 p.2).card ∧
            k * a.edgeCount ≤ g.edgeCount ∧
            g.edgeCount ≤ b' * b' * a.edgeCount +
              (k - 1) * (ceilDiv g.vertexCount b' * ceilDiv g.vertexCount b' - a.edgeCount) := by
  obtain ⟨K, hK, h⟩ := C105_cutoff b' h32 t
  refine ⟨K, hK, fun g hg P o₁ o₂ b hb hn hb' => ?_⟩
  obtain ⟨a, ha, he⟩ := h g hg P o₁ o₂ b hb hn hb'
  have har : GReach a := .approximate P o₁ o₂ b t hg ha
  have hv : a.vertexCount = ceilDiv g.vertexCount b' := by
    have := approx_vertexCount hg hb hn (by rw [hb']; exact h32) ha
    rwa [hb'] at this
  refine ⟨a, ha, ?_, ?_⟩
  · rintro rfl
    rw [approx_count har hv (keep := fun _ _ => False) fun c r => by rw [he]; simp]
    simp
  · rintro k rfl
    have hcount : a.edgeCount =
        ((blocks g.vertexCount b').filter fun p => k ≤ blockCount g.doesEdgeExist b' p.1 p.2).card :=
      approx_count har hv (keep := fun c r => k ≤ blockCount g.doesEdgeExist b' c r) fun c r => by rw [he]; simp
    have hk := hK k rfl
    have hs := sum_bounds (s := blocks g.vertexCount b') (f := fun p => blockCount g.doesEdgeExist b' p.1 p.2)
      (keep := fun p => k ≤ blockCount g.doesEdgeExist b' p.1 p.2) (lo := k) (hi := (b' * b' : Nat))
      (rest := (k - 1 : Nat))
      (fun p _ hp => ⟨by exact_mod_cast hp, by exact_mod_cast Graph.blockCount_le ..⟩)
      (fun p _ hp => by
        have : blockCount g.doesEdgeExist b' p.1 p.2 ≤ k - 1 := by omega
        exact_mod_cast this)
    rw [← hcount, blocks_card, blocks, sum_blocks hg.ok (by omega)] at hs
    have hle : a.edgeCount ≤ ceilDiv g.vertexCount b' * ceilDiv g.vertexCount b' := by
      rw [hcount, ← blocks_card]; exact Finset.card_filter_le _ _
    refine ⟨hcount, by exact_mod_cast hs.1, ?_⟩
    have := hs.2
    rw [← Nat.cast_sub hle] at this
    exact_mod_cast this

/-- The complete graph on 7 vertices in blocks of 3 at threshold 1/4, which stands for 3 edges: 8 blocks of 9. -/
example : GReach k7 ∧ min 3 k7.vertexCount = 3 ∧ k7.edgeCount = 49 ∧
    okAnd (k7.approximate exP .id .id 3 (.fin (1 / 4))) (fun a => a.edgeCount == 8 && 3 * a.edgeCount ≤ 49 &&
      49 ≤ 3 * 3 * a.edgeCount + 2 * (9 - a.edgeCount)) :=
  ⟨k7_reach, by decide +kernel, by decide +kernel, by decide +kernel⟩

/-- **C130.** The same bounds from the threshold itself, up to half an edge for each block. -/
theorem C130_threshold {g : Graph} (hg : GReach g) (P : Platform) (o₁ o₂ : HashOrder) {b : Nat} {q : ℚ}
    (hb : 2 ≤ b) (hn : 2 ≤ g.vertexCount) (h25 : min b g.vertexCount ≤ 2 ^ 25) (hq0 : 0 < q) (hq1 : q ≤ 1) :
    ∃ a, g.approximate P o₁ o₂ b (.fin q) = .ok a ∧
      let s : ℚ := (min b g.vertexCount : Nat) * (min b g.vertexCount : Nat)
      let B := ceilDiv g.vertexCount (min b g.vertexCount)
      (q * s - 1 / 2) * a.edgeCount ≤ g.edgeCount ∧
      (g.edgeCount : ℚ) ≤ s * a.edgeCount + (q * s + 1 / 2) * (B * B - a.edgeCount) := by
  obtain ⟨a, ha, he⟩ := C105_nearest hg P o₁ o₂ hb hn h25 hq0 hq1
  refine ⟨a, ha, ?_⟩
  intro s B
  have har : GReach a := .approximate P o₁ o₂ b _ hg ha
  have hv := approx_vertexCount hg hb hn (by omega) ha
  have hcount := approx_count (g := g) har hv (keep := fun c r => a.doesEdgeExist c r = true) fun c r => Iff.rfl
  have hs := sum_bounds (s := blocks g.vertexCount (min b g.vertexCount))
    (f := fun p => blockCount g.doesEdgeExist (min b g.vertexCount) p.1 p.2)
    (keep := fun p => a.doesEdgeExist p.1 p.2 = true) (lo := q * s - 1 / 2) (hi := s) (rest := q * s + 1 / 2)
    (fun p _ hp => ⟨by
      by_contra hcon
      have h2 : (blockCount g.doesEdgeExist (min b g.vertexCount) p.1 p.2 : ℚ) < q * s - 1 / 2 := not_le.1 hcon
      have h3 := (he p.1 p.2 (by rw [abs_of_neg (by linarith)]; linarith)).1 hp
      linarith, by
      have := Graph.blockCount_le g.doesEdgeExist (min b g.vertexCount) p.1 p.2
      simp only [s]
      exact_mod_cast this⟩)
    (fun p _ hp => by
      by_contra hcon
      have h2 : q * s + 1 / 2 < (blockCount g.doesEdgeExist (min b g.vertexCount) p.1 p.2 : ℚ) := not_le.1 hcon
      exact hp ((he p.1 p.2 (by rw [abs_of_pos (by linarith)]; linarith)).2 (by linarith)))
  rw [← hcount, blocks_card, blocks, sum_blocks hg.ok (by omega)] at hs
  push_cast at hs
  exact hs

example : GReach k7 ∧ 2 ≤ k7.vertexCount ∧ min 3 k7.vertexCount ≤ 2 ^ 25 ∧ (0 : ℚ) < 1 / 4 ∧ (1 / 4 : ℚ) ≤ 1 :=
  ⟨k7_reach, by decide +kernel, by decide +kernel, by decide +kernel, by decide +kernel⟩

end Verif.Props
