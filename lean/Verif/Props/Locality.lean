import Mathlib.Logic.Equiv.Basic
import Verif.Props.Blocks
import Verif.Props.Cutoff

/-!
# C111: a block of the result depends only on that block of the graph; C112: renamed vertices
-/

namespace Verif.Props
open Verif Spec

/-! ## C111 -/

theorem blockCount_congr {e e' : Nat → Nat → Bool} {b c r : Nat}
    (h : ∀ i < b, ∀ j < b, e' (c * b + i) (r * b + j) = e (c * b + i) (r * b + j)) :
    blockCount e' b c r = blockCount e b c r := by
  unfold blockCount
  congr 1
  refine Finset.filter_congr fun p hp => ?_
  rw [Finset.mem_product, Finset.mem_range, Finset.mem_range] at hp
  rw [h _ hp.1 _ hp.2]

/-- A pooled entry is one function of the number of edges of its block. -/
theorem pool_entry {g : Graph} (hg : GReach g) (P : Platform) (o : HashOrder) (b : Nat)
    (h32 : effBlock g.vertexCount b < 2 ^ 32) :
    ∃ m, g.findAvgPoolMatrix P o b = .ok m ∧ ∀ c r, m.getEntry f64Numeric c r =
      .fin (F64.poolQ (effBlock g.vertexCount b * effBlock g.vertexCount b)
        (blockCount g.doesEdgeExist (effBlock g.vertexCount b) c r)) := by
  have hz : ∀ s, F64.poolQ s 0 = 0 := by
    intro s; unfold F64.poolQ; simp [F64.rndQ_zero]
  by_cases hn : g.vertexCount = 0
  · refine ⟨SqMatrix.new, by unfold Graph.findAvgPoolMatrix; rw [if_pos hn], fun c r => ?_⟩
    rw [blockCount_zero_of_empty hg.ok hn, hz, SqMatrix.getEntry_eq, SqMatrix.new_at]
    exact F64.lit_zero
  · rw [← clamp_eff hn] at h32 ⊢
    obtain ⟨m, hm, _, _, hat⟩ := Graph.pool_ok hg.ok P o b hn h32
    refine ⟨m, hm, fun c r => ?_⟩
    rw [SqMatrix.getEntry_eq, hat]
    split
    · next h => rw [h, hz]; exact F64.lit_zero
    · rfl

/-- An edge of the approximation is one function of the number of edges of its block. -/
theorem approx_entry {g g' : Graph} (hg : GReach g) (hg' : GReach g') {b : Nat}
    (he : effBlock g'.vertexCount b = effBlock g.vertexCount b) (h32 : effBlock g.vertexCount b < 2 ^ 32)
    (P P' : Platform) (o₁ o₂ o₁' o₂' : HashOrder) (t : F64) :
    ∃ a a', g.approximate P o₁ o₂ b t = .ok a ∧ g'.approximate P' o₁' o₂' b t = .ok a' ∧
      a.isUndirected = g.isUndirected ∧ a'.isUndirected = g'.isUndirected ∧
      ∀ c r c' r', blockCount g'.doesEdgeExist (effBlock g.vertexCount b) c' r' =
          blockCount g.doesEdgeExist (effBlock g.vertexCount b) c r →
        a'.doesEdgeExist c' r' = a.doesEdgeExist c r := by
  by_cases h1 : effBlock g.vertexCount b = 1
  · have hc : b ≤ 1 ∨ g.vertexCount ≤ 1 := by unfold effBlock at h1; omega
    have hc' : b ≤ 1 ∨ g'.vertexCount ≤ 1 := by rw [h1] at he; unfold effBlock at he; omega
    refine ⟨g, g', C43_copy g P o₁ o₂ b t hc, C43_copy g' P' o₁' o₂' b t hc', rfl, rfl, fun c r c' r' h => ?_⟩
    rw [h1] at h
    have one : ∀ (e : Nat → Nat → Bool) c r, blockCount e 1 c r = if e c r = true then 1 else 0 := by
      intro e c r
      unfold blockCount
      rw [Finset.range_one, Finset.singleton_product_singleton, Finset.filter_singleton]
      simp only [Nat.mul_one, Nat.add_zero]
      split <;> rfl
    rw [one, one] at h
    rw [Bool.eq_iff_iff]
    constructor
    · intro hx; by_contra hy; rw [if_pos hx, if_neg hy] at h; omega
    · intro hx; by_contra hy; rw [if_neg hy, if_pos hx] at h; omega
  · have hb : 2 ≤ b ∧ 2 ≤ g.vertexCount := by unfold effBlock at h1; omega
    have hb' : 2 ≤ g'.vertexCount := by rw [he.symm] at h1; unfold effBlock at h1; omega
    have hm : min b g.vertexCount = effBlock g.vertexCount b := by unfold effBlock; omega
    have hm' : min b g'.vertexCount = effBlock g.vertexCount b := by rw [← he]; unfold effBlock; omega
    obtain ⟨K, _, hK⟩ := C105_cutoff _ h32 t
    obtain ⟨a, ha, hae⟩ := hK g hg P o₁ o₂ b hb.1 hb.2 hm
    obtain ⟨a', ha', hae'⟩ := hK g' hg' P' o₁' o₂' b hb.1 hb' hm'
    obtain ⟨m, hmm, _⟩ := pool_entry hg P o₁ b h32
    obtain ⟨m', hmm', _⟩ := pool_entry hg' P' o₁' b (he ▸ h32)
    obtain ⟨x, hx, hxu, _⟩ := C40_approximate_keeps hg P o₁ o₂ t hb.1 hb.2 hmm
    obtain ⟨x', hx', hxu', _⟩ := C40_approximate_keeps hg' P' o₁' o₂' t hb.1 hb' hmm'
    rw [ha] at hx; cases hx
    rw [ha'] at hx'; cases hx'
    refine ⟨a, a', ha, ha', hxu, hxu', fun c r c' r' h => ?_⟩
    rw [Bool.eq_iff_iff, hae, hae', h]

/-- **C111.** Two graphs with the same effective block dimension that have the same edges inside one block have the same
pooled entry, the same edge of the approximation and (blocks of 8) the same word of the compressed graph at that place,
whatever the rest of the two graphs looks like. -/
theorem C111_locality {g g' : Graph} (hg : GReach g) (hg' : GReach g') :
    (∀ b e c r, effBlock g.vertexCount b = e → effBlock g'.vertexCount b = e → e < 2 ^ 32 →
      (∀ i < e, ∀ j < e, g'.doesEdgeExist (c * e + i) (r * e + j) = g.doesEdgeExist (c * e + i) (r * e + j)) →
      (∀ P P' o o', ∃ m m', g.findAvgPoolMatrix P o b = .ok m ∧ g'.findAvgPoolMatrix P' o' b = .ok m' ∧
        m'.getEntry f64Numeric c r = m.getEntry f64Numeric c r) ∧
      (∀ P P' o₁ o₂ o₁' o₂' t, ∃ a a', g.approximate P o₁ o₂ b t = .ok a ∧ g'.approximate P' o₁' o₂' b t = .ok a' ∧
        a'.doesEdgeExist c r = a.doesEdgeExist c r)) ∧
    (∀ x y l, min 8 g'.vertexCount = min 8 g.vertexCount →
      (∀ i < 8, ∀ j < 8, g'.doesEdgeExist (x * 8 + i) (y * 8 + j) = g.doesEdgeExist (x * 8 + i) (y * 8 + j)) →
      ∀ P P' o₁ o₂ o₁' o₂', ∃ c c', g.compress P o₁ o₂ l = .ok c ∧ g'.compress P' o₁' o₂' l = .ok c' ∧
        c'.getCompressedMatrixEntry x y = c.getCompressedMatrixEntry x y ∧
        ∀ i < 8, ∀ j < 8, c'.doesEdgeExist (x * 8 + i) (y * 8 + j) = c.doesEdgeExist (x * 8 + i) (y * 8 + j)) := by
  refine ⟨?_, ?_⟩
  · rintro b e c r rfl he h32 h
    have hcnt := blockCount_congr h
    refine ⟨fun P P' o o' => ?_, fun P P' o₁ o₂ o₁' o₂' t => ?_⟩
    · obtain ⟨m, hm, hv⟩ := pool_entry hg P o b h32
      obtain ⟨m', hm', hv'⟩ := pool_entry hg' P' o' b (he ▸ h32)
      exact ⟨m, m', hm, hm', by rw [hv, hv', he, hcnt]⟩
    · obtain ⟨a, a', ha, ha', _, _, hx⟩ := approx_entry hg hg' he h32 P P' o₁ o₂ o₁' o₂' t
      exact ⟨a, a', ha, ha', hx _ _ _ _ hcnt⟩
  · intro x y l hmin h P P' o₁ o₂ o₁' o₂'
    obtain ⟨c, hc, _⟩ := Graph.compress_spec hg.ok P o₁ o₂ l
    obtain ⟨c', hc', _⟩ := Graph.compress_spec hg'.ok P' o₁' o₂' l
    have hcr : CReach c := .compress _ _ _ _ hg hc
    have hcr' : CReach c' := .compress _ _ _ _ hg' hc'
    have hcnt := blockCount_congr h
    have hedge : ∀ i < 8, ∀ j < 8,
        c'.doesEdgeExist (x * 8 + i) (y * 8 + j) = c.doesEdgeExist (x * 8 + i) (y * 8 + j) := by
      intro i hi j hj
      rw [Bool.eq_iff_iff, compress_edges hg.ok P o₁ o₂ l hc, compress_edges hg'.ok P' o₁' o₂' l hc', hmin,
        show (x * 8 + i) / 8 = x by omega, show (y * 8 + j) / 8 = y by omega, hcnt, h i hi j hj]
    refine ⟨c, c', hc, hc', Nat.eq_of_testBit_eq fun i => ?_, hedge⟩
    by_cases hi : i < 64
    · have := hedge (i % 8) (by omega) (i / 8) (by omega)
      rw [CGraph.doesEdgeExist_eq, CGraph.doesEdgeExist_eq, show (x * 8 + i % 8) / 8 = x by omega,
        show (y * 8 + i / 8) / 8 = y by omega,
        show 8 * ((y * 8 + i / 8) % 8) + (x * 8 + i % 8) % 8 = i by omega] at this
      exact this
    · have hw : 2 ^ 64 ≤ 2 ^ i := Nat.pow_le_pow_right (by omega) (by omega)
      rw [Nat.testBit_lt_two_pow (((C24_bit_layout hcr').2 _ _).trans_le hw),
        Nat.testBit_lt_two_pow (((C24_bit_layout hcr).2 _ _).trans_le hw)]

/-- **C111**, one edit: adding or deleting an edge between existing vertices changes no pooled entry, no edge of the
approximation and no compressed word outside the block of the edge (and its mirror image in an undirected graph). -/
theorem C111_one_edit {g : Graph} (hg : GReach g) {u v : Nat} (hu : u < g.vertexCount) (hv : v < g.vertexCount) (del : Bool) :
    let g' := if del = true then g.deleteEdge u v else g.addEdge u v
    (∀ b e c r, effBlock g.vertexCount b = e → e < 2 ^ 32 →
      (c, r) ≠ (u / e, v / e) → (g.isUndirected = true → (c, r) ≠ (v / e, u / e)) →
      (∀ P P' o o', ∃ m m', g.findAvgPoolMatrix P o b = .ok m ∧ g'.findAvgPoolMatrix P' o' b = .ok m' ∧
        m'.getEntry f64Numeric c r = m.getEntry f64Numeric c r) ∧
      (∀ P P' o₁ o₂ o₁' o₂' t, ∃ a a', g.approximate P o₁ o₂ b t = .ok a ∧ g'.approximate P' o₁' o₂' b t = .ok a' ∧
        a'.doesEdgeExist c r = a.doesEdgeExist c r)) ∧
    (∀ x y l, (x, y) ≠ (u / 8, v / 8) → (g.isUndirected = true → (x, y) ≠ (v / 8, u / 8)) →
      ∀ P P' o₁ o₂ o₁' o₂', ∃ c c', g.compress P o₁ o₂ l = .ok c ∧ g'.compress P' o₁' o₂' l = .ok c' ∧
        c'.getCompressedMatrixEntry x y = c.getCompressedMatrixEntry x y) := by
  intro g'
  have hdim : g.vertexCount ≤ U64_MAX := hg.ok.wf.dim
  have hg' : GReach g' := by
    unfold g'; split
    · exact .deleteEdge _ _ hg
    · exact .addEdge _ _ hg
  have hn : g'.vertexCount = g.vertexCount := by
    unfold g'; split
    · exact (C06_delete_edge_exact hg u v).2.1
    · rw [Graph.addEdge_vertexCount (by omega) (by omega)]; omega
  have hedge : ∀ a b, ¬ (a = u ∧ b = v) → (g.isUndirected = true → ¬ (a = v ∧ b = u)) →
      g'.doesEdgeExist a b = g.doesEdgeExist a b := by
    intro a b h1 h2
    unfold g'; split
    · rw [Bool.eq_iff_iff, (C06_delete_edge_exact hg u v).2.2.1]
      exact ⟨fun h => h.1, fun h => ⟨h, by tauto, by tauto⟩⟩
    · rw [Bool.eq_iff_iff, (C05_add_edge_exact hg (by omega : u < U64_MAX) (by omega)).2.1]
      constructor
      · rintro (⟨rfl, rfl⟩ | ⟨hd, rfl, rfl⟩ | h)
        · exact absurd ⟨rfl, rfl⟩ h1
        · exact absurd ⟨rfl, rfl⟩ (h2 hd)
        · exact h
      · exact fun h => .inr (.inr h)
  have hdiv : ∀ {e c i : Nat}, i < e → (c * e + i) / e = c := by
    intro e c i hi
    rw [Nat.mul_comm, Nat.mul_add_div (by omega), Nat.div_eq_of_lt hi, Nat.add_zero]
  have hblock : ∀ e c r, (c, r) ≠ (u / e, v / e) → (g.isUndirected = true → (c, r) ≠ (v / e, u / e)) →
      ∀ i < e, ∀ j < e, g'.doesEdgeExist (c * e + i) (r * e + j) = g.doesEdgeExist (c * e + i) (r * e + j) := by
    intro e c r h1 h2 i hi j hj
    refine hedge _ _ ?_ ?_
    · rintro ⟨rfl, rfl⟩
      rw [hdiv hi, hdiv hj] at h1
      exact h1 rfl
    · rintro hd ⟨rfl, rfl⟩
      have := h2 hd
      rw [hdiv hi, hdiv hj] at this
      exact this rfl
  obtain ⟨h1, h2⟩ := C111_locality hg hg'
  refine ⟨fun b e c r he h32 n1 n2 => h1 b e c r he (hn ▸ he) h32 (hblock e c r n1 n2), fun x y l n1 n2 P P' o₁ o₂ o₁' o₂' => ?_⟩
  obtain ⟨c, c', hc, hc', hw, _⟩ := h2 x y l (by rw [hn]) (hblock 8 x y n1 n2) P P' o₁ o₂ o₁' o₂'
  exact ⟨c, c', hc, hc', hw⟩

/-- Two graphs that agree on block (0, 1) of dimension 8 and differ elsewhere (and in the number of vertices). -/
def exLoc : Graph := runCode false [.addEdge 0 9, .addEdge 3 9, .addEdge 5 2]
def exLoc' : Graph := runCode false [.addEdge 0 9, .addEdge 3 9, .addEdge 20 20, .addEdge 17 3]

example : GReach exLoc ∧ GReach exLoc' ∧ effBlock exLoc.vertexCount 8 = 8 ∧ effBlock exLoc'.vertexCount 8 = 8 ∧
    (∀ i < 8, ∀ j < 8, exLoc'.doesEdgeExist (0 * 8 + i) (1 * 8 + j) = exLoc.doesEdgeExist (0 * 8 + i) (1 * 8 + j)) ∧
    exLoc.doesEdgeExist 5 2 ≠ exLoc'.doesEdgeExist 5 2 ∧
    okAnd (exLoc.compress exP .id .id 2) (fun c => c.getCompressedMatrixEntry 0 1 == 2 ^ 8 + 2 ^ 11) ∧
    okAnd (exLoc'.compress exP .id .id 2) (fun c => c.getCompressedMatrixEntry 0 1 == 2 ^ 8 + 2 ^ 11) :=
  ⟨reach_runCode _ _, reach_runCode _ _, by decide +kernel, by decide +kernel, by decide +kernel, by decide +kernel,
    by decide +kernel, by decide +kernel⟩

example : 5 < exLoc.vertexCount ∧ 2 < exLoc.vertexCount ∧ (0, 1) ≠ (5 / 8, 2 / 8) ∧
    okAnd ((exLoc.deleteEdge 5 2).compress exP .id .id 2) (fun c => c.getCompressedMatrixEntry 0 1 == 2 ^ 8 + 2 ^ 11) :=
  ⟨by decide +kernel, by decide +kernel, by decide, by decide +kernel⟩

/-! ## C112 -/

/-- `g'` is `g` with every vertex `u` renamed to `f u`. -/
structure Renamed (f : ℕ ≃ ℕ) (g g' : Graph) : Prop where
  direction : g'.isUndirected = g.isUndirected
  edge : ∀ u v, g'.doesEdgeExist (f u) (f v) = g.doesEdgeExist u v

/-- The same edit with every vertex renamed. -/
def renameEdit (f : Nat → Nat) : Edit → Edit
  | .addVertex v ts => .addVertex (f v) (ts.map fun l => l.map f)
  | .addEdge u v => .addEdge (f u) (f v)
  | .deleteEdge u v => .deleteEdge (f u) (f v)

theorem Renamed.pairs {f : ℕ ≃ ℕ} {g g' : Graph} (hr : Renamed f g g') (u v : Nat) :
    (u, v) ∈ g'.pairs ↔ ∃ u' v', (u', v') ∈ g.pairs ∧ u = f u' ∧ v = f v' := by
  constructor
  · intro h
    refine ⟨f.symm u, f.symm v, ?_, (f.apply_symm_apply u).symm, (f.apply_symm_apply v).symm⟩
    rw [← Graph.doesEdgeExist_iff, ← hr.edge, f.apply_symm_apply, f.apply_symm_apply]
    exact Graph.doesEdgeExist_iff.2 h
  · rintro ⟨u', v', h, rfl, rfl⟩
    rw [← Graph.doesEdgeExist_iff, hr.edge]
    exact Graph.doesEdgeExist_iff.2 h

/-- **C112**, queries: renaming the vertices renames the neighbour lists and changes no count. -/
theorem C112_rename_queries {f : ℕ ≃ ℕ} {g g' : Graph} (hg : GReach g) (hg' : GReach g') (hr : Renamed f g g') :
    g'.edgeCount = g.edgeCount ∧
    (∀ o o' v, (g'.getVertexOutEdges o (f v)).Perm ((g.getVertexOutEdges o' v).map f)) ∧
    (∀ o o' v, (g'.getVertexInEdges o (f v)).Perm ((g.getVertexInEdges o' v).map f)) ∧
    (∀ o o', (g'.items o).Perm ((g.items o').map fun p => (f p.1, f p.2))) ∧
    ∀ v, g'.getVertexOutDegree (f v) = g.getVertexOutDegree v ∧ g'.getVertexInDegree (f v) = g.getVertexInDegree v := by
  have hp := hr.pairs
  have hout : ∀ o o' v, (g'.getVertexOutEdges o (f v)).Perm ((g.getVertexOutEdges o' v).map f) := by
    intro o o' v
    rw [List.perm_ext_iff_of_nodup (Graph.out_nodup _ _ _) ((Graph.out_nodup _ _ _).map f.injective)]
    intro w
    rw [Graph.mem_out, hp, List.mem_map]
    constructor
    · rintro ⟨u', v', h, hu, rfl⟩
      obtain rfl := f.injective hu
      exact ⟨v', (Graph.mem_out ..).2 h, rfl⟩
    · rintro ⟨w', h, rfl⟩
      exact ⟨v, w', (Graph.mem_out ..).1 h, rfl, rfl⟩
  have hin : ∀ o o' v, (g'.getVertexInEdges o (f v)).Perm ((g.getVertexInEdges o' v).map f) := by
    intro o o' v
    rw [List.perm_ext_iff_of_nodup (Graph.in_nodup _ _ _) ((Graph.in_nodup _ _ _).map f.injective)]
    intro w
    rw [Graph.mem_in hg'.ok, hp, List.mem_map]
    constructor
    · rintro ⟨u', v', h, rfl, hv⟩
      obtain rfl := f.injective hv
      exact ⟨u', (Graph.mem_in hg.ok ..).2 h, rfl⟩
    · rintro ⟨w', h, rfl⟩
      exact ⟨w', v, (Graph.mem_in hg.ok ..).1 h, rfl, rfl⟩
  have hinj : Function.Injective (fun p : Nat × Nat => (f p.1, f p.2)) := by
    rintro ⟨a, b⟩ ⟨a', b'⟩ h
    simp only [Prod.mk.injEq] at h
    rw [f.injective h.1, f.injective h.2]
  refine ⟨?_, hout, hin, fun o o' => ?_, fun v => ⟨?_, ?_⟩⟩
  · rw [Graph.edgeCount_eq hg.ok, Graph.edgeCount_eq hg'.ok]
    symm
    refine Finset.card_bij (fun p _ => (f p.1, f p.2)) ?_ (fun p _ q _ h => hinj h) ?_
    · rintro ⟨u, v⟩ h
      exact (hp _ _).2 ⟨u, v, h, rfl, rfl⟩
    · rintro ⟨u, v⟩ h
      obtain ⟨u', v', h', rfl, rfl⟩ := (hp _ _).1 h
      exact ⟨(u', v'), h', rfl⟩
  · rw [List.perm_ext_iff_of_nodup (Graph.items_nodup hg'.ok o) ((Graph.items_nodup hg.ok o').map hinj)]
    rintro ⟨u, v⟩
    rw [Graph.mem_items hg'.ok, hp, List.mem_map]
    constructor
    · rintro ⟨u', v', h, rfl, rfl⟩
      exact ⟨(u', v'), (Graph.mem_items hg.ok o').2 h, rfl⟩
    · rintro ⟨⟨u', v'⟩, h, he⟩
      cases he
      exact ⟨u', v', (Graph.mem_items hg.ok o').1 h, rfl, rfl⟩
  · rw [← Graph.outDegree_length _ .id, ← Graph.outDegree_length _ .id, (hout .id .id v).length_eq, List.length_map]
  · rw [← Graph.inDegree_length _ .id, ← Graph.inDegree_length _ .id, (hin .id .id v).length_eq, List.length_map]

theorem blockCount_rename {f σ : ℕ ≃ ℕ} {g g' : Graph} (hg : GReach g) (hg' : GReach g') (hr : Renamed f g g') {b : Nat}
    (hb : 0 < b) (hσ : ∀ x, f x / b = σ (x / b)) (c r : Nat) :
    blockCount g'.doesEdgeExist b (σ c) (σ r) = blockCount g.doesEdgeExist b c r := by
  rw [blockCount_fiber hg.ok hb, blockCount_fiber hg'.ok hb]
  symm
  refine Finset.card_bij (fun p _ => (f p.1, f p.2)) ?_ ?_ ?_
  · rintro ⟨u, v⟩ h
    rw [Finset.mem_filter] at h ⊢
    refine ⟨(hr.pairs _ _).2 ⟨u, v, h.1, rfl, rfl⟩, ?_⟩
    have := h.2
    simp only [Prod.mk.injEq] at this ⊢
    rw [hσ, hσ, this.1, this.2]
    exact ⟨rfl, rfl⟩
  · rintro ⟨a, b⟩ _ ⟨a', b'⟩ _ h
    simp only [Prod.mk.injEq] at h
    rw [f.injective h.1, f.injective h.2]
  · rintro ⟨u, v⟩ h
    rw [Finset.mem_filter] at h
    obtain ⟨u', v', h', rfl, rfl⟩ := (hr.pairs _ _).1 h.1
    refine ⟨(u', v'), ?_, rfl⟩
    rw [Finset.mem_filter]
    have := h.2
    simp only [Prod.mk.injEq] at this ⊢
    rw [hσ, hσ] at this
    exact ⟨h', σ.injective this.1, σ.injective this.2⟩

/-- **C112**, results: a renaming that maps blocks onto blocks (block `c` to block `σ c`, in any order inside) moves the
pooled entries and the edges of the approximation by `σ` and renames the edges of the compressed graph. -/
theorem C112_rename_results {f σ : ℕ ≃ ℕ} {g g' : Graph} (hg : GReach g) (hg' : GReach g') (hr : Renamed f g g') :
    (∀ b e, effBlock g.vertexCount b = e → effBlock g'.vertexCount b = e → e < 2 ^ 32 → (∀ x, f x / e = σ (x / e)) →
      (∀ P P' o o', ∃ m m', g.findAvgPoolMatrix P o b = .ok m ∧ g'.findAvgPoolMatrix P' o' b = .ok m' ∧
        ∀ c r, m'.getEntry f64Numeric (σ c) (σ r) = m.getEntry f64Numeric c r) ∧
      (∀ P P' o₁ o₂ o₁' o₂' t, ∃ a a', g.approximate P o₁ o₂ b t = .ok a ∧ g'.approximate P' o₁' o₂' b t = .ok a' ∧
        Renamed σ a a')) ∧
    (min 8 g'.vertexCount = min 8 g.vertexCount → (∀ x, f x / 8 = σ (x / 8)) →
      ∀ P P' o₁ o₂ o₁' o₂' l, ∃ c c', g.compress P o₁ o₂ l = .ok c ∧ g'.compress P' o₁' o₂' l = .ok c' ∧
        c'.edgeCount = c.edgeCount ∧ ∀ u v, c'.doesEdgeExist (f u) (f v) = c.doesEdgeExist u v) := by
  refine ⟨?_, ?_⟩
  · rintro b e rfl he h32 hσ
    have hpos : 0 < effBlock g.vertexCount b := by unfold effBlock; omega
    have hcnt := blockCount_rename hg hg' hr hpos hσ
    refine ⟨fun P P' o o' => ?_, fun P P' o₁ o₂ o₁' o₂' t => ?_⟩
    · obtain ⟨m, hm, hv⟩ := pool_entry hg P o b h32
      obtain ⟨m', hm', hv'⟩ := pool_entry hg' P' o' b (he ▸ h32)
      exact ⟨m, m', hm, hm', fun c r => by rw [hv, hv', he, hcnt]⟩
    · obtain ⟨a, a', ha, ha', hu, hu', hx⟩ := approx_entry hg hg' he h32 P P' o₁ o₂ o₁' o₂' t
      exact ⟨a, a', ha, ha', by rw [hu, hu', hr.direction], fun u v => hx _ _ _ _ (hcnt u v)⟩
  · intro hmin hσ P P' o₁ o₂ o₁' o₂' l
    obtain ⟨c, hc, hok, _, _, _, _, hce⟩ := Graph.compress_spec hg.ok P o₁ o₂ l
    obtain ⟨c', hc', hok', _, _, _, _, hce'⟩ := Graph.compress_spec hg'.ok P' o₁' o₂' l
    have hcnt := blockCount_rename hg hg' hr (b := 8) (by norm_num) hσ
    have hedge : ∀ u v, c'.doesEdgeExist (f u) (f v) = c.doesEdgeExist u v := by
      intro u v
      rw [Bool.eq_iff_iff, compress_edges hg.ok P o₁ o₂ l hc, compress_edges hg'.ok P' o₁' o₂' l hc', hmin, hσ, hσ, hcnt,
        hr.edge]
    refine ⟨c, c', hc, hc', ?_, hedge⟩
    rw [hce, hce']
    congr 1
    symm
    refine Finset.card_bij (fun p _ => (f p.1, f p.2)) ?_ ?_ ?_
    · rintro ⟨u, v⟩ h
      rw [CGraph.mem_pairs hok] at h
      rw [CGraph.mem_pairs hok', hedge]; exact h
    · rintro ⟨a, b⟩ _ ⟨a', b'⟩ _ h
      simp only [Prod.mk.injEq] at h
      rw [f.injective h.1, f.injective h.2]
    · rintro ⟨u, v⟩ h
      refine ⟨(f.symm u, f.symm v), ?_, by simp⟩
      rw [CGraph.mem_pairs hok'] at h
      rw [CGraph.mem_pairs hok, ← hedge, f.apply_symm_apply, f.apply_symm_apply]; exact h

/-- **C112**, histories: the same history with renamed vertices (usable ids before and after) gives the renamed graph. -/
theorem C112_rename_history (f : ℕ ≃ ℕ) (d : Bool) (h : List Edit) (h1 : ∀ e ∈ h, e.Usable)
    (h2 : ∀ e ∈ h, (renameEdit f e).Usable) : Renamed f (runCode d h) (runCode d (h.map (renameEdit f))) := by
  have hA := C01_history_documented d h h1
  have hB := C01_history_documented d (h.map (renameEdit f)) (by
    intro e he
    obtain ⟨e', he', rfl⟩ := List.mem_map.1 he
    exact h2 e' he')
  let R : AGraph → AGraph → Prop := fun a a' => a'.undirected = a.undirected ∧ ∀ u v, (f u, f v) ∈ a'.E ↔ (u, v) ∈ a.E
  have addE : ∀ a a' u v, R a a' → u < 2 ^ 64 - 1 → v < 2 ^ 64 - 1 → f u < 2 ^ 64 - 1 → f v < 2 ^ 64 - 1 →
      R (a.addEdge u v) (a'.addEdge (f u) (f v)) := by
    rintro a a' u v ⟨hd, he⟩ q1 q2 q3 q4
    unfold AGraph.addEdge
    rw [if_pos (And.intro q1 q2), if_pos (And.intro q3 q4)]
    refine ⟨hd, fun x y => ?_⟩
    simp only [Finset.mem_union, hd, he]
    split <;> simp [Finset.mem_insert, f.injective.eq_iff]
  have ens : ∀ a a' v w, R a a' → R (a.ensureVertex v) (a'.ensureVertex w) := by
    rintro a a' v w ⟨hd, he⟩
    unfold AGraph.ensureVertex
    split <;> split <;> exact ⟨hd, he⟩
  have fold : ∀ (ts : List Nat) a a' v, R a a' → v < 2 ^ 64 - 1 → f v < 2 ^ 64 - 1 → (∀ t ∈ ts, t < 2 ^ 64 - 1) →
      (∀ t ∈ ts, f t < 2 ^ 64 - 1) →
      R (ts.foldl (fun a t => a.addEdge v t) a) ((ts.map f).foldl (fun a t => a.addEdge (f v) t) a') := by
    intro ts
    induction ts with
    | nil => intro a a' v hR _ _ _ _; exact hR
    | cons t ts ih =>
      intro a a' v hR q1 q2 q3 q4
      exact ih _ _ _ (addE _ _ _ _ hR q1 (q3 t (by simp)) q2 (q4 t (by simp))) q1 q2
        (fun x hx => q3 x (by simp [hx])) (fun x hx => q4 x (by simp [hx]))
  have step : ∀ a a' e, R a a' → Edit.Usable e → (renameEdit f e).Usable → R (a.apply e) (a'.apply (renameEdit f e)) := by
    intro a a' e hR u1 u2
    match e with
    | .addEdge u v => exact addE _ _ _ _ hR u1.1 u1.2 u2.1 u2.2
    | .deleteEdge u v =>
      refine ⟨hR.1, fun x y => ?_⟩
      change (f x, f y) ∈ Finset.filter _ _ ↔ (x, y) ∈ Finset.filter _ _
      rw [Finset.mem_filter, Finset.mem_filter, hR.2, hR.1]
      simp [f.injective.eq_iff]
    | .addVertex v ts =>
      refine ens _ _ _ _ ?_
      cases ts with
      | none => exact hR
      | some l =>
        refine fold l _ _ _ hR u1.1 u2.1 u1.2 fun t ht => u2.2 (f t) ?_
        exact List.mem_map.2 ⟨t, ht, rfl⟩
  have key : ∀ (h : List Edit) a a', R a a' → (∀ e ∈ h, e.Usable) → (∀ e ∈ h, (renameEdit f e).Usable) →
      R (h.foldl AGraph.apply a) ((h.map (renameEdit f)).foldl AGraph.apply a') := by
    intro h
    induction h with
    | nil => intro a a' hR _ _; exact hR
    | cons e h ih =>
      intro a a' hR q1 q2
      exact ih _ _ (step _ _ _ hR (q1 e (by simp)) (q2 e (by simp))) (fun x hx => q1 x (by simp [hx]))
        (fun x hx => q2 x (by simp [hx]))
  obtain ⟨k1, k2⟩ := key h (AGraph.empty d) (AGraph.empty d) ⟨rfl, fun u v => by simp [AGraph.empty]⟩ h1 h2
  refine ⟨by rw [hB.direction, hA.direction, k1], fun u v => ?_⟩
  rw [Bool.eq_iff_iff, hB.edge, hA.edge, k2]

/-- Exchanging blocks 0 and 1 (of dimension 8), and vertices 3 and 4 inside. -/
def exSwap : ℕ ≃ ℕ := (Equiv.swap 3 4).trans
  ⟨fun x => if x < 8 then x + 8 else if x < 16 then x - 8 else x,
   fun x => if x < 8 then x + 8 else if x < 16 then x - 8 else x,
   fun x => by simp only; split_ifs <;> omega, fun x => by simp only; split_ifs <;> omega⟩

def exHist : List Edit := [.addEdge 0 9, .addEdge 3 9, .addEdge 5 2, .addVertex 19 (some [3])]

example : (∀ e ∈ exHist, e.Usable) ∧ (∀ e ∈ exHist, (renameEdit exSwap e).Usable) ∧
    (runCode false (exHist.map (renameEdit exSwap))).doesEdgeExist 12 1 = true ∧
    (∀ x, exSwap x / 8 = Equiv.swap 0 1 (x / 8)) ∧
    effBlock (runCode false exHist).vertexCount 8 = 8 ∧
    effBlock (runCode false (exHist.map (renameEdit exSwap))).vertexCount 8 = 8 ∧
    okAnd ((runCode false exHist).compress exP .id .id 2) (fun c => c.getCompressedMatrixEntry 0 1 == 2 ^ 8 + 2 ^ 11) ∧
    okAnd ((runCode false (exHist.map (renameEdit exSwap))).compress exP .id .id 2) (fun c =>
      c.getCompressedMatrixEntry 1 0 == 2 ^ 8 + 2 ^ 12) := by
  refine ⟨?_, ?_, by decide +kernel, ?_, by decide +kernel, by decide +kernel, by decide +kernel, by decide +kernel⟩
  · simp [exHist, Edit.Usable]
  · have : (exSwap 0, exSwap 9, exSwap 3, exSwap 5, exSwap 2, exSwap 19) = (8, 1, 12, 13, 10, 19) := by decide +kernel
    simp only [Prod.mk.injEq] at this
    simp [exHist, renameEdit, Edit.Usable, this]
  · intro x
    simp only [exSwap, Equiv.trans_apply, Equiv.coe_fn_mk, Equiv.swap_apply_def]
    split_ifs <;> omega

end Verif.Props
