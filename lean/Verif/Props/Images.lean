import Verif.Spec.Images
import Verif.Props.CCodec
import Verif.Props.Cutoff
import Verif.Props.Congruence

/-!
# Exactly what the functions can produce: C126
-/

namespace Verif.Props
open Verif Spec

/-! ## Graphs -/

theorem greach_foldl (h : List Edit) {g : Graph} (hg : GReach g) : GReach (h.foldl Edit.call g) := by
  induction h generalizing g with
  | nil => exact hg
  | cons e h ih =>
    refine ih ?_
    cases e with
    | addVertex v ts => exact .addVertex _ _ hg
    | addEdge u v => exact .addEdge _ _ hg
    | deleteEdge u v => exact .deleteEdge _ _ hg

theorem addEdges_abs (L : List (Nat × Nat)) (a : AGraph) (hn : a.n ≤ 2 ^ 64 - 1) (hL : ∀ p ∈ L, p.1 < a.n ∧ p.2 < a.n) :
    let a' := (L.map fun p => Edit.addEdge p.1 p.2).foldl AGraph.applyActual a
    a'.undirected = a.undirected ∧ a'.n = a.n ∧
      ∀ q, q ∈ a'.E ↔ q ∈ a.E ∨ q ∈ L ∨ (a.undirected = true ∧ (q.2, q.1) ∈ L) := by
  induction L generalizing a with
  | nil => simp
  | cons p L ih =>
    obtain ⟨h1, h2⟩ := hL p (by simp)
    have hs : a.addEdge p.1 p.2 =
        { a with E := a.E ∪ (if a.undirected then {(p.1, p.2), (p.2, p.1)} else {(p.1, p.2)}) } := by
      unfold AGraph.addEdge
      rw [if_pos ⟨by omega, by omega⟩, show max a.n (max p.1 p.2 + 1) = a.n by omega]
    have := ih (a.addEdge p.1 p.2) (by rw [hs]; exact hn)
      (fun q hq => by rw [hs]; exact hL q (List.mem_cons_of_mem _ hq))
    simp only [List.map_cons, List.foldl_cons, AGraph.applyActual] at this ⊢
    obtain ⟨e1, e2, e3⟩ := this
    refine ⟨e1.trans (by rw [hs]), e2.trans (by rw [hs]), fun q => ?_⟩
    rw [e3, hs]
    obtain ⟨p1, p2⟩ := p
    obtain ⟨q1, q2⟩ := q
    cases hu : a.undirected <;> simp [Prod.ext_iff] <;> tauto

/-- **C126.** Every direction, every number of vertices up to `2^64 - 1` and every finite edge set within range (symmetric if
undirected) is that of a graph the library can build, and no others are. -/
theorem C126_graphs (undirected : Bool) (n : Nat) (S : Finset (Nat × Nat)) :
    (∃ g, GReach g ∧ Has g undirected n S) ↔ n ≤ 2 ^ 64 - 1 ∧ EdgeSet undirected n S := by
  constructor
  · rintro ⟨g, hg, hu, hn, he⟩
    refine ⟨by rw [← hn]; exact hg.ok.wf.dim, fun p hp => ?_, fun h a b hab => ?_⟩
    · rw [← hn]; exact (C02_edge_count_exact hg).2 _ _ ((he _ _).2 hp)
    · rw [← he] at hab ⊢; rw [C04_undirected_symmetric hg (hu.trans h)]; exact hab
  · rintro ⟨hn, hr, hs⟩
    rcases Nat.eq_zero_or_pos n with h0 | h0
    · subst h0
      have hS : S = ∅ := Finset.eq_empty_of_forall_notMem fun p hp => by have := hr p hp; omega
      subst hS
      refine ⟨runCode undirected [], greach_foldl _ (by cases undirected; exacts [.newDirected, .newUndirected]), ?_⟩
      have := C01_history_refinement undirected []
      exact ⟨this.direction, this.vertexCount, this.edge⟩
    · refine ⟨runCode undirected (.addVertex (n - 1) none :: S.toList.map fun p => Edit.addEdge p.1 p.2),
        greach_foldl _ (by cases undirected; exacts [.newDirected, .newUndirected]), ?_⟩
      have h := C01_history_refinement undirected (.addVertex (n - 1) none :: S.toList.map fun p => Edit.addEdge p.1 p.2)
      have ha : (AGraph.empty undirected).applyActual (.addVertex (n - 1) none) = ⟨undirected, n, ∅⟩ := by
        simp only [AGraph.applyActual, AGraph.addVertexActual, Option.getD_none, if_true, AGraph.ensureVertex]
        rw [if_pos (by omega)]
        simp only [AGraph.empty, AGraph.mk.injEq, true_and, and_true]
        omega
      rw [List.foldl_cons, ha] at h
      obtain ⟨e1, e2, e3⟩ := addEdges_abs S.toList ⟨undirected, n, ∅⟩ hn (fun p hp => hr p (Finset.mem_toList.1 hp))
      refine ⟨h.direction.trans e1, h.vertexCount.trans e2, fun a b => ?_⟩
      rw [h.edge, e3]
      simp only [Finset.notMem_empty, Finset.mem_toList, false_or]
      exact ⟨fun x => x.elim id fun y => hs y.1 _ _ y.2, Or.inl⟩

/-- The conditions are met by a set with a loop and edges in both directions. -/
example : EdgeSet true 4 {(0, 0), (1, 3), (3, 1)} ∧ ¬ EdgeSet true 4 {(1, 3)} ∧ ¬ EdgeSet false 3 {(1, 3)} := by
  refine ⟨⟨by decide, ?_⟩, fun h => ?_, fun h => ?_⟩
  · intro _ a b; simp [Prod.ext_iff]; omega
  · have := h.symm rfl 1 3 (by decide); revert this; decide
  · have := h.inRange (1, 3) (by decide); omega

/-- The full graph on two vertices. -/
def k2 : Graph := (((Graph.newDirected.addEdge 0 0).addEdge 0 1).addEdge 1 0).addEdge 1 1

theorem k2_reach : GReach k2 := .addEdge _ _ (.addEdge _ _ (.addEdge _ _ (.addEdge _ _ .newDirected)))

/-- **C126.** Every graph is the decompression of a compressed graph. -/
theorem C126_decompress {g : Graph} (hg : GReach g) (P : Platform) (o : HashOrder) :
    ∃ c d, CReach c ∧ c.decompress P o = .ok d ∧ Same d g := by
  obtain ⟨c, d, hc, hd, hs⟩ := C21_level_one_lossless hg P P .id .id o (le_refl 1)
  exact ⟨c, d, .compress _ _ _ _ hg hc, hd, hs⟩

/-! ## Compressed graphs -/

theorem at_of_edges {c c' : CGraph} (h : c.OK) (h' : c'.OK)
    (he : ∀ u v, c.doesEdgeExist u v = c'.doesEdgeExist u v) (x y : Nat) : c.at? x y = c'.at? x y := by
  have hent : c.getCompressedMatrixEntry x y = c'.getCompressedMatrixEntry x y := by
    have hlt : ∀ {c : CGraph}, c.OK → c.getCompressedMatrixEntry x y < 2 ^ 64 := by
      intro c h
      rw [CGraph.getEntry_at]
      cases hx : c.at? x y with
      | none => simp
      | some e => exact (h.word x y e hx).2
    refine Nat.eq_of_testBit_eq fun k => ?_
    by_cases hk : k < 64
    · have := he (8 * x + k % 8) (8 * y + k / 8)
      rwa [CGraph.doesEdgeExist_eq, CGraph.doesEdgeExist_eq, show (8 * x + k % 8) / 8 = x by omega,
        show (8 * y + k / 8) / 8 = y by omega,
        show 8 * ((8 * y + k / 8) % 8) + (8 * x + k % 8) % 8 = k by omega] at this
    · have : 2 ^ 64 ≤ 2 ^ k := Nat.pow_le_pow_right (by norm_num) (by omega)
      rw [Nat.testBit_lt_two_pow (lt_of_lt_of_le (hlt h) this), Nat.testBit_lt_two_pow (lt_of_lt_of_le (hlt h') this)]
  rw [CGraph.getEntry_at, CGraph.getEntry_at] at hent
  cases hx : c.at? x y with
  | none =>
    cases hx' : c'.at? x y with
    | none => rfl
    | some e' => rw [hx, hx'] at hent; exact absurd hent.symm (h'.word x y e' hx').1
  | some e =>
    cases hx' : c'.at? x y with
    | none => rw [hx, hx'] at hent; exact absurd hent (h.word x y e hx).1
    | some e' => rw [hx, hx'] at hent; exact congrArg some hent

/-- **C126.** Among the compressed graphs the library can hold, exactly these are results of `compress` at level `l`: the level
is `l` moved into 1..64, the edge count is the number of edges, undirected means symmetric, and every non-empty block is full
enough for that level. -/
theorem C126_compress {c : CGraph} (hc : CReach c) (l : Nat) (P : Platform) (o₁ o₂ : HashOrder) :
    (∃ g c', GReach g ∧ g.compress P o₁ o₂ l = .ok c' ∧ SameC c' c) ↔ FromCompress c l := by
  constructor
  · rintro ⟨g, c', hg, hc', hs⟩
    obtain ⟨c₁, h1, hok, hu, hv, hl, hat, hec⟩ := Graph.compress_spec hg.ok P o₁ o₂ l
    rw [hc'] at h1; cases h1
    have hed : c.doesEdgeExist = c'.doesEdgeExist := by funext u v; exact (hs.edge u v).symm
    have hce := compress_edges hg.ok P o₁ o₂ l hc'
    refine ⟨?_, ?_, ?_, ?_⟩
    · rw [← hs.level, hl, clampLevel_eq]
    · rw [← hs.edgeCount, ← hs.vertexCount, hed]; exact hec
    · intro h u v
      rw [hed]
      exact C30_compress_symmetric hg (by rw [← hu, hs.direction]; exact h) P o₁ o₂ l hc' u v
    · intro x y hpos
      rw [hed] at hpos ⊢
      rw [← hs.vertexCount, hv]
      unfold blockCount at hpos
      obtain ⟨⟨i, j⟩, hp⟩ := Finset.card_pos.1 hpos
      rw [Finset.mem_filter, Finset.mem_product, Finset.mem_range, Finset.mem_range] at hp
      have hk := ((hce _ _).1 hp.2).2
      simp only at hk hp
      rw [show (x * 8 + i) / 8 = x by omega, show (y * 8 + j) / 8 = y by omega] at hk
      have : blockCount g.doesEdgeExist 8 x y ≤ blockCount c'.doesEdgeExist 8 x y := by
        unfold blockCount
        refine Finset.card_le_card fun q hq => ?_
        rw [Finset.mem_filter, Finset.mem_product, Finset.mem_range, Finset.mem_range] at hq ⊢
        refine ⟨hq.1, (hce _ _).2 ⟨hq.2, ?_⟩⟩
        rw [show (x * 8 + q.1) / 8 = x by omega, show (y * 8 + q.2) / 8 = y by omega]
        exact hk
      omega
  · rintro ⟨h1, h2, h3, h4⟩
    obtain ⟨d, hd, hdok, hdu, hdv, _⟩ := CGraph.decompress_spec hc.ok P .id
    obtain ⟨d', hd', he⟩ := C27_decompress_agrees hc P .id h3
    rw [hd] at hd'; cases hd'
    have hg : GReach d := .decompress _ _ hc hd
    obtain ⟨c', hc', hok, hu, hv, hl, hat, hec⟩ := Graph.compress_spec hg.ok P o₁ o₂ l
    have hed : d.doesEdgeExist = c.doesEdgeExist := by funext u v; exact he u v
    have hce := compress_edges hg.ok P o₁ o₂ l hc'
    have hedge : ∀ u v, c'.doesEdgeExist u v = c.doesEdgeExist u v := by
      intro u v
      rw [Bool.eq_iff_iff, hce, hed, hdv]
      refine ⟨fun x => x.1, fun x => ⟨x, h4 _ _ ?_⟩⟩
      unfold blockCount
      refine Finset.card_pos.2 ⟨(u % 8, v % 8), ?_⟩
      rw [Finset.mem_filter, Finset.mem_product, Finset.mem_range, Finset.mem_range]
      refine ⟨⟨Nat.mod_lt _ (by norm_num), Nat.mod_lt _ (by norm_num)⟩, ?_⟩
      simp only
      rw [show u / 8 * 8 + u % 8 = u by omega, show v / 8 * 8 + v % 8 = v by omega]
      exact x
    refine ⟨d, c', hg, hc', sameC hok hc.ok (hu.trans hdu) ?_ (hv.trans hdv) ?_ (at_of_edges hok hc.ok hedge)⟩
    · rw [hl, clampLevel_eq, h1]
    · rw [hec, h2, CGraph.pairs, hv, hdv, show c'.doesEdgeExist = c.doesEdgeExist by funext u v; exact hedge u v]
      rfl

/-- A graph with five edges compressed at level 2 meets the condition at level 2 and not at level 5. -/
example : ∃ c, CReach c ∧ FromCompress c 2 ∧ ¬ FromCompress c 5 ∧ c.edgeCount = 5 := by
  obtain ⟨c, hc, h⟩ := okAnd_elim (show okAnd (exU.compress exP .id .id 2)
    (fun c => c.edgeCount == 5 && c.compressionLevel == 2) = true by decide +kernel)
  simp only [Bool.and_eq_true, beq_iff_eq] at h
  have hr : CReach c := .compress _ _ _ _ exU_reach hc
  refine ⟨c, hr, (C126_compress hr 2 exP .id .id).1 ⟨exU, c, exU_reach, hc, ?_⟩, fun h' => ?_, h.1⟩
  · exact sameC hr.ok hr.ok rfl rfl rfl rfl fun _ _ => rfl
  · have := h'.level; rw [h.2] at this; omega

/-! ## Approximations -/

theorem blockCount_full {edge : Nat → Nat → Bool} {b c r : Nat}
    (h : ∀ i < b, ∀ j < b, edge (c * b + i) (r * b + j) = true) : blockCount edge b c r = b * b := by
  unfold blockCount
  rw [Finset.filter_true_of_mem, Finset.card_product, Finset.card_range]
  intro p hp
  rw [Finset.mem_product, Finset.mem_range, Finset.mem_range] at hp
  exact h _ hp.1 _ hp.2

theorem blockCount_none {edge : Nat → Nat → Bool} {b c r : Nat}
    (h : ∀ i < b, ∀ j < b, edge (c * b + i) (r * b + j) = false) : blockCount edge b c r = 0 := by
  unfold blockCount
  rw [Finset.card_eq_zero, Finset.filter_eq_empty_iff]
  intro p hp
  rw [Finset.mem_product, Finset.mem_range, Finset.mem_range] at hp
  rw [h _ hp.1 _ hp.2]; simp

/-- Every vertex replaced by `b` vertices, every edge by all edges between the copies. -/
theorem blow_up {h : Graph} (hh : GReach h) {b : Nat} (hb : 0 < b) (hn : h.vertexCount * b ≤ 2 ^ 64 - 1) :
    ∃ g, GReach g ∧ g.isUndirected = h.isUndirected ∧ g.vertexCount = h.vertexCount * b ∧
      ∀ u v, g.doesEdgeExist u v = h.doesEdgeExist (u / b) (v / b) := by
  have hr := (C02_edge_count_exact hh).2
  have hlt : ∀ u, u < h.vertexCount * b ↔ u / b < h.vertexCount := fun u => (Nat.div_lt_iff_lt_mul hb).symm
  obtain ⟨g, hg, hu, hv, he⟩ := (C126_graphs h.isUndirected (h.vertexCount * b)
    ((Finset.range (h.vertexCount * b) ×ˢ Finset.range (h.vertexCount * b)).filter
      fun p => h.doesEdgeExist (p.1 / b) (p.2 / b) = true)).2 ⟨hn, fun p hp => by simpa using (Finset.mem_filter.1 hp).1,
      fun hu x y hxy => by
        rw [Finset.mem_filter, Finset.mem_product] at hxy ⊢
        exact ⟨hxy.1.symm, by rw [C04_undirected_symmetric hh hu]; exact hxy.2⟩⟩
  refine ⟨g, hg, hu, hv, fun u v => ?_⟩
  rw [Bool.eq_iff_iff, he, Finset.mem_filter, Finset.mem_product, Finset.mem_range, Finset.mem_range]
  refine ⟨fun x => x.2, fun x => ⟨?_, x⟩⟩
  rw [hlt, hlt]
  exact hr _ _ x

theorem all_or_nothing {b : Nat} (h2 : 2 ≤ b) (h32 : b < 2 ^ 32) {t : F64} {K : Option Nat}
    (hK1 : ∀ k, K = some k → 1 ≤ k)
    (hK : ∀ g : Graph, GReach g → ∀ (P : Platform) (o₁ o₂ : HashOrder) (b₁ : Nat), 2 ≤ b₁ → 2 ≤ g.vertexCount →
      min b₁ g.vertexCount = b → ∃ a, g.approximate P o₁ o₂ b₁ t = .ok a ∧ ∀ c r,
        (a.doesEdgeExist c r = true ↔ ∃ k, K = some k ∧ k ≤ blockCount g.doesEdgeExist b c r)) :
    ((∃ k, K = some k ∧ k ≤ b * b) ∧ AllGraphs b t) ∨ ((¬ ∃ k, K = some k ∧ k ≤ b * b) ∧ NoEdges b t) := by
  by_cases hk : ∃ k, K = some k ∧ k ≤ b * b
  · obtain ⟨k, rfl, hkb⟩ := hk
    have hk1 := hK1 k rfl
    refine Or.inl ⟨⟨k, rfl, hkb⟩, ?_⟩
    intro h hh hn P o₁ o₂
    rcases Nat.eq_zero_or_pos h.vertexCount with h0 | h0
    · exact ⟨h, h, hh, C43_copy h P o₁ o₂ b t (Or.inr (by omega)), same_of_obs hh.ok hh.ok rfl rfl fun _ _ => rfl⟩
    · obtain ⟨g, hg, hu, hv, he⟩ := blow_up hh (by omega : 0 < b) hn
      have hbn : b ≤ g.vertexCount := by rw [hv]; exact Nat.le_mul_of_pos_left b h0
      have hmin : min b g.vertexCount = b := Nat.min_eq_left hbn
      obtain ⟨a, ha, hae⟩ := hK g hg P o₁ o₂ b h2 (by omega) hmin
      obtain ⟨m, hm, _⟩ := C38_pooling_covers hg P o₁ .id b (by unfold effBlock; omega)
      obtain ⟨a', ha', hau, hav, _⟩ := C40_approximate_keeps hg P o₁ o₂ t h2 (by omega) hm
      rw [ha] at ha'; cases ha'
      have har : GReach a := .approximate _ _ _ _ _ hg ha
      refine ⟨g, a, hg, ha, same_of_obs har.ok hh.ok (hau.trans hu) ?_ fun u v => ?_⟩
      · rw [hav, hmin, hv]
        unfold ceilDiv
        rw [show h.vertexCount * b + b - 1 = b - 1 + b * h.vertexCount by rw [Nat.mul_comm]; omega,
          Nat.add_mul_div_left _ _ (by omega), Nat.div_eq_of_lt (by omega)]
        omega
      · have hdiv : ∀ u i, i < b → (u * b + i) / b = u := fun u i hi => by
          rw [Nat.mul_comm, Nat.mul_add_div (by omega), Nat.div_eq_of_lt hi, Nat.add_zero]
        cases hx : h.doesEdgeExist u v with
        | true =>
          refine (hae u v).2 ⟨k, rfl, ?_⟩
          rw [blockCount_full fun i hi j hj => by rw [he, hdiv _ _ hi, hdiv _ _ hj]; exact hx]
          exact hkb
        | false =>
          rw [Bool.eq_false_iff]
          intro hy
          obtain ⟨k', e, hle⟩ := (hae u v).1 hy
          cases e
          rw [blockCount_none fun i hi j hj => by rw [he, hdiv _ _ hi, hdiv _ _ hj]; exact hx] at hle
          omega
  · refine Or.inr ⟨hk, ?_⟩
    intro g hg hbn P o₁ o₂
    obtain ⟨a, ha, hae⟩ := hK g hg P o₁ o₂ b h2 (by omega) (Nat.min_eq_left hbn)
    refine ⟨a, ha, fun u v => ?_⟩
    rw [Bool.eq_false_iff]
    intro hy
    obtain ⟨k, e, hle⟩ := (hae u v).1 hy
    exact hk ⟨k, e, hle.trans (Graph.blockCount_le _ _ _ _)⟩

/-- The two cases exclude each other. -/
theorem C126_not_both (b : Nat) (h2 : 2 ≤ b) (h32 : b < 2 ^ 32) (t : F64) : ¬ (AllGraphs b t ∧ NoEdges b t) := by
  rintro ⟨h, h'⟩
  obtain ⟨g, a, hg, ha, hs⟩ := h ((Graph.newDirected.addEdge 0 1).addEdge 0 0) (.addEdge _ _ (.addEdge _ _ .newDirected))
    (by have : ((Graph.newDirected.addEdge 0 1).addEdge 0 0).vertexCount = 2 := by decide
        rw [this]; omega) exP .id .id
  have hav : a.vertexCount = 2 := hs.vertexCount.trans (by decide)
  by_cases hbn : b ≤ g.vertexCount
  · obtain ⟨a', ha', he⟩ := h' g hg hbn exP .id .id
    rw [ha] at ha'; cases ha'
    have := hs.edge 0 0
    rw [he] at this
    revert this; decide
  · by_cases hg2 : 2 ≤ g.vertexCount
    · obtain ⟨m, hm, _⟩ := C38_pooling_covers hg exP .id .id b (by unfold effBlock; omega)
      obtain ⟨a', ha', _, hav', _⟩ := C40_approximate_keeps hg exP .id .id t h2 hg2 hm
      rw [ha] at ha'; cases ha'
      rw [hav', Nat.min_eq_right (by omega)] at hav
      unfold ceilDiv at hav
      have : (g.vertexCount + g.vertexCount - 1) / g.vertexCount < 2 := (Nat.div_lt_iff_lt_mul (by omega)).2 (by omega)
      omega
    · rw [C43_copy g exP .id .id b t (Or.inr (by omega))] at ha
      cases ha
      omega

/-- **C126.** For every block dimension from 2 and every threshold, it is all or nothing: either every graph that fits is an
approximation, or no approximation has an edge. -/
theorem C126_approximate (b : Nat) (h2 : 2 ≤ b) (h32 : b < 2 ^ 32) (t : F64) : AllGraphs b t ∨ NoEdges b t := by
  obtain ⟨K, hK1, hK⟩ := C105_cutoff b h32 t
  exact (all_or_nothing h2 h32 hK1 hK).imp And.right And.right

/-- **C126.** Which of the two it is can be read off one graph: the full graph (all pairs, loops included) on `b` vertices. -/
theorem C126_full_graph_decides {b : Nat} (h2 : 2 ≤ b) (h32 : b < 2 ^ 32) (t : F64) {k : Graph} (hk : GReach k)
    (hn : k.vertexCount = b) (hf : ∀ u < b, ∀ v < b, k.doesEdgeExist u v = true) (P : Platform) (o₁ o₂ : HashOrder) :
    ∃ a, k.approximate P o₁ o₂ b t = .ok a ∧ (a.doesEdgeExist 0 0 = true ↔ AllGraphs b t) ∧
      (a.doesEdgeExist 0 0 = false ↔ NoEdges b t) := by
  obtain ⟨K, hK1, hK⟩ := C105_cutoff b h32 t
  obtain ⟨a, ha, hae⟩ := hK k hk P o₁ o₂ b h2 (by omega) (by omega)
  have hfull : blockCount k.doesEdgeExist b 0 0 = b * b :=
    blockCount_full fun i hi j hj => by rw [Nat.zero_mul, Nat.zero_add, Nat.zero_add]; exact hf i hi j hj
  have h0 := hae 0 0
  rw [hfull] at h0
  have hnot : ¬ (AllGraphs b t ∧ NoEdges b t) := C126_not_both b h2 h32 t
  refine ⟨a, ha, ?_⟩
  rw [← Bool.not_eq_true, h0]
  rcases all_or_nothing h2 h32 hK1 hK with ⟨h1, h3⟩ | ⟨h1, h3⟩
  · exact ⟨⟨fun _ => h3, fun _ => h1⟩, fun h => absurd h1 h, fun h => absurd ⟨h3, h⟩ hnot⟩
  · exact ⟨⟨fun h => absurd h h1, fun h => absurd ⟨h, h3⟩ hnot⟩, fun _ => h3, fun _ => h1⟩

/-- Both cases occur: with the threshold 1, blocks of dimension 2 give every graph and blocks of dimension 7 give none with an
edge (the average of a full block is computed as less than 1); with the threshold 1/2 they give every graph; with NaN none. -/
example : AllGraphs 2 (.fin 1) ∧ NoEdges 7 (.fin 1) ∧ AllGraphs 7 (.fin (1 / 2)) ∧ NoEdges 7 .nan := by
  have d2 : ∀ t, ∃ a, k2.approximate exP .id .id 2 t = .ok a ∧ (a.doesEdgeExist 0 0 = true ↔ AllGraphs 2 t) ∧
      (a.doesEdgeExist 0 0 = false ↔ NoEdges 2 t) := fun t =>
    C126_full_graph_decides le_rfl (by norm_num) t k2_reach (by decide) (by decide) exP .id .id
  have d7 : ∀ t, ∃ a, k7.approximate exP .id .id 7 t = .ok a ∧ (a.doesEdgeExist 0 0 = true ↔ AllGraphs 7 t) ∧
      (a.doesEdgeExist 0 0 = false ↔ NoEdges 7 t) := fun t =>
    C126_full_graph_decides (by norm_num) (by norm_num) t k7_reach (by decide +kernel) (by decide +kernel) exP .id .id
  refine ⟨?_, ?_, ?_, ?_⟩
  · obtain ⟨a, ha, h, _⟩ := d2 (.fin 1)
    obtain ⟨a', ha', hx⟩ := okAnd_elim (show okAnd (k2.approximate exP .id .id 2 (.fin 1))
      (fun a => a.doesEdgeExist 0 0) = true by decide +kernel)
    rw [ha] at ha'; cases ha'; exact h.1 hx
  · obtain ⟨a, ha, _, h⟩ := d7 (.fin 1)
    obtain ⟨a', ha', hx⟩ := okAnd_elim (show okAnd (k7.approximate exP .id .id 7 (.fin 1))
      (fun a => !a.doesEdgeExist 0 0) = true by decide +kernel)
    rw [ha] at ha'; cases ha'; exact h.1 (by simpa using hx)
  · obtain ⟨a, ha, h, _⟩ := d7 (.fin (1 / 2))
    obtain ⟨a', ha', hx⟩ := okAnd_elim (show okAnd (k7.approximate exP .id .id 7 (.fin (1 / 2)))
      (fun a => a.doesEdgeExist 0 0) = true by decide +kernel)
    rw [ha] at ha'; cases ha'; exact h.1 hx
  · obtain ⟨a, ha, _, h⟩ := d7 .nan
    obtain ⟨a', ha', hx⟩ := okAnd_elim (show okAnd (k7.approximate exP .id .id 7 .nan)
      (fun a => !a.doesEdgeExist 0 0) = true by decide +kernel)
    rw [ha] at ha'; cases ha'; exact h.1 (by simpa using hx)

end Verif.Props
