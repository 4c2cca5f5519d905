import Verif.Lemmas.CCodec
import Verif.Props.Pooling

/-!
# Properties of compression: C21–C30, C47, C65, and the compression part of C46

`l` is the requested level, `max 1 (min l 64)` the level in effect.
-/

namespace Verif.Props
open Verif Spec

/-- An example: 20 vertices; 3 edges in block (0,0), 2 in block (1,0) (from 8..15 to 0..7), 1 in block (2,2). -/
def exC : Graph :=
  [(0, 0), (3, 7), (7, 1), (8, 0), (15, 7), (19, 18)].foldl (fun g e => g.addEdge e.1 e.2) Graph.newDirected
theorem exC_reach : GReach exC := reach_foldl _ (fun _ e h => h.addEdge e.1 e.2) _ _ .newDirected

theorem clampLevel_eq (l : Nat) : clampCompressionLevel l = max 1 (min l 64) := by
  unfold clampCompressionLevel
  split
  · omega
  · split <;> omega

/-- Which edges survive. -/
theorem compress_edges {g : Graph} (hg : g.OK) (P : Platform) (o₁ o₂ : HashOrder) (l : Nat) {c : CGraph}
    (hc : g.compress P o₁ o₂ l = .ok c) (u v : Nat) :
    c.doesEdgeExist u v = true ↔ g.doesEdgeExist u v = true ∧
      max 1 (min l 64) * (min 8 g.vertexCount * min 8 g.vertexCount) ≤
        64 * blockCount g.doesEdgeExist 8 (u / 8) (v / 8) := by
  obtain ⟨c', hc', _, _, _, _, hat, _⟩ := Graph.compress_spec hg P o₁ o₂ l
  rw [hc] at hc'; cases hc'
  rw [CGraph.doesEdgeExist_iff]
  have hbit : (wordOf (blockBits g.doesEdgeExist (u / 8) (v / 8)) 64).testBit (8 * (v % 8) + u % 8) =
      g.doesEdgeExist u v := by
    rw [testBit_wordOf, decide_eq_true (by omega), Bool.true_and]
    unfold blockBits
    congr 1 <;> omega
  rw [← clampLevel_eq]
  constructor
  · rintro ⟨e, he, hb⟩
    obtain ⟨_, hk, rfl⟩ := (hat _ _ _).1 he
    rw [hbit] at hb
    exact ⟨hb, hk⟩
  · rintro ⟨he, hk⟩
    refine ⟨_, (hat _ _ _).2 ⟨?_, hk, rfl⟩, by rw [hbit]; exact he⟩
    unfold blockCount
    rw [Finset.card_pos]
    refine ⟨(u % 8, v % 8), ?_⟩
    rw [Finset.mem_filter, Finset.mem_product, Finset.mem_range, Finset.mem_range]
    refine ⟨⟨Nat.mod_lt _ (by norm_num), Nat.mod_lt _ (by norm_num)⟩, ?_⟩
    simp only
    rw [show u / 8 * 8 + u % 8 = u by omega, show v / 8 * 8 + v % 8 = v by omega]
    exact he

theorem blockCount_pos {edge : Nat → Nat → Bool} {u v : Nat} (h : edge u v = true) :
    0 < blockCount edge 8 (u / 8) (v / 8) := by
  unfold blockCount
  rw [Finset.card_pos]
  refine ⟨(u % 8, v % 8), ?_⟩
  rw [Finset.mem_filter, Finset.mem_product, Finset.mem_range, Finset.mem_range]
  refine ⟨⟨Nat.mod_lt _ (by norm_num), Nat.mod_lt _ (by norm_num)⟩, ?_⟩
  simp only
  rw [show u / 8 * 8 + u % 8 = u by omega, show v / 8 * 8 + v % 8 = v by omega]
  exact h

theorem min_sq_le (n : Nat) : min 8 n * min 8 n ≤ 64 :=
  (Nat.mul_le_mul (min_le_left 8 n) (min_le_left 8 n)).trans (by norm_num)

/-! ## C46, compression -/

/-- **C46** for `compress` and `decompress`: they always return normally. -/
theorem C46_compress_never_fails {g : Graph} (hg : GReach g) (P : Platform) (o₁ o₂ : HashOrder) (l : Nat) :
    ∃ c, g.compress P o₁ o₂ l = .ok c ∧ ∀ P' o, ∃ d, c.decompress P' o = .ok d := by
  obtain ⟨c, hc, hok, _⟩ := Graph.compress_spec hg.ok P o₁ o₂ l
  refine ⟨c, hc, fun P' o => ?_⟩
  obtain ⟨d, hd, _⟩ := CGraph.decompress_spec hok P' o
  exact ⟨d, hd⟩

example : okAnd (exC.compress exP .id .id 3) fun c => okAnd (c.decompress exP .id) fun d => d.edgeCount == 3 := by
  decide +kernel

/-! ## C26 -/

/-- **C26.** What `compress` and `decompress` keep. -/
theorem C26_compression_metadata {g : Graph} (hg : GReach g) (P : Platform) (o₁ o₂ : HashOrder) (l : Nat) :
    ∃ c, g.compress P o₁ o₂ l = .ok c ∧ c.vertexCount = g.vertexCount ∧ c.isUndirected = g.isUndirected ∧
      c.compressionLevel = max 1 (min l 64) ∧
      ∀ P' o, ∃ d, c.decompress P' o = .ok d ∧ d.vertexCount = g.vertexCount ∧ d.isUndirected = g.isUndirected := by
  obtain ⟨c, hc, hok, hu, hv, hl, _⟩ := Graph.compress_spec hg.ok P o₁ o₂ l
  refine ⟨c, hc, hv, hu, by rw [hl, clampLevel_eq], fun P' o => ?_⟩
  obtain ⟨d, hd, _, hu', hv', _⟩ := CGraph.decompress_spec hok P' o
  exact ⟨d, hd, hv'.trans hv, hu'.trans hu⟩

example : GReach exC ∧ okAnd (exC.compress exP .id .id 200) fun c => c.compressionLevel == 64 && c.vertexCount == 20 :=
  ⟨exC_reach, by decide +kernel⟩

/-! ## C22, C23 -/

/-- What the documentation promises about blocks: with at least `L` edges kept bit for bit, otherwise dropped. -/
def KeepsBlocks (g : Graph) (c : CGraph) (L : Nat) : Prop :=
  ∀ x y, (L ≤ blockCount g.doesEdgeExist 8 x y →
      ∀ i < 8, ∀ j < 8, (c.getCompressedMatrixEntry x y).testBit (8 * j + i) =
        g.doesEdgeExist (8 * x + i) (8 * y + j)) ∧
    (blockCount g.doesEdgeExist 8 x y < L → c.getCompressedMatrixEntry x y = 0)

/-- The same with a general condition. -/
theorem compress_blocks {g : Graph} (hg : g.OK) (P : Platform) (o₁ o₂ : HashOrder) (l : Nat) {c : CGraph}
    (hc : g.compress P o₁ o₂ l = .ok c) (x y : Nat) :
    (max 1 (min l 64) * (min 8 g.vertexCount * min 8 g.vertexCount) ≤ 64 * blockCount g.doesEdgeExist 8 x y →
      ∀ i < 8, ∀ j < 8, (c.getCompressedMatrixEntry x y).testBit (8 * j + i) =
        g.doesEdgeExist (8 * x + i) (8 * y + j)) ∧
    (¬ max 1 (min l 64) * (min 8 g.vertexCount * min 8 g.vertexCount) ≤ 64 * blockCount g.doesEdgeExist 8 x y →
      c.getCompressedMatrixEntry x y = 0) := by
  constructor
  · intro h i hi j hj
    have h1 := compress_edges hg P o₁ o₂ l hc (8 * x + i) (8 * y + j)
    rw [CGraph.doesEdgeExist_eq, show (8 * x + i) / 8 = x by omega, show (8 * y + j) / 8 = y by omega,
      show 8 * ((8 * y + j) % 8) + (8 * x + i) % 8 = 8 * j + i by omega] at h1
    rw [Bool.eq_iff_iff, h1]
    exact ⟨fun h => h.1, fun h' => ⟨h', h⟩⟩
  · intro h
    obtain ⟨c', hc', _, _, _, _, hat, _⟩ := Graph.compress_spec hg P o₁ o₂ l
    rw [hc] at hc'; cases hc'
    rw [CGraph.getEntry_at]
    cases he : c.at? x y with
    | none => rfl
    | some e =>
      obtain ⟨_, hk, _⟩ := (hat _ _ _).1 he
      rw [clampLevel_eq] at hk
      exact absurd hk h

/-- **C22.** With at least 8 vertices a block is kept bit for bit if it has at least `L` edges and dropped otherwise. -/
theorem C22_keeps_blocks {g : Graph} (hg : GReach g) (hn : 8 ≤ g.vertexCount) (P : Platform) (o₁ o₂ : HashOrder)
    (l : Nat) : ∃ c, g.compress P o₁ o₂ l = .ok c ∧ KeepsBlocks g c (max 1 (min l 64)) := by
  obtain ⟨c, hc, _⟩ := Graph.compress_spec hg.ok P o₁ o₂ l
  refine ⟨c, hc, fun x y => ?_⟩
  obtain ⟨h1, h2⟩ := compress_blocks hg.ok P o₁ o₂ l hc x y
  rw [min_eq_left hn] at h1 h2
  exact ⟨fun h => h1 (by omega), fun h => h2 (by omega)⟩

/-- Level 2: the block with one edge is dropped, the others are kept. -/
example : GReach exC ∧ 8 ≤ exC.vertexCount ∧ blockCount exC.doesEdgeExist 8 0 0 = 3 ∧
    blockCount exC.doesEdgeExist 8 1 0 = 2 ∧ blockCount exC.doesEdgeExist 8 2 2 = 1 ∧
    okAnd (exC.compress exP .id .rev 2) fun c => c.getCompressedMatrixEntry 2 2 == 0 &&
      c.getCompressedMatrixEntry 0 0 == 2 ^ 0 + 2 ^ 59 + 2 ^ 15 && c.getCompressedMatrixEntry 1 0 == 1 + 2 ^ 63 :=
  ⟨exC_reach, by decide +kernel, by decide +kernel, by decide +kernel, by decide +kernel, by decide +kernel⟩

/-- The full statement of C23: the documented rule also for fewer than 8 vertices. -/
def C23_full : Prop :=
  ∀ (g : Graph), GReach g → g.vertexCount < 8 → ∀ (P : Platform) (o₁ o₂ : HashOrder) (l : Nat) (c : CGraph),
    g.compress P o₁ o₂ l = .ok c → KeepsBlocks g c (max 1 (min l 64))

/-- **C23 is false**: the single edge of a graph with two vertices survives level 16, the documentation says that 16
edges are needed. -/
theorem C23_full_false : ¬ C23_full := by
  intro h
  obtain ⟨c, hc, hx⟩ := okAnd_elim (show okAnd ((Graph.newDirected.addEdge 0 1).compress exP .id .id 16)
    (fun c => c.getCompressedMatrixEntry 0 0 == 2 ^ 8) = true by decide +kernel)
  have := (h _ (.addEdge 0 1 .newDirected) (by decide) exP .id .id 16 c hc 0 0).2 (by decide +kernel)
  rw [this] at hx
  simp at hx

/-- **C23, what the code does** (`C23_full` is false): with `n < 8` vertices the block is kept bit for bit iff
`L * n^2 ≤ 64 * (number of edges)`, otherwise dropped; so levels may keep blocks with fewer edges than documented,
but never drop a block with at least `L` edges. -/
theorem C23_tiny_graphs_partial {g : Graph} (hg : GReach g) (hn : g.vertexCount < 8) (P : Platform)
    (o₁ o₂ : HashOrder) (l : Nat) :
    ∃ c, g.compress P o₁ o₂ l = .ok c ∧
      (max 1 (min l 64) * g.vertexCount ^ 2 ≤ 64 * g.edgeCount → ∀ u v, c.doesEdgeExist u v = g.doesEdgeExist u v) ∧
      (¬ max 1 (min l 64) * g.vertexCount ^ 2 ≤ 64 * g.edgeCount → ∀ u v, c.doesEdgeExist u v = false) ∧
      (max 1 (min l 64) ≤ g.edgeCount → ∀ u v, c.doesEdgeExist u v = g.doesEdgeExist u v) := by
  obtain ⟨c, hc, _⟩ := Graph.compress_spec hg.ok P o₁ o₂ l
  obtain ⟨hec, hrange⟩ := C02_edge_count_exact hg
  have hcnt : blockCount g.doesEdgeExist 8 0 0 = g.edgeCount := by
    rw [hec]
    unfold blockCount
    congr 1
    ext ⟨i, j⟩
    simp only [Finset.mem_filter, Finset.mem_product, Finset.mem_range, Nat.zero_mul, Nat.zero_add]
    constructor
    · rintro ⟨_, h⟩; exact ⟨hrange i j h, h⟩
    · rintro ⟨h, h'⟩; exact ⟨⟨by omega, by omega⟩, h'⟩
  have hedge := compress_edges hg.ok P o₁ o₂ l hc
  have hmin : min 8 g.vertexCount * min 8 g.vertexCount = g.vertexCount ^ 2 := by
    rw [min_eq_right (by omega), sq]
  rw [hmin] at hedge
  have hsame : max 1 (min l 64) * g.vertexCount ^ 2 ≤ 64 * g.edgeCount →
      ∀ u v, c.doesEdgeExist u v = g.doesEdgeExist u v := by
    intro h u v
    rw [Bool.eq_iff_iff, hedge]
    refine ⟨fun h => h.1, fun h' => ⟨h', ?_⟩⟩
    have := hrange u v h'
    rw [show u / 8 = 0 by omega, show v / 8 = 0 by omega, hcnt]; exact h
  refine ⟨c, hc, hsame, ?_, ?_⟩
  · intro h u v
    by_contra hne
    obtain ⟨h1, h2⟩ := (hedge u v).1 (by simpa using hne)
    have := hrange u v h1
    rw [show u / 8 = 0 by omega, show v / 8 = 0 by omega, hcnt] at h2
    exact h h2
  · intro h
    apply hsame
    have h49 : g.vertexCount ^ 2 ≤ 64 := by
      have : g.vertexCount ≤ 7 := by omega
      calc g.vertexCount ^ 2 ≤ 7 ^ 2 := Nat.pow_le_pow_left this 2
        _ ≤ 64 := by norm_num
    calc max 1 (min l 64) * g.vertexCount ^ 2 ≤ g.edgeCount * 64 := Nat.mul_le_mul h h49
      _ = 64 * g.edgeCount := by ring

/-- Three vertices, five entries: level 35 keeps everything, level 36 nothing. -/
example : GReach exU ∧ exU.vertexCount = 3 ∧ exU.edgeCount = 5 ∧
    okAnd (exU.compress exP .id .id 35) (fun c => c.edgeCount == 5) ∧
    okAnd (exU.compress exP .id .id 36) (fun c => c.edgeCount == 0) :=
  ⟨exU_reach, by decide, by decide, by decide +kernel, by decide +kernel⟩

/-! ## C24 -/

/-- **C24.** The bits of a compressed entry are the edges of the compressed graph; there are no other bits. -/
theorem C24_bit_layout {c : CGraph} (hc : CReach c) :
    (∀ u v, c.doesEdgeExist u v = (c.getCompressedMatrixEntry (u / 8) (v / 8)).testBit (8 * (v % 8) + u % 8)) ∧
    ∀ x y, c.getCompressedMatrixEntry x y < 2 ^ 64 := by
  refine ⟨c.doesEdgeExist_eq, fun x y => ?_⟩
  rw [CGraph.getEntry_at]
  cases h : c.at? x y with
  | none => simp
  | some e => exact (hc.ok.word x y e h).2

/-- **C24**, second half: compression invents no edges. -/
theorem C24_compressed_subset {g : Graph} (hg : GReach g) (P : Platform) (o₁ o₂ : HashOrder) (l : Nat) {c : CGraph}
    (hc : g.compress P o₁ o₂ l = .ok c) (u v : Nat) (h : c.doesEdgeExist u v = true) : g.doesEdgeExist u v = true :=
  ((compress_edges hg.ok P o₁ o₂ l hc u v).1 h).1

example : ∃ c, CReach c ∧ c.doesEdgeExist 3 7 = true ∧ c.doesEdgeExist 7 3 = false := by
  obtain ⟨c, hc, h⟩ := okAnd_elim (show okAnd (exC.compress exP .id .id 1)
    (fun c => c.doesEdgeExist 3 7 && !c.doesEdgeExist 7 3) = true by decide +kernel)
  simp only [Bool.and_eq_true, Bool.not_eq_true'] at h
  exact ⟨c, .compress _ _ _ _ exC_reach hc, h.1, h.2⟩

/-! ## C27 -/

/-- **C27.** Decompression gives the edges reported by the compressed graph. -/
theorem C27_decompress_agrees {c : CGraph} (hc : CReach c) (P : Platform) (o : HashOrder)
    (hs : c.isUndirected = true → ∀ u v, c.doesEdgeExist u v = c.doesEdgeExist v u) :
    ∃ d, c.decompress P o = .ok d ∧ ∀ u v, d.doesEdgeExist u v = c.doesEdgeExist u v := by
  obtain ⟨d, hd, _, _, _, he⟩ := CGraph.decompress_spec hc.ok P o
  refine ⟨d, hd, fun u v => ?_⟩
  rw [Bool.eq_iff_iff, he]
  constructor
  · rintro (h | ⟨h, h'⟩)
    · exact h
    · rw [hs h]; exact h'
  · exact .inl

/-! ## C30 -/

/-- **C30.** Compressing an undirected graph gives a symmetric compressed graph. -/
theorem C30_compress_symmetric {g : Graph} (hg : GReach g) (hu : g.isUndirected = true) (P : Platform)
    (o₁ o₂ : HashOrder) (l : Nat) {c : CGraph} (hc : g.compress P o₁ o₂ l = .ok c) (u v : Nat) :
    c.doesEdgeExist u v = c.doesEdgeExist v u := by
  rw [Bool.eq_iff_iff, compress_edges hg.ok P o₁ o₂ l hc, compress_edges hg.ok P o₁ o₂ l hc,
    Graph.edge_symm hg.ok hu u v, Graph.blockCount_symm (Graph.edge_symm hg.ok hu)]

/-- **C27** for results of `compress`: no symmetry needs to be assumed. -/
theorem C27_decompress_compressed {g : Graph} (hg : GReach g) (P P' : Platform) (o₁ o₂ o : HashOrder) (l : Nat)
    {c : CGraph} (hc : g.compress P o₁ o₂ l = .ok c) :
    ∃ d, c.decompress P' o = .ok d ∧ ∀ u v, d.doesEdgeExist u v = c.doesEdgeExist u v := by
  have hu : c.isUndirected = g.isUndirected := by
    obtain ⟨c', hc', _, hu, _⟩ := C26_compression_metadata hg P o₁ o₂ l
    rw [hc] at hc'; cases hc'; exact hu
  exact C27_decompress_agrees (.compress _ _ _ _ hg hc) P' o fun h u v =>
    C30_compress_symmetric hg (hu ▸ h) P o₁ o₂ l hc u v

/-- An undirected graph with edges in two mirrored blocks. -/
def exCU : Graph := ((Graph.newUndirected.addEdge 2 9).addEdge 3 9).addEdge 11 0
theorem exCU_reach : GReach exCU := .addEdge _ _ (.addEdge _ _ (.addEdge _ _ .newUndirected))

example : GReach exCU ∧ exCU.isUndirected = true ∧ okAnd (exCU.compress exP .id .id 3) fun c =>
    c.doesEdgeExist 2 9 && c.doesEdgeExist 9 2 && okAnd (c.decompress exP .rev) fun d => d.edgeCount == 6 :=
  ⟨exCU_reach, rfl, by decide +kernel⟩

/-! ## C25 -/

/-- **C25.** `edge_count` of a compressed graph. (In the code `g.edge_count()` is a `u64`.) -/
theorem C25_edge_count_exact {g : Graph} (hg : GReach g) (hE : g.edgeCount ≤ U64_MAX) (P : Platform)
    (o₁ o₂ : HashOrder) (l : Nat) {c : CGraph} (hc : g.compress P o₁ o₂ l = .ok c) :
    c.edgeCount = ((Finset.range c.vertexCount ×ˢ Finset.range c.vertexCount).filter
      fun p => c.doesEdgeExist p.1 p.2 = true).card ∧
    (∀ u v, c.doesEdgeExist u v = true → u < c.vertexCount ∧ v < c.vertexCount) ∧
    c.edgeCount ≤ g.edgeCount ∧ (l ≤ 1 → c.edgeCount = g.edgeCount) ∧
    ∀ P' o, ∃ d, c.decompress P' o = .ok d ∧ d.edgeCount = c.edgeCount := by
  obtain ⟨c', hc', hok, _, hv, _, _, hec⟩ := Graph.compress_spec hg.ok P o₁ o₂ l
  rw [hc] at hc'; cases hc'
  obtain ⟨gec, _⟩ := C02_edge_count_exact hg
  have hedge := compress_edges hg.ok P o₁ o₂ l hc
  have hle : c.pairs.card ≤ g.edgeCount := by
    rw [gec]
    apply Finset.card_le_card
    unfold CGraph.pairs
    rw [hv]
    intro p hp
    rw [Finset.mem_filter] at hp ⊢
    exact ⟨hp.1, ((hedge _ _).1 hp.2).1⟩
  have hcard : c.edgeCount = c.pairs.card := by rw [hec]; omega
  refine ⟨hcard, hok.range, by rw [hcard]; exact hle, ?_, ?_⟩
  · intro hl
    rw [hcard, gec]
    unfold CGraph.pairs
    rw [hv]
    congr 1
    apply Finset.filter_congr
    rintro ⟨u, v⟩ _
    rw [hedge]
    refine ⟨fun h => h.1, fun h => ⟨h, ?_⟩⟩
    have h1 := blockCount_pos h
    have h2 := min_sq_le g.vertexCount
    rw [show max 1 (min l 64) = 1 by omega]
    simp only at h1 h2 ⊢
    omega
  · intro P' o
    obtain ⟨d, hd, hde⟩ := C27_decompress_compressed hg P P' o₁ o₂ o l hc
    refine ⟨d, hd, ?_⟩
    obtain ⟨d', hd', hdok, _, hdv, _⟩ := CGraph.decompress_spec hok P' o
    rw [hd] at hd'; cases hd'
    have hdec := (C02_edge_count_exact (GReach.decompress P' o (.compress _ _ _ _ hg hc) hd)).1
    rw [hdec, hcard]
    unfold CGraph.pairs
    rw [hdv]
    simp only [hde]

example : GReach exC ∧ exC.edgeCount ≤ U64_MAX ∧ exC.edgeCount = 6 ∧
    okAnd (exC.compress exP .id .id 2) (fun c => c.edgeCount == 5) :=
  ⟨exC_reach, by decide +kernel, by decide +kernel, by decide +kernel⟩

/-! ## C21 -/

/-- **C21.** Compression at level 0 or 1 followed by decompression gives back the graph. -/
theorem C21_level_one_lossless {g : Graph} (hg : GReach g) (P P' : Platform) (o₁ o₂ o : HashOrder) {l : Nat}
    (hl : l ≤ 1) : ∃ c d, g.compress P o₁ o₂ l = .ok c ∧ c.decompress P' o = .ok d ∧ Same d g := by
  obtain ⟨c, hc, hv, hu, _⟩ := C26_compression_metadata hg P o₁ o₂ l
  obtain ⟨d, hd, he⟩ := C27_decompress_compressed hg P P' o₁ o₂ o l hc
  refine ⟨c, d, hc, hd, ?_⟩
  obtain ⟨d', hd', hdok, hdu, hdv, _⟩ := CGraph.decompress_spec (CReach.compress _ _ _ _ hg hc).ok P' o
  rw [hd] at hd'; cases hd'
  refine Graph.same hdok hg.ok (hdu.trans hu) (hdv.trans hv) ?_
  ext ⟨u, v⟩
  rw [← Graph.doesEdgeExist_iff, ← Graph.doesEdgeExist_iff, he, compress_edges hg.ok P o₁ o₂ l hc]
  refine ⟨fun h => h.1, fun h => ⟨h, ?_⟩⟩
  have h1 := blockCount_pos h
  have h2 := min_sq_le g.vertexCount
  rw [show max 1 (min l 64) = 1 by omega]
  omega

example : GReach exC ∧ okAnd (exC.compress exP .id .id 0) fun c => okAnd (c.decompress exP .rev) fun d =>
    d.edgeCount == 6 && d.vertexCount == 20 && d.doesEdgeExist 19 18 :=
  ⟨exC_reach, by decide +kernel⟩

/-! ## C28, C29 -/

/-- **C28.** A higher level keeps fewer edges. -/
theorem C28_monotone_level {g : Graph} (hg : GReach g) (P P' : Platform) (o₁ o₂ o₁' o₂' : HashOrder) {l l' : Nat}
    (hl : l ≤ l') {c c' : CGraph} (hc : g.compress P o₁ o₂ l = .ok c) (hc' : g.compress P' o₁' o₂' l' = .ok c')
    (u v : Nat) (h : c'.doesEdgeExist u v = true) : c.doesEdgeExist u v = true := by
  rw [compress_edges hg.ok _ _ _ _ hc'] at h
  rw [compress_edges hg.ok _ _ _ _ hc]
  refine ⟨h.1, le_trans (Nat.mul_le_mul_right _ ?_) h.2⟩
  omega

example : okAnd (exC.compress exP .id .id 2) (fun c => okAnd (exC.compress exP .id .id 3) fun c' =>
    c.doesEdgeExist 8 0 && !c'.doesEdgeExist 8 0 && c'.doesEdgeExist 3 7) := by decide +kernel

/-- **C29.** Compressing the decompressed graph again at the same level changes nothing. -/
theorem C29_recompress_stable {g : Graph} (hg : GReach g) (P P' P'' : Platform) (o₁ o₂ o o₁' o₂' : HashOrder)
    (l : Nat) {c : CGraph} {d : Graph} (hc : g.compress P o₁ o₂ l = .ok c) (hd : c.decompress P' o = .ok d) :
    ∃ c', d.compress P'' o₁' o₂' l = .ok c' ∧ c'.vertexCount = c.vertexCount ∧ c'.isUndirected = c.isUndirected ∧
      c'.compressionLevel = c.compressionLevel ∧
      ∀ x y, c'.getCompressedMatrixEntry x y = c.getCompressedMatrixEntry x y := by
  have hcr : CReach c := .compress _ _ _ _ hg hc
  have hdr : GReach d := .decompress _ _ hcr hd
  obtain ⟨cc, hcc, cv, cu, cl, _⟩ := C26_compression_metadata hg P o₁ o₂ l
  rw [hc] at hcc; cases hcc
  obtain ⟨c', hc', v', u', l', _⟩ := C26_compression_metadata hdr P'' o₁' o₂' l
  obtain ⟨d', hd', _, du, dv, _⟩ := CGraph.decompress_spec hcr.ok P' o
  rw [hd] at hd'; cases hd'
  obtain ⟨d', hd', de⟩ := C27_decompress_compressed hg P P' o₁ o₂ o l hc
  rw [hd] at hd'; cases hd'
  refine ⟨c', hc', v'.trans dv, u'.trans du, l'.trans cl.symm, ?_⟩
  have hdv : d.vertexCount = g.vertexCount := dv.trans cv
  have key : ∀ u v, c'.doesEdgeExist u v = c.doesEdgeExist u v := by
    intro u v
    rw [Bool.eq_iff_iff, compress_edges hdr.ok _ _ _ _ hc', de, hdv]
    refine ⟨fun h => h.1, fun h => ⟨h, ?_⟩⟩
    have hk := (compress_edges hg.ok _ _ _ _ hc u v).1 h
    refine hk.2.trans (Nat.mul_le_mul_left _ ?_)
    unfold blockCount
    apply Finset.card_le_card
    intro p hp
    rw [Finset.mem_filter] at hp ⊢
    refine ⟨hp.1, ?_⟩
    rw [de, compress_edges hg.ok _ _ _ _ hc]
    have hb := hp.1
    rw [Finset.mem_product, Finset.mem_range, Finset.mem_range] at hb
    refine ⟨hp.2, ?_⟩
    rw [show (u / 8 * 8 + p.1) / 8 = u / 8 by omega, show (v / 8 * 8 + p.2) / 8 = v / 8 by omega]
    exact hk.2
  intro x y
  apply Nat.eq_of_testBit_eq
  intro j
  by_cases hj : j < 64
  · rw [← CGraph.doesEdgeExist_block _ _ _ _ hj, ← CGraph.doesEdgeExist_block _ _ _ _ hj, key]
  · have h1 := (C24_bit_layout (CReach.compress _ _ _ _ hdr hc')).2 x y
    have h2 := (C24_bit_layout hcr).2 x y
    have hp : 2 ^ 64 ≤ 2 ^ j := Nat.pow_le_pow_right (by norm_num) (by omega)
    rw [Nat.testBit_lt_two_pow (lt_of_lt_of_le h1 hp), Nat.testBit_lt_two_pow (lt_of_lt_of_le h2 hp)]

example : GReach exC ∧ okAnd (exC.compress exP .id .id 2) fun c => okAnd (c.decompress exP .rev) fun d =>
    d.edgeCount == 5 && okAnd (d.compress exP .id .id 2) fun c' => c'.edgeCount == 5 :=
  ⟨exC_reach, by decide +kernel⟩

/-! ## C47 -/

/-- **C47.** `approximate(8, L/64)` has an edge exactly where `compress(L)` stores a block. -/
theorem C47_compress_agrees_approximate {g : Graph} (hg : GReach g) (hn : 8 ≤ g.vertexCount) (P P' : Platform)
    (o₁ o₂ o₁' o₂' : HashOrder) {L : Nat} (h1 : 1 ≤ L) (h64 : L ≤ 64) :
    ∃ a c, g.approximate P o₁ o₂ 8 (.fin ((L : ℚ) / 64)) = .ok a ∧ g.compress P' o₁' o₂' L = .ok c ∧
      ∀ x y, a.doesEdgeExist x y = true ↔ c.getCompressedMatrixEntry x y ≠ 0 := by
  obtain ⟨a, ha, hae⟩ := approx_edges hg P o₁ o₂ (.fin ((L : ℚ) / 64)) (by norm_num : 2 ≤ 8) (by omega)
    (by rw [min_eq_left hn]; norm_num)
  obtain ⟨c, hc, hok, _, _, _, hat, _⟩ := Graph.compress_spec hg.ok P' o₁' o₂' L
  refine ⟨a, c, ha, hc, fun x y => ?_⟩
  rw [hae, min_eq_left hn]
  have hL : (1 : ℚ) ≤ L := by exact_mod_cast h1
  have hL' : (L : ℚ) ≤ 64 := by exact_mod_cast h64
  have heff : effThreshold (.fin ((L : ℚ) / 64)) = .fin ((L : ℚ) / 64) := by
    unfold effThreshold
    simp only
    rw [if_neg (by rw [not_lt, div_le_one (by norm_num)]; exact hL'),
      if_neg (by rw [not_le]; apply div_pos <;> linarith)]
  have hcnt : blockCount g.doesEdgeExist 8 x y ≤ 64 := by
    have := Graph.blockCount_le g.doesEdgeExist 8 x y; omega
  rw [heff, F64_le_fin, show 8 * 8 = 2 ^ 6 from rfl, F64.poolQ_pow2 (by norm_num) (hcnt.trans (by norm_num)),
    show ((2 : ℚ) ^ 6) = 64 by norm_num, div_le_div_iff_of_pos_right (by norm_num), Nat.cast_le]
  rw [CGraph.getEntry_at]
  have hkept : Graph.Kept g.vertexCount (clampCompressionLevel L) (blockCount g.doesEdgeExist 8 x y) ↔
      L ≤ blockCount g.doesEdgeExist 8 x y := by
    unfold Graph.Kept
    rw [CGraph.clampLevel_id ⟨h1, h64⟩, min_eq_left hn]; omega
  constructor
  · rintro ⟨h0, hk⟩
    have := (hat x y _).2 ⟨h0, hkept.2 hk, rfl⟩
    rw [this]
    exact (hok.word _ _ _ this).1
  · intro h
    cases he : c.at? x y with
    | none => rw [he] at h; simp at h
    | some e =>
      obtain ⟨h0, hk, _⟩ := (hat x y e).1 he
      exact ⟨h0, hkept.1 hk⟩

example : GReach exC ∧ 8 ≤ exC.vertexCount ∧ okAnd (exC.approximate exP .id .id 8 (.fin ((2 : ℕ) / 64 : ℚ))) fun a =>
    a.doesEdgeExist 1 0 && !a.doesEdgeExist 2 2 :=
  ⟨exC_reach, by decide +kernel, by decide +kernel⟩

/-! ## C65 -/

/-- Adding blocks `(entry, col, row, weight)` with the builder, in order. -/
def buildWith (g : CGraph) (l : List (Nat × Nat × Nat × Option Nat)) : CGraph :=
  l.foldl (fun g e => g.builderAdd e.1 e.2.1 e.2.2.1 e.2.2.2) g

theorem buildWith_eq (g : CGraph) (l : List (Nat × Nat × Nat × Option Nat))
    (hw : ∀ e ∈ l, e.2.2.2 = none ∨ e.2.2.2 = some (ones e.1)) :
    buildWith g l = g.addBlocks (l.map fun e => (e.1, e.2.1, e.2.2.1)) := by
  induction l generalizing g with
  | nil => rfl
  | cons e l ih =>
    rw [List.map_cons, CGraph.addBlocks_cons, ← ih _ (fun e' he' => hw e' (by simp [he']))]
    have : g.builderAdd e.1 e.2.1 e.2.2.1 e.2.2.2 = g.builderAdd e.1 e.2.1 e.2.2.1 (some (popCount e.1)) := by
      rcases hw e (by simp) with h | h
      · rw [h]; rfl
      · rw [h, ones_eq]
    change buildWith (g.builderAdd e.1 e.2.1 e.2.2.1 e.2.2.2) l = _
    rw [this]

theorem builder_nonzero (u : Bool) {n : Nat} (hn : n ≤ U64_MAX) (lv : Nat) (l : List (Nat × Nat × Nat × Option Nat))
    (hw : ∀ e ∈ l, e.2.2.2 = none ∨ e.2.2.2 = some (ones e.1))
    (hword : ∀ e ∈ l, e.1 ≠ 0 ∧ e.1 < 2 ^ 64)
    (hin : ∀ e ∈ l, ∀ s t, blockEdge (e.1, e.2.1, e.2.2.1) s t → s < n ∧ t < n)
    (hd : (l.map fun e => (e.2.1, e.2.2.1)).Nodup) (hE : (l.map fun e => ones e.1).sum ≤ U64_MAX) :
    (CGraph.builderNew u n lv).adjacencyMatrix.dimension = max 1 (ceilDiv n 8) ∧
    (buildWith (CGraph.builderNew u n lv) l).edgeCount = (l.map fun e => ones e.1).sum ∧
    (buildWith (CGraph.builderNew u n lv) l).edgeCount = ((Finset.range n ×ˢ Finset.range n).filter
      fun p => (buildWith (CGraph.builderNew u n lv) l).doesEdgeExist p.1 p.2 = true).card ∧
    (∀ e ∈ l, (buildWith (CGraph.builderNew u n lv) l).getCompressedMatrixEntry e.2.1 e.2.2.1 = e.1) ∧
    (∀ x y, (∀ e ∈ l, (e.2.1, e.2.2.1) ≠ (x, y)) →
      (buildWith (CGraph.builderNew u n lv) l).getCompressedMatrixEntry x y = 0) ∧
    ∀ s t, (buildWith (CGraph.builderNew u n lv) l).doesEdgeExist s t = true ↔
      ∃ e ∈ l, blockEdge (e.1, e.2.1, e.2.2.1) s t := by
  obtain ⟨b1, b2, b3⟩ := CGraph.builderNew_at u hn lv
  rw [buildWith_eq _ _ hw]
  generalize hl' : (l.map fun e => (e.1, e.2.1, e.2.2.1)) = l'
  have hmem : ∀ e, e ∈ l' ↔ ∃ x ∈ l, (x.1, x.2.1, x.2.2.1) = e := by
    intro e; rw [← hl', List.mem_map]
  have hgood : ∀ e ∈ l', CGraph.Good (compressedMatrixDimension n) n e := by
    intro e he
    obtain ⟨x, hx, rfl⟩ := (hmem e).1 he
    exact (CGraph.good_iff (hword x hx).2).2 ⟨(hword x hx).1, CGraph.bitsIn_iff.2 (hin x hx)⟩
  have hfit : ∀ e ∈ l', CGraph.Fits (compressedMatrixDimension n) e := fun e he => (hgood e he).1
  have hd' : (l'.map fun e => (e.2.1, e.2.2)).Nodup := by
    rw [← hl', List.map_map]; exact hd
  have hat := fun c r x => CGraph.addBlocks_new_at (u := u) (lv := lv) hn hfit hd' c r x
  obtain ⟨a1, a2, _⟩ := CGraph.addBlocks_matrix b3 l' (by rw [b2]; exact hfit)
  have hsum : (l'.map fun e => popCount e.1).sum = (l.map fun e => ones e.1).sum := by
    rw [← hl', List.map_map]
    congr 1
    apply List.map_congr_left
    intro e _
    rw [ones_eq]; rfl
  have hec : ((CGraph.builderNew u n lv).addBlocks l').edgeCount = (l.map fun e => ones e.1).sum := by
    rw [CGraph.addBlocks_edgeCount (Nat.zero_le _), hsum]
    have : (CGraph.builderNew u n lv).edgeCount = 0 := rfl
    rw [this]; omega
  have hvc : ((CGraph.builderNew u n lv).addBlocks l').vertexCount = n := by
    rw [CGraph.addBlocks_vertexCount]; rfl
  have hedge : ∀ s t, ((CGraph.builderNew u n lv).addBlocks l').doesEdgeExist s t = true ↔
      ∃ e ∈ l, blockEdge (e.1, e.2.1, e.2.2.1) s t := by
    intro s t
    rw [CGraph.doesEdgeExist_iff]
    constructor
    · rintro ⟨e, he, hb⟩
      obtain ⟨x, hx, heq⟩ := (hmem _).1 ((hat _ _ _).1 he)
      refine ⟨x, hx, ?_⟩
      rw [heq]; exact ⟨rfl, rfl, hb⟩
    · rintro ⟨e, he, h1, h2, h3⟩
      simp only at h1 h2 h3
      exact ⟨e.1, by rw [hat, hmem]; exact ⟨e, he, by rw [h1, h2]⟩, h3⟩
  have hOK : ((CGraph.builderNew u n lv).addBlocks l').OK := by
    refine ⟨a1, by rw [hvc]; exact a2.trans b2, ?_, ?_, ?_, by rw [hvc]; exact hn, by rw [hec]; exact hE⟩
    · intro c r e he
      obtain ⟨x, hx, heq⟩ := (hmem _).1 ((hat _ _ _).1 he)
      simp only [Prod.mk.injEq] at heq
      rw [← heq.1]; exact hword x hx
    · intro s t h
      rw [hvc]
      obtain ⟨e, he, hb⟩ := (hedge s t).1 h
      exact hin e he s t hb
    · rw [CGraph.addBlocks_level]; exact Graph.clampLevel_bounds lv
  refine ⟨b2.trans CGraph.dim_eq_ceil, hec, ?_, ?_, ?_, hedge⟩
  · have h1 := CGraph.sum_keys hOK
    rw [← CGraph.sum_items hOK.wf HashOrder.id] at h1
    rw [hec, ← hsum]
    have h2 : ((CGraph.builderNew u n lv).addBlocks l').pairs = (Finset.range n ×ˢ Finset.range n).filter
        fun p => ((CGraph.builderNew u n lv).addBlocks l').doesEdgeExist p.1 p.2 = true := by
      unfold CGraph.pairs; rw [hvc]
    rw [← h2, ← h1]
    apply List.Perm.sum_eq
    apply List.Perm.map
    rw [List.perm_ext_iff_of_nodup]
    · rintro ⟨e, c, r⟩
      rw [SqMatrix.mem_items hOK.wf]
      exact (hat c r e).symm
    · exact List.Nodup.of_map _ hd'
    · exact List.Nodup.of_map _ (SqMatrix.items_keys_nodup hOK.wf HashOrder.id)
  · intro e he
    rw [CGraph.getEntry_at, (hat e.2.1 e.2.2.1 e.1).2 ((hmem _).2 ⟨e, he, rfl⟩)]; rfl
  · intro x y hne
    rw [CGraph.getEntry_at]
    cases h : ((CGraph.builderNew u n lv).addBlocks l').at? x y with
    | none => rfl
    | some e =>
      exfalso
      obtain ⟨z, hz, heq⟩ := (hmem _).1 ((hat _ _ _).1 h)
      simp only [Prod.mk.injEq] at heq
      exact hne z hz (by rw [heq.2.1, heq.2.2])

theorem saturatingAdd_le (a b : Nat) : saturatingAdd a b ≤ U64_MAX := by
  unfold saturatingAdd; split <;> omega

theorem buildWith_filter {g : CGraph} (hU : g.adjacencyMatrix.dimension ≤ U64_MAX) (hE : g.edgeCount ≤ U64_MAX)
    (l : List (Nat × Nat × Nat × Option Nat))
    (hw : ∀ e ∈ l, e.2.2.2 = none ∨ e.2.2.2 = some (ones e.1))
    (hd : ∀ e ∈ l, e.2.1 < g.adjacencyMatrix.dimension ∧ e.2.2.1 < g.adjacencyMatrix.dimension) :
    buildWith g l = buildWith g (l.filter fun e => e.1 ≠ 0) := by
  induction l generalizing g with
  | nil => rfl
  | cons e l ih =>
    have he := hd e (by simp)
    by_cases h0 : e.1 = 0
    · have hb : g.builderAdd e.1 e.2.1 e.2.2.1 e.2.2.2 = g := by
        have hz : u64Fmt.toNumeric.eq 0 u64Fmt.toNumeric.zero = true := rfl
        have hm := SqMatrix.setEntry_zero (m := g.adjacencyMatrix) (show e.2.1 < U64_MAX by omega)
          (show e.2.2.1 < U64_MAX by omega) hz
        have hp : popCount 0 = 0 := by decide
        have hs : saturatingAdd g.edgeCount 0 = g.edgeCount := by unfold saturatingAdd; rw [if_pos (by omega)]; rfl
        have hm' : g.adjacencyMatrix.setEntry u64Fmt.toNumeric 0 e.2.1 e.2.2.1 = g.adjacencyMatrix := by
          rw [hm, show max g.adjacencyMatrix.dimension (max (e.2.1 + 1) (e.2.2.1 + 1)) =
            g.adjacencyMatrix.dimension by omega]
        rw [h0]
        rcases hw e (by simp) with h | h
        · rw [h]; unfold CGraph.builderAdd; simp only [hp, hs, hm']
        · rw [h, h0, ones_eq, hp]; unfold CGraph.builderAdd; simp only [hs, hm']
      rw [List.filter_cons_of_neg (by simp [h0])]
      change buildWith (g.builderAdd e.1 e.2.1 e.2.2.1 e.2.2.2) l = _
      rw [hb]
      exact ih hU hE (fun e' h => hw e' (by simp [h])) (fun e' h => hd e' (by simp [h]))
    · rw [List.filter_cons_of_pos (by simp [h0])]
      change buildWith (g.builderAdd e.1 e.2.1 e.2.2.1 e.2.2.2) l =
        buildWith (g.builderAdd e.1 e.2.1 e.2.2.1 e.2.2.2) _
      have hdim : (g.builderAdd e.1 e.2.1 e.2.2.1 e.2.2.2).adjacencyMatrix.dimension = g.adjacencyMatrix.dimension := by
        change (g.adjacencyMatrix.setEntry u64Fmt.toNumeric e.1 e.2.1 e.2.2.1).dimension = _
        rw [SqMatrix.setEntry_dimension (by omega) (by omega)]; omega
      refine ih (by rw [hdim]; exact hU) ?_ (fun e' h => hw e' (by simp [h]))
        (fun e' h => by rw [hdim]; exact hd e' (by simp [h]))
      exact saturatingAdd_le _ _

/-- **C65.** The builder: dimension of a fresh builder, and the result of adding distinct blocks (zero or not). -/
theorem C65_builder (u : Bool) {n : Nat} (hn : n ≤ U64_MAX) (lv : Nat) (l : List (Nat × Nat × Nat × Option Nat))
    (hw : ∀ e ∈ l, e.2.2.2 = none ∨ e.2.2.2 = some (ones e.1))
    (hword : ∀ e ∈ l, e.1 < 2 ^ 64)
    (hpos : ∀ e ∈ l, e.2.1 < max 1 (ceilDiv n 8) ∧ e.2.2.1 < max 1 (ceilDiv n 8))
    (hin : ∀ e ∈ l, ∀ s t, blockEdge (e.1, e.2.1, e.2.2.1) s t → s < n ∧ t < n)
    (hd : (l.map fun e => (e.2.1, e.2.2.1)).Nodup) (hE : (l.map fun e => ones e.1).sum ≤ U64_MAX) :
    (CGraph.builderNew u n lv).adjacencyMatrix.dimension = max 1 (ceilDiv n 8) ∧
    (buildWith (CGraph.builderNew u n lv) l).edgeCount = (l.map fun e => ones e.1).sum ∧
    (buildWith (CGraph.builderNew u n lv) l).edgeCount = ((Finset.range n ×ˢ Finset.range n).filter
      fun p => (buildWith (CGraph.builderNew u n lv) l).doesEdgeExist p.1 p.2 = true).card ∧
    (∀ e ∈ l, (buildWith (CGraph.builderNew u n lv) l).getCompressedMatrixEntry e.2.1 e.2.2.1 = e.1) ∧
    (∀ x y, (∀ e ∈ l, (e.2.1, e.2.2.1) ≠ (x, y)) →
      (buildWith (CGraph.builderNew u n lv) l).getCompressedMatrixEntry x y = 0) ∧
    ∀ s t, (buildWith (CGraph.builderNew u n lv) l).doesEdgeExist s t = true ↔
      ∃ e ∈ l, blockEdge (e.1, e.2.1, e.2.2.1) s t := by
  obtain ⟨_, b2, b3⟩ := CGraph.builderNew_at u hn lv
  have hf := buildWith_filter (g := CGraph.builderNew u n lv) b3.dim (Nat.zero_le _) l hw
    (by rw [b2, CGraph.dim_eq_ceil]; exact hpos)
  have hsub : ∀ e, e ∈ l.filter (fun e => e.1 ≠ 0) → e ∈ l := fun e he => (List.mem_filter.1 he).1
  have hsum : ((l.filter fun e => e.1 ≠ 0).map fun e => ones e.1).sum = (l.map fun e => ones e.1).sum := by
    clear hf hE hd hin hpos hword hw hsub
    induction l with
    | nil => rfl
    | cons e l ih =>
      by_cases h0 : e.1 = 0
      · rw [List.filter_cons_of_neg (by simp [h0]), ih, List.map_cons, List.sum_cons, h0]
        have : ones 0 = 0 := by decide
        omega
      · rw [List.filter_cons_of_pos (by simp [h0]), List.map_cons, List.sum_cons, ih, List.map_cons, List.sum_cons]
  obtain ⟨r1, r2, r3, r4, r5, r6⟩ := builder_nonzero u hn lv (l.filter fun e => e.1 ≠ 0)
    (fun e he => hw e (hsub e he)) (fun e he => ⟨by simpa using (List.mem_filter.1 he).2, hword e (hsub e he)⟩)
    (fun e he => hin e (hsub e he)) (hd.sublist (List.Sublist.map _ List.filter_sublist)) (by rw [hsum]; exact hE)
  rw [hf]
  refine ⟨r1, by rw [r2, hsum], r3, ?_, ?_, ?_⟩
  · intro e he
    by_cases h0 : e.1 = 0
    · rw [h0]
      apply r5
      intro e' he' heq
      have := List.inj_on_of_nodup_map hd (hsub e' he') he heq
      rw [this] at he'
      have h1 := (List.mem_filter.1 he').2
      simp [h0] at h1
    · exact r4 e (List.mem_filter.2 ⟨he, by simpa using h0⟩)
  · intro x y h
    exact r5 x y fun e he => h e (hsub e he)
  · intro s t
    rw [r6]
    constructor
    · rintro ⟨e, he, hb⟩; exact ⟨e, hsub e he, hb⟩
    · rintro ⟨e, he, hb⟩
      refine ⟨e, List.mem_filter.2 ⟨he, ?_⟩, hb⟩
      have hb2 := hb.2.2
      simp only [ne_eq, decide_not, Bool.not_eq_true', decide_eq_false_iff_not]
      intro h0
      simp only [h0, Nat.zero_testBit] at hb2
      cases hb2

/-- Two blocks of a graph with ten vertices. -/
example : (buildWith (CGraph.builderNew false 10 5) [(2 ^ 9 + 1, 0, 1, none), (1, 1, 1, some 1)]).edgeCount = 3 ∧
    (buildWith (CGraph.builderNew false 10 5) [(2 ^ 9 + 1, 0, 1, none), (1, 1, 1, some 1)]).doesEdgeExist 1 9 = true ∧
    ones (2 ^ 9 + 1) = 2 := by decide +kernel

end Verif.Props
