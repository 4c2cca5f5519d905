import Mathlib.Algebra.BigOperators.Field
import Mathlib.Algebra.Order.BigOperators.Group.Finset
import Verif.Props.CSize
import Verif.Props.Metamorphic

/-!
# Pooling, approximation and compression compared with each other: C96 (edge mass), C97 (pooling in two steps),
C98 (approximation and compression), C99 (shifted graphs)
-/

namespace Verif.Props
open Verif Spec

/-! ## C96 -/

/-- **C96.** Pooling conserves edges: the entries times the area of a block add up to the number of edges, up to the
rounding error of an entry and exactly for blocks whose dimension is a power of two. -/
theorem C96_edge_mass {g : Graph} (hg : GReach g) (P : Platform) (o : HashOrder) (b : Nat)
    (hb : effBlock g.vertexCount b ≤ 2 ^ 26) :
    ∃ m, g.findAvgPoolMatrix P o b = .ok m ∧ ∃ x : Nat → Nat → ℚ, (∀ c r, m.getEntry f64Numeric c r = .fin (x c r)) ∧
      let mass := ∑ p ∈ Finset.range m.dimension ×ˢ Finset.range m.dimension, x p.1 p.2 * (effBlock g.vertexCount b : ℚ) ^ 2
      |mass - g.edgeCount| ≤ g.edgeCount * (1 / 2 ^ 52 + 1 / 2 ^ 106) ∧
      ((∃ j, effBlock g.vertexCount b = 2 ^ j) → mass = g.edgeCount) := by
  obtain ⟨m, hm, hval⟩ := C39_pooling_values hg P o b hb
  obtain ⟨m', hm', _, _, _, _, _, _, hsum⟩ := C38_pooling_covers hg P o .id b (by omega)
  rw [hm] at hm'; cases hm'
  have hpos : (0 : ℚ) < (effBlock g.vertexCount b : ℚ) := by
    have : 0 < effBlock g.vertexCount b := by unfold effBlock; omega
    exact_mod_cast this
  generalize effBlock g.vertexCount b = b' at *
  choose x hx using fun c r => (hval c r).2
  refine ⟨m, hm, x, fun c r => (hx c r).1, ?_, ?_⟩
  · rw [← hsum, Nat.cast_sum, ← Finset.sum_sub_distrib, Finset.sum_mul]
    refine (Finset.abs_sum_le_sum_abs _ _).trans (Finset.sum_le_sum fun p _ => ?_)
    obtain ⟨_, _, _, herr, _⟩ := hx p.1 p.2
    have e : x p.1 p.2 * (b' : ℚ) ^ 2 - (blockCount g.doesEdgeExist b' p.1 p.2 : ℚ) =
        (x p.1 p.2 - (blockCount g.doesEdgeExist b' p.1 p.2 : ℚ) / (b' * b' : Nat)) * (b' : ℚ) ^ 2 := by
      push_cast; field_simp
    rw [e, abs_mul, abs_of_pos (show (0 : ℚ) < (b' : ℚ) ^ 2 by positivity)]
    refine (mul_le_mul_of_nonneg_right herr (by positivity)).trans (le_of_eq ?_)
    push_cast; field_simp
  · intro hj
    rw [← hsum, Nat.cast_sum]
    refine Finset.sum_congr rfl fun p _ => ?_
    rw [(hx p.1 p.2).2.2.2.2 hj]
    push_cast; field_simp

/-- **C96**, blocks of one vertex: the pooled matrix is the adjacency matrix. -/
theorem C96_unit_blocks {g : Graph} (hg : GReach g) (P : Platform) (o : HashOrder) {b : Nat} (hb : b ≤ 1) :
    ∃ m, g.findAvgPoolMatrix P o b = .ok m ∧ m.dimension = g.vertexCount ∧
      ∀ u v, m.getEntry f64Numeric u v = .fin (if g.doesEdgeExist u v = true then 1 else 0) := by
  have he : effBlock g.vertexCount b = 1 := by unfold effBlock; omega
  obtain ⟨m, hm, hval⟩ := C39_pooling_values hg P o b (by rw [he]; norm_num)
  obtain ⟨m', hm', hdim, _⟩ := C38_pooling_covers hg P o .id b (by rw [he]; norm_num)
  rw [hm] at hm'; cases hm'
  refine ⟨m, hm, ?_, fun u v => ?_⟩
  · rw [hdim, he]; unfold ceilDiv; split <;> omega
  · obtain ⟨x, hx, _, _, _, hex⟩ := (hval u v).2
    rw [hx, hex ⟨0, by rw [he]; rfl⟩, he]
    have hc : blockCount g.doesEdgeExist 1 u v = if g.doesEdgeExist u v = true then 1 else 0 := by
      unfold blockCount
      rw [Finset.range_one, Finset.singleton_product_singleton, Finset.filter_singleton]
      simp only [Nat.mul_one, Nat.add_zero]
      split <;> rfl
    rw [hc]
    congr 1
    split <;> norm_num

/-- Three edges in blocks of dimension 2: the entries are 1/2 and 1/4. -/
example : let g := runCode false [.addEdge 0 1, .addEdge 1 0, .addEdge 2 3]
    GReach g ∧ effBlock g.vertexCount 2 = 2 ∧ g.edgeCount = 3 ∧
    okAnd (g.findAvgPoolMatrix exP .id 2) (fun m => m.dimension == 2 &&
      decide (m.getEntry f64Numeric 0 0 = .fin (1 / 2)) && decide (m.getEntry f64Numeric 1 1 = .fin (1 / 4))) :=
  ⟨reach_runCode _ _, by decide +kernel, by decide +kernel, by decide +kernel⟩

/-! ## C97 -/

/-- A block of dimension `b₁ * b₂` consists of `b₂ * b₂` blocks of dimension `b₁`. -/
theorem blockCount_split (edge : Nat → Nat → Bool) {b₁ : Nat} (h1 : 0 < b₁) (b₂ c r : Nat) :
    blockCount edge (b₁ * b₂) c r =
      ∑ p ∈ Finset.range b₂ ×ˢ Finset.range b₂, blockCount edge b₁ (c * b₂ + p.1) (r * b₂ + p.2) := by
  unfold blockCount
  rw [Finset.card_eq_sum_card_fiberwise (f := fun p : Nat × Nat => (p.1 / b₁, p.2 / b₁))
    (t := Finset.range b₂ ×ˢ Finset.range b₂) (fun p hp => ?_)]
  · refine Finset.sum_congr rfl fun q hq => ?_
    rw [Finset.mem_product, Finset.mem_range, Finset.mem_range] at hq
    symm
    refine Finset.card_bij (fun p _ => (q.1 * b₁ + p.1, q.2 * b₁ + p.2)) ?_ ?_ ?_
    · rintro ⟨i, j⟩ hp
      simp only [Finset.mem_filter, Finset.mem_product, Finset.mem_range] at hp ⊢
      obtain ⟨⟨hi, hj⟩, he⟩ := hp
      refine ⟨⟨⟨?_, ?_⟩, ?_⟩, ?_⟩
      · calc q.1 * b₁ + i < (q.1 + 1) * b₁ := by rw [Nat.succ_mul]; omega
          _ ≤ b₂ * b₁ := Nat.mul_le_mul_right _ hq.1
          _ = b₁ * b₂ := Nat.mul_comm ..
      · calc q.2 * b₁ + j < (q.2 + 1) * b₁ := by rw [Nat.succ_mul]; omega
          _ ≤ b₂ * b₁ := Nat.mul_le_mul_right _ hq.2
          _ = b₁ * b₂ := Nat.mul_comm ..
      · rw [← he]; congr 1 <;> ring
      · rw [Prod.mk.injEq]
        exact ⟨by rw [Nat.add_comm, Nat.add_mul_div_right _ _ h1, Nat.div_eq_of_lt hi, Nat.zero_add],
          by rw [Nat.add_comm, Nat.add_mul_div_right _ _ h1, Nat.div_eq_of_lt hj, Nat.zero_add]⟩
    · rintro ⟨i, j⟩ _ ⟨i', j'⟩ _ heq
      simp only [Prod.mk.injEq] at heq ⊢
      omega
    · rintro ⟨i, j⟩ hp
      simp only [Finset.mem_filter, Finset.mem_product, Finset.mem_range] at hp
      obtain ⟨⟨_, he⟩, hq'⟩ := hp
      have e1 : q.1 = i / b₁ := (congrArg Prod.fst hq').symm
      have e2 : q.2 = j / b₁ := (congrArg Prod.snd hq').symm
      refine ⟨(i % b₁, j % b₁), ?_, ?_⟩
      · simp only [Finset.mem_filter, Finset.mem_product, Finset.mem_range]
        refine ⟨⟨Nat.mod_lt _ h1, Nat.mod_lt _ h1⟩, ?_⟩
        rw [← he, e1, e2]
        have hi := Nat.div_add_mod' i b₁
        have hj := Nat.div_add_mod' j b₁
        congr 1
        · rw [Nat.add_mul, Nat.add_assoc, hi]; ring
        · rw [Nat.add_mul, Nat.add_assoc, hj]; ring
      · rw [e1, e2, Nat.div_add_mod', Nat.div_add_mod']
  · simp only [Finset.coe_filter, Finset.mem_product, Finset.mem_range, Set.mem_setOf_eq] at hp
    simp only [Finset.coe_product, Set.mem_prod, Finset.mem_coe, Finset.mem_range]
    exact ⟨Nat.div_lt_of_lt_mul hp.1.1, Nat.div_lt_of_lt_mul hp.1.2⟩

/-- **C97.** Pooling in two steps: an entry for blocks of dimension `2^(i+j)` is the average of the `2^j * 2^j` entries
for the blocks of dimension `2^i` that it consists of, without any rounding error. -/
theorem C97_pool_of_pool {g : Graph} (hg : GReach g) (P P' : Platform) (o o' : HashOrder) {i j : Nat}
    (hn : 2 ^ (i + j) ≤ g.vertexCount) (hij : i + j ≤ 26) :
    ∃ m₁ m, g.findAvgPoolMatrix P o (2 ^ i) = .ok m₁ ∧ g.findAvgPoolMatrix P' o' (2 ^ (i + j)) = .ok m ∧
      ∃ y x : Nat → Nat → ℚ, (∀ c r, m₁.getEntry f64Numeric c r = .fin (y c r)) ∧
        (∀ c r, m.getEntry f64Numeric c r = .fin (x c r)) ∧
        ∀ c r, x c r = (∑ p ∈ Finset.range (2 ^ j) ×ˢ Finset.range (2 ^ j), y (c * 2 ^ j + p.1) (r * 2 ^ j + p.2)) /
          ((2 : ℚ) ^ j) ^ 2 := by
  have hi : 2 ^ i ≤ 2 ^ (i + j) := Nat.pow_le_pow_right (by omega) (by omega)
  have h26 : 2 ^ (i + j) ≤ 2 ^ 26 := Nat.pow_le_pow_right (by omega) hij
  have hp1 : 0 < 2 ^ i := by positivity
  have e1 : effBlock g.vertexCount (2 ^ i) = 2 ^ i := by unfold effBlock; omega
  have e2 : effBlock g.vertexCount (2 ^ (i + j)) = 2 ^ (i + j) := by unfold effBlock; omega
  obtain ⟨m₁, hm₁, hv₁⟩ := C39_pooling_values hg P o (2 ^ i) (by rw [e1]; exact hi.trans h26)
  obtain ⟨m, hm, hv⟩ := C39_pooling_values hg P' o' (2 ^ (i + j)) (by rw [e2]; exact h26)
  choose y hy using fun c r => (hv₁ c r).2
  choose x hx using fun c r => (hv c r).2
  refine ⟨m₁, m, hm₁, hm, y, x, fun c r => (hy c r).1, fun c r => (hx c r).1, fun c r => ?_⟩
  have hy' : ∀ c r, y c r = (blockCount g.doesEdgeExist (2 ^ i) c r : ℚ) / ((2 : ℚ) ^ i) ^ 2 := fun c r => by
    rw [(hy c r).2.2.2.2 ⟨i, e1⟩, e1]; push_cast; ring
  have hx' : x c r = (blockCount g.doesEdgeExist (2 ^ (i + j)) c r : ℚ) / ((2 : ℚ) ^ (i + j)) ^ 2 := by
    rw [(hx c r).2.2.2.2 ⟨i + j, e2⟩, e2]; push_cast; ring
  rw [hx', pow_add 2 i j, blockCount_split _ hp1, Nat.cast_sum]
  simp only [hy']
  rw [← Finset.sum_div, div_div]
  congr 1
  rw [pow_add]; ring

example : let g := runCode false [.addEdge 0 1, .addEdge 1 3, .addEdge 2 3, .addEdge 7 7]
    GReach g ∧ 2 ^ (1 + 1) ≤ g.vertexCount ∧
    okAnd (g.findAvgPoolMatrix exP .id 2) (fun m => decide (m.getEntry f64Numeric 0 0 = .fin (1 / 4)) &&
      decide (m.getEntry f64Numeric 0 1 = .fin (1 / 4)) && decide (m.getEntry f64Numeric 1 1 = .fin (1 / 4))) ∧
    okAnd (g.findAvgPoolMatrix exP .id 4) (fun m => decide (m.getEntry f64Numeric 0 0 = .fin (3 / 16))) :=
  ⟨reach_runCode _ _, by decide +kernel, by decide +kernel, by decide +kernel⟩

/-! ## C98 -/

/-- **C98.** Compressing at level `L` keeps exactly the blocks that are edges of the approximation with blocks of 8 and
threshold `L / 64`; hence the compressed file has one block for each edge of that approximation. -/
theorem C98_compress_approximate {g : Graph} (hg : GReach g) (hn : 8 ≤ g.vertexCount) (P P' P'' : Platform)
    (o₁ o₂ o₁' o₂' o : HashOrder) (l : Nat) :
    ∃ c a, g.compress P o₁ o₂ l = .ok c ∧ g.approximate P' o₁' o₂' 8 (.fin ((max 1 (min l 64) : Nat) / 64)) = .ok a ∧
      a.vertexCount = ceilDiv c.vertexCount 8 ∧ a.isUndirected = c.isUndirected ∧
      (∀ x y, a.doesEdgeExist x y = true ↔ c.getCompressedMatrixEntry x y ≠ 0) ∧
      ∀ b, c.toBytes P'' o = .ok b → b.length = 42 + 24 * a.edgeCount := by
  obtain ⟨c, hc, hk⟩ := C22_keeps_blocks hg hn P o₁ o₂ l
  have hcr : CReach c := .compress _ _ _ _ hg hc
  obtain ⟨_, hc', _, hcu, hcv, _⟩ := Graph.compress_spec hg.ok P o₁ o₂ l
  rw [hc] at hc'; cases hc'
  set L := max 1 (min l 64) with hL
  have hL1 : 1 ≤ L := by omega
  have hL64 : L ≤ 64 := by omega
  have hmin : min 8 g.vertexCount = 8 := by omega
  have hq0 : (0 : ℚ) < (L : ℚ) / 64 := by positivity
  have hq1 : (L : ℚ) / 64 ≤ 1 := by
    rw [div_le_one (by norm_num)]; exact_mod_cast hL64
  obtain ⟨m, hm, _⟩ := C38_pooling_covers hg P' o₁' .id 8 (by unfold effBlock; omega)
  obtain ⟨a, ha, hau, hav, _⟩ := C40_approximate_keeps hg P' o₁' o₂' (.fin ((L : ℚ) / 64)) (by omega) (by omega) hm
  obtain ⟨a', ha', hex⟩ := C41_true_average_partial hg P' o₁' o₂' (b := 8) (q := (L : ℚ) / 64) (by omega) (by omega)
    (by omega) hq0 hq1
  rw [ha] at ha'; cases ha'
  rw [hmin] at hav
  have hiff : ∀ x y, a.doesEdgeExist x y = true ↔ c.getCompressedMatrixEntry x y ≠ 0 := by
    intro x y
    have hle64 := Graph.blockCount_le g.doesEdgeExist (min 8 g.vertexCount) x y
    rw [(hex x y (by rw [hmin] at hle64 ⊢; omega)).1 ⟨3, by omega⟩, hmin]
    have h1 : (L : ℚ) / 64 ≤ (blockCount g.doesEdgeExist 8 x y : ℚ) / (8 * 8 : Nat) ↔
        L ≤ blockCount g.doesEdgeExist 8 x y := by
      rw [show ((8 * 8 : Nat) : ℚ) = 64 by norm_num, div_le_div_iff_of_pos_right (by norm_num)]
      exact Nat.cast_le
    rw [h1]
    obtain ⟨k1, k2⟩ := hk x y
    constructor
    · intro h h0
      have hpos : 0 < blockCount g.doesEdgeExist 8 x y := by omega
      unfold blockCount at hpos
      obtain ⟨⟨i, j⟩, hp⟩ := Finset.card_pos.1 hpos
      rw [Finset.mem_filter, Finset.mem_product, Finset.mem_range, Finset.mem_range] at hp
      have := k1 h i hp.1.1 j hp.1.2
      rw [h0, Nat.zero_testBit, Nat.mul_comm 8 x, Nat.mul_comm 8 y, hp.2] at this
      cases this
    · intro h
      by_contra hlt
      exact h (k2 (by omega))
  refine ⟨c, a, hc, ha, by rw [hav, hcv], hau.trans hcu.symm, hiff, fun b hb => ?_⟩
  obtain ⟨blocks, hnd, hmem, hlen, _⟩ := C31_compressed_bytes_layout hcr P'' o
  have har : GReach a := .approximate _ _ _ _ _ hg ha
  rw [(hlen b hb).1, Graph.edgeCount_eq har.ok]
  have : (blocks.map fun e => (e.2.1, e.2.2)).toFinset = a.pairs := by
    ext ⟨x, y⟩
    rw [← Graph.doesEdgeExist_iff, hiff, List.mem_toFinset, List.mem_map]
    constructor
    · rintro ⟨⟨e, x', y'⟩, h, h'⟩
      obtain ⟨h1, h2⟩ := (hmem _ _ _).1 h
      cases h'
      rw [h2]; exact h1
    · intro h
      exact ⟨(_, x, y), (hmem _ _ _).2 ⟨h, rfl⟩, rfl⟩
  rw [← this, List.toFinset_card_of_nodup hnd, List.length_map]

example : let g := runCode false [.addEdge 0 9, .addEdge 3 9, .addEdge 5 2, .addEdge 16 16]
    GReach g ∧ 8 ≤ g.vertexCount ∧
    okAnd (g.compress exP .id .id 2) (fun c => c.getCompressedMatrixEntry 0 1 != 0 && c.getCompressedMatrixEntry 0 0 == 0 &&
      okAnd (c.toBytes exP .id) fun b => b.length == 66) ∧
    okAnd (g.approximate exP .id .id 8 (.fin (2 / 64))) (fun a => a.edgeCount == 1 && a.doesEdgeExist 0 1) :=
  ⟨reach_runCode _ _, by decide +kernel, by decide +kernel, by decide +kernel⟩

/-! ## C99 -/

/-- `g'` is `g` with `k` added to every vertex id (the vertices below `k` are isolated). -/
structure Shifted (k : Nat) (g g' : Graph) : Prop where
  direction : g.isUndirected = g'.isUndirected
  vertexCount : g'.vertexCount = g.vertexCount + k
  edge : ∀ u v, g'.doesEdgeExist u v = (decide (k ≤ u) && decide (k ≤ v) && g.doesEdgeExist (u - k) (v - k))

theorem blockCount_shift {e e' : Nat → Nat → Bool} {b d : Nat} (hb : 0 < b)
    (h : ∀ u v, e' u v = (decide (d * b ≤ u) && decide (d * b ≤ v) && e (u - d * b) (v - d * b))) (c r : Nat) :
    blockCount e' b c r = if d ≤ c ∧ d ≤ r then blockCount e b (c - d) (r - d) else 0 := by
  have key : ∀ x i, i < b → (d * b ≤ x * b + i ↔ d ≤ x) := by
    intro x i hi
    constructor
    · intro hle
      by_contra hlt
      have : (x + 1) * b ≤ d * b := Nat.mul_le_mul_right _ (by omega)
      rw [Nat.succ_mul] at this
      omega
    · intro hle
      exact (Nat.mul_le_mul_right b hle).trans (Nat.le_add_right _ _)
  have hsub : ∀ x i, d ≤ x → x * b + i - d * b = (x - d) * b + i := by
    intro x i hx
    have : d * b ≤ x * b := Nat.mul_le_mul_right _ hx
    rw [Nat.sub_mul]; omega
  unfold blockCount
  split
  · next hcr =>
    congr 1
    refine Finset.filter_congr fun p hp => ?_
    rw [Finset.mem_product, Finset.mem_range, Finset.mem_range] at hp
    rw [h, hsub _ _ hcr.1, hsub _ _ hcr.2, decide_eq_true ((key _ _ hp.1).2 hcr.1), decide_eq_true ((key _ _ hp.2).2 hcr.2)]
    simp
  · next hcr =>
    rw [Finset.card_eq_zero, Finset.filter_eq_empty_iff]
    intro p hp
    rw [Finset.mem_product, Finset.mem_range, Finset.mem_range] at hp
    rw [h, Bool.and_eq_true, Bool.and_eq_true, decide_eq_true_eq, decide_eq_true_eq, key _ _ hp.1, key _ _ hp.2]
    exact fun hx => hcr hx.1

theorem ceilDiv_shift {n b d : Nat} (hb : 0 < b) : ceilDiv (n + d * b) b = ceilDiv n b + d := by
  unfold ceilDiv
  rw [show n + d * b + b - 1 = n + b - 1 + d * b by omega, Nat.add_mul_div_right _ _ hb]

/-- **C99**, edits: the same edits with shifted ids keep the graphs shifted, starting from the empty graph and the graph
with `k` isolated vertices. -/
theorem C99_shift_edits {g g' : Graph} (hg : GReach g) (hg' : GReach g') {k : Nat} (hs : Shifted k g g') :
    (∀ u v, u + k < U64_MAX → v + k < U64_MAX → Shifted k (g.addEdge u v) (g'.addEdge (u + k) (v + k))) ∧
    (∀ u v, Shifted k (g.deleteEdge u v) (g'.deleteEdge (u + k) (v + k))) ∧
    (∀ v ts, v + k < U64_MAX → (∀ t ∈ ts.getD [], t + k < U64_MAX) →
      Shifted k (g.addVertex v ts) (g'.addVertex (v + k) (ts.map fun l => l.map (· + k)))) ∧
    (0 < k → k ≤ U64_MAX → Shifted k Graph.newDirected (Graph.newDirected.addVertex (k - 1) none) ∧
      Shifted k Graph.newUndirected (Graph.newUndirected.addVertex (k - 1) none)) := by
  have hadd : ∀ {g g' : Graph}, GReach g → GReach g' → Shifted k g g' → ∀ u v, u + k < U64_MAX → v + k < U64_MAX →
      Shifted k (g.addEdge u v) (g'.addEdge (u + k) (v + k)) := by
    intro g g' hg hg' hs u v hu hv
    have hu' : u < U64_MAX := by omega
    have hv' : v < U64_MAX := by omega
    refine ⟨hs.direction, ?_, fun x y => ?_⟩
    · rw [Graph.addEdge_vertexCount hu hv, Graph.addEdge_vertexCount hu' hv', hs.vertexCount]; omega
    · have h1 := (C05_add_edge_exact hg' hu hv).2.1 x y
      have h2 := (C05_add_edge_exact hg hu' hv').2.1 (x - k) (y - k)
      rw [Bool.eq_iff_iff, h1, Bool.and_eq_true, Bool.and_eq_true, decide_eq_true_eq, decide_eq_true_eq, h2, hs.edge,
        Bool.and_eq_true, Bool.and_eq_true, decide_eq_true_eq, decide_eq_true_eq, hs.direction]
      constructor
      · rintro (⟨rfl, rfl⟩ | ⟨hd, rfl, rfl⟩ | ⟨⟨hx, hy⟩, he⟩)
        · exact ⟨⟨by omega, by omega⟩, .inl ⟨by omega, by omega⟩⟩
        · exact ⟨⟨by omega, by omega⟩, .inr (.inl ⟨hd, by omega, by omega⟩)⟩
        · exact ⟨⟨hx, hy⟩, .inr (.inr he)⟩
      · rintro ⟨⟨hx, hy⟩, (⟨h1, h2⟩ | ⟨hd, h1, h2⟩ | he)⟩
        · exact .inl ⟨by omega, by omega⟩
        · exact .inr (.inl ⟨hd, by omega, by omega⟩)
        · exact .inr (.inr ⟨⟨hx, hy⟩, he⟩)
  have htouch : ∀ v, v + k < U64_MAX → Shifted k (g.touch v) (g'.touch (v + k)) := by
    intro v hv
    refine ⟨?_, ?_, fun x y => ?_⟩
    · rw [Graph.touch_isUndirected, Graph.touch_isUndirected, hs.direction]
    · rw [Graph.touch_vertexCount, Graph.touch_vertexCount, hs.vertexCount]
      split <;> split <;> omega
    · have e : ∀ (g : Graph) w x y, (g.touch w).doesEdgeExist x y = g.doesEdgeExist x y := fun g w x y => by
        rw [Bool.eq_iff_iff, Graph.doesEdgeExist_iff, Graph.touch_pairs, ← Graph.doesEdgeExist_iff]
      rw [e, e, hs.edge]
  refine ⟨hadd hg hg' hs, fun u v => ?_, fun v ts hv hts => ?_, fun h0 hk => ?_⟩
  · obtain ⟨h1, h2, h3, _⟩ := C06_delete_edge_exact hg u v
    obtain ⟨h1', h2', h3', _⟩ := C06_delete_edge_exact hg' (u + k) (v + k)
    refine ⟨by rw [h1, h1', hs.direction], by rw [h2, h2', hs.vertexCount], fun x y => ?_⟩
    rw [Bool.eq_iff_iff, h3', Bool.and_eq_true, Bool.and_eq_true, decide_eq_true_eq, decide_eq_true_eq, h3, hs.edge,
      Bool.and_eq_true, Bool.and_eq_true, decide_eq_true_eq, decide_eq_true_eq, hs.direction]
    constructor
    · rintro ⟨⟨⟨hx, hy⟩, he⟩, n1, n2⟩
      exact ⟨⟨hx, hy⟩, he, fun h => n1 ⟨by omega, by omega⟩, fun h => n2 ⟨h.1, by omega, by omega⟩⟩
    · rintro ⟨⟨hx, hy⟩, he, n1, n2⟩
      exact ⟨⟨⟨hx, hy⟩, he⟩, fun h => n1 ⟨by omega, by omega⟩, fun h => n2 ⟨h.1, by omega, by omega⟩⟩
  · match ts with
    | none => rw [Option.map_none, Graph.addVertex_none, Graph.addVertex_none]; exact htouch v hv
    | some [] => rw [Option.map_some, List.map_nil, Graph.addVertex_nil, Graph.addVertex_nil]; exact htouch v hv
    | some (t :: ts) =>
      rw [Option.map_some, List.map_cons, Graph.addVertex_cons, Graph.addVertex_cons]
      suffices h : ∀ (l : List Nat) (g g' : Graph), (∀ t ∈ l, t + k < U64_MAX) → GReach g → GReach g' → Shifted k g g' →
          Shifted k (l.foldl (fun g t => g.addEdge v t) g) ((l.map (· + k)).foldl (fun g t => g.addEdge (v + k) t) g') from
        h (t :: ts) g g' hts hg hg' hs
      intro l
      induction l with
      | nil => intro g g' _ _ _ h; exact h
      | cons t l ih =>
        intro g g' ht hg hg' h
        exact ih _ _ (fun t h => ht t (List.mem_cons_of_mem _ h)) (.addEdge _ _ hg) (.addEdge _ _ hg')
          (hadd hg hg' h v t hv (ht t (List.mem_cons_self ..)))
  · have key : ∀ (g : Graph), g.vertexCount = 0 → (∀ x y, g.doesEdgeExist x y = false) →
        Shifted k g (g.addVertex (k - 1) none) := by
      intro g hn he
      have e : ∀ w x y, (g.touch w).doesEdgeExist x y = g.doesEdgeExist x y := fun w x y => by
        rw [Bool.eq_iff_iff, Graph.doesEdgeExist_iff, Graph.touch_pairs, ← Graph.doesEdgeExist_iff]
      rw [Graph.addVertex_none]
      refine ⟨by rw [Graph.touch_isUndirected], ?_, fun x y => by rw [e, he, he, Bool.and_false]⟩
      rw [Graph.touch_vertexCount, hn]; split <;> omega
    exact ⟨key _ rfl fun _ _ => rfl, key _ rfl fun _ _ => rfl⟩

/-- **C99**, queries: shifting all ids shifts the neighbour lists and changes no count. -/
theorem C99_shift_queries {g g' : Graph} (hg : GReach g) (hg' : GReach g') {k : Nat} (hs : Shifted k g g') :
    g'.edgeCount = g.edgeCount ∧
    (∀ o o' v, (g'.getVertexOutEdges o (v + k)).Perm ((g.getVertexOutEdges o' v).map (· + k))) ∧
    (∀ o o' v, (g'.getVertexInEdges o (v + k)).Perm ((g.getVertexInEdges o' v).map (· + k))) ∧
    (∀ v, g'.getVertexOutDegree (v + k) = g.getVertexOutDegree v ∧ g'.getVertexInDegree (v + k) = g.getVertexInDegree v) ∧
    ∀ v < k, g'.getVertexOutDegree v = 0 ∧ g'.getVertexInDegree v = 0 := by
  have hp : ∀ u v, (u, v) ∈ g'.pairs ↔ ∃ u' v', (u', v') ∈ g.pairs ∧ u = u' + k ∧ v = v' + k := by
    intro u v
    rw [← Graph.doesEdgeExist_iff, hs.edge, Bool.and_eq_true, Bool.and_eq_true, decide_eq_true_eq, decide_eq_true_eq]
    constructor
    · rintro ⟨⟨h1, h2⟩, h3⟩
      exact ⟨u - k, v - k, Graph.doesEdgeExist_iff.1 h3, by omega, by omega⟩
    · rintro ⟨u', v', h, rfl, rfl⟩
      refine ⟨⟨by omega, by omega⟩, ?_⟩
      rw [Nat.add_sub_cancel, Nat.add_sub_cancel]
      exact Graph.doesEdgeExist_iff.2 h
  have hinj : Function.Injective (fun w : Nat => w + k) := fun a b h => by simpa using h
  have hout : ∀ o o' v, (g'.getVertexOutEdges o (v + k)).Perm ((g.getVertexOutEdges o' v).map (· + k)) := by
    intro o o' v
    rw [List.perm_ext_iff_of_nodup (Graph.out_nodup _ _ _) ((Graph.out_nodup _ _ _).map hinj)]
    intro w
    rw [Graph.mem_out, hp, List.mem_map]
    constructor
    · rintro ⟨u', v', h, hu, rfl⟩
      obtain rfl : v = u' := by omega
      exact ⟨v', (Graph.mem_out ..).2 h, rfl⟩
    · rintro ⟨w', h, rfl⟩
      exact ⟨v, w', (Graph.mem_out ..).1 h, rfl, rfl⟩
  have hin : ∀ o o' v, (g'.getVertexInEdges o (v + k)).Perm ((g.getVertexInEdges o' v).map (· + k)) := by
    intro o o' v
    rw [List.perm_ext_iff_of_nodup (Graph.in_nodup _ _ _) ((Graph.in_nodup _ _ _).map hinj)]
    intro w
    rw [Graph.mem_in hg'.ok, hp, List.mem_map]
    constructor
    · rintro ⟨u', v', h, rfl, hv⟩
      obtain rfl : v = v' := by omega
      exact ⟨u', (Graph.mem_in hg.ok ..).2 h, rfl⟩
    · rintro ⟨w', h, rfl⟩
      exact ⟨w', v, (Graph.mem_in hg.ok ..).1 h, rfl, rfl⟩
  refine ⟨?_, hout, hin, fun v => ⟨?_, ?_⟩, fun v hv => ⟨?_, ?_⟩⟩
  · rw [Graph.edgeCount_eq hg.ok, Graph.edgeCount_eq hg'.ok]
    symm
    refine Finset.card_bij (fun p _ => (p.1 + k, p.2 + k)) ?_ ?_ ?_
    · rintro ⟨u, v⟩ h
      exact (hp _ _).2 ⟨u, v, h, rfl, rfl⟩
    · rintro ⟨u, v⟩ _ ⟨u', v'⟩ _ h
      simp only [Prod.mk.injEq] at h ⊢
      omega
    · rintro ⟨u, v⟩ h
      obtain ⟨u', v', h', rfl, rfl⟩ := (hp _ _).1 h
      exact ⟨(u', v'), h', rfl⟩
  · rw [← Graph.outDegree_length _ .id, ← Graph.outDegree_length _ .id, (hout .id .id v).length_eq, List.length_map]
  · rw [← Graph.inDegree_length _ .id, ← Graph.inDegree_length _ .id, (hin .id .id v).length_eq, List.length_map]
  · rw [← Graph.outDegree_length _ .id, List.length_eq_zero_iff, List.eq_nil_iff_forall_not_mem]
    intro w hw
    obtain ⟨u', v', _, hu, _⟩ := (hp _ _).1 ((Graph.mem_out ..).1 hw)
    omega
  · rw [← Graph.inDegree_length _ .id, List.length_eq_zero_iff, List.eq_nil_iff_forall_not_mem]
    intro w hw
    obtain ⟨u', v', _, _, hu⟩ := (hp _ _).1 ((Graph.mem_in hg'.ok ..).1 hw)
    omega

/-- **C99**, results: shifting all ids by `d` blocks shifts the pooled matrix and the approximation by `d` and the
compressed graph by `d` blocks. -/
theorem C99_shift_results {g g' : Graph} (hg : GReach g) (hg' : GReach g') (d : Nat) :
    (∀ b, 1 ≤ b → b ≤ g.vertexCount → b < 2 ^ 32 → Shifted (d * b) g g' →
      (∀ P P' o o', ∃ m m', g.findAvgPoolMatrix P o b = .ok m ∧ g'.findAvgPoolMatrix P' o' b = .ok m' ∧
        m'.dimension = m.dimension + d ∧
        (∀ c r, m'.getEntry f64Numeric (c + d) (r + d) = m.getEntry f64Numeric c r) ∧
        ∀ c r, c < d ∨ r < d → m'.getEntry f64Numeric c r = .fin 0) ∧
      (∀ P P' o₁ o₂ o₁' o₂' t, 2 ≤ b → ∃ a a', g.approximate P o₁ o₂ b t = .ok a ∧
        g'.approximate P' o₁' o₂' b t = .ok a' ∧ Shifted d a a')) ∧
    (8 ≤ g.vertexCount → Shifted (d * 8) g g' → ∀ P P' o₁ o₂ o₁' o₂' l, ∃ c c', g.compress P o₁ o₂ l = .ok c ∧
      g'.compress P' o₁' o₂' l = .ok c' ∧
      (∀ x y, c'.getCompressedMatrixEntry (x + d) (y + d) = c.getCompressedMatrixEntry x y) ∧
      ∀ x y, x < d ∨ y < d → c'.getCompressedMatrixEntry x y = 0) := by
  refine ⟨fun b h1 hbn h32 hs => ?_, fun hn hs P P' o₁ o₂ o₁' o₂' l => ?_⟩
  · have hn0 : g.vertexCount ≠ 0 := by omega
    have hn0' : g'.vertexCount ≠ 0 := by rw [hs.vertexCount]; omega
    have hcl : Graph.clampBlockDimension g.vertexCount b = b := by rw [Graph.clamp_min h1]; omega
    have hcl' : Graph.clampBlockDimension g'.vertexCount b = b := by
      rw [Graph.clamp_min h1, hs.vertexCount]; omega
    have hcnt := blockCount_shift (b := b) (d := d) (by omega) hs.edge
    have hpool : ∀ P P' o o', ∃ m m', g.findAvgPoolMatrix P o b = .ok m ∧ g'.findAvgPoolMatrix P' o' b = .ok m' ∧
        m'.dimension = m.dimension + d ∧ ∀ c r, m'.at? c r = if d ≤ c ∧ d ≤ r then m.at? (c - d) (r - d) else none := by
      intro P P' o o'
      obtain ⟨m, hm, _, hdim, hat⟩ := Graph.pool_ok hg.ok P o b hn0 (by omega)
      obtain ⟨m', hm', _, hdim', hat'⟩ := Graph.pool_ok hg'.ok P' o' b hn0' (by omega)
      rw [hcl] at hdim hat
      rw [hcl'] at hdim' hat'
      refine ⟨m, m', hm, hm', by rw [hdim, hdim', hs.vertexCount, ceilDiv_shift (by omega)], fun c r => ?_⟩
      rw [hat', hat, hcnt]
      split
      · rfl
      · rfl
    refine ⟨fun P P' o o' => ?_, fun P P' o₁ o₂ o₁' o₂' t h2 => ?_⟩
    · obtain ⟨m, m', hm, hm', hdim, hat⟩ := hpool P P' o o'
      refine ⟨m, m', hm, hm', hdim, fun c r => ?_, fun c r hcr => ?_⟩
      · rw [SqMatrix.getEntry_eq, SqMatrix.getEntry_eq, hat, if_pos ⟨by omega, by omega⟩, Nat.add_sub_cancel, Nat.add_sub_cancel]
      · rw [SqMatrix.getEntry_eq, hat, if_neg (by omega)]
        exact F64.lit_zero
    · obtain ⟨m, m', hm, hm', hdim, hat⟩ := hpool P P' o₁ o₁'
      obtain ⟨a, ha, _, hau, hav, hae⟩ := Graph.approximate_spec hg.ok o₂ t h2 (by omega) hm
      obtain ⟨a', ha', _, hau', hav', hae'⟩ :=
        Graph.approximate_spec hg'.ok o₂' t h2 (by rw [hs.vertexCount]; omega) hm'
      refine ⟨a, a', ha, ha', by rw [hau, hau', hs.direction], ?_, fun u v => ?_⟩
      · rw [hav, hav', hs.vertexCount, min_eq_left hbn, min_eq_left (by omega), ceilDiv_shift (by omega)]
      · rw [Bool.eq_iff_iff, hae', hat, Bool.and_eq_true, Bool.and_eq_true, decide_eq_true_eq, decide_eq_true_eq, hae]
        by_cases hd : d ≤ u ∧ d ≤ v
        · rw [if_pos hd]; simp [hd]
        · rw [if_neg hd]; simp [hd]
  · obtain ⟨c, hc, _⟩ := Graph.compress_spec hg.ok P o₁ o₂ l
    obtain ⟨c', hc', _⟩ := Graph.compress_spec hg'.ok P' o₁' o₂' l
    have hcr : CReach c := .compress _ _ _ _ hg hc
    have hcr' : CReach c' := .compress _ _ _ _ hg' hc'
    have hcnt := blockCount_shift (b := 8) (d := d) (by omega) hs.edge
    have hmin : min 8 g.vertexCount = 8 := by omega
    have hmin' : min 8 g'.vertexCount = 8 := by rw [hs.vertexCount]; omega
    refine ⟨c, c', hc, hc', fun x y => ?_, fun x y hxy => ?_⟩
    · obtain ⟨h1, h2⟩ := compress_blocks hg.ok P o₁ o₂ l hc x y
      obtain ⟨h1', h2'⟩ := compress_blocks hg'.ok P' o₁' o₂' l hc' (x + d) (y + d)
      rw [hcnt, if_pos ⟨by omega, by omega⟩, Nat.add_sub_cancel, Nat.add_sub_cancel, hmin'] at h1' h2'
      rw [hmin] at h1 h2
      by_cases hk : max 1 (min l 64) * (8 * 8) ≤ 64 * blockCount g.doesEdgeExist 8 x y
      · refine Nat.eq_of_testBit_eq fun i => ?_
        by_cases hi : i < 64
        · have := h1 hk (i % 8) (by omega) (i / 8) (by omega)
          have h' := h1' hk (i % 8) (by omega) (i / 8) (by omega)
          rw [show 8 * (i / 8) + i % 8 = i by omega] at this h'
          rw [this, h', hs.edge, decide_eq_true (by omega), decide_eq_true (by omega), Bool.true_and, Bool.true_and,
            show 8 * (x + d) + i % 8 - d * 8 = 8 * x + i % 8 by omega,
            show 8 * (y + d) + i / 8 - d * 8 = 8 * y + i / 8 by omega]
        · have hw : 2 ^ 64 ≤ 2 ^ i := Nat.pow_le_pow_right (by omega) (by omega)
          rw [Nat.testBit_lt_two_pow (((C24_bit_layout hcr').2 _ _).trans_le hw),
            Nat.testBit_lt_two_pow (((C24_bit_layout hcr).2 _ _).trans_le hw)]
      · rw [h2 hk, h2' hk]
    · obtain ⟨_, h2'⟩ := compress_blocks hg'.ok P' o₁' o₂' l hc' x y
      rw [hcnt, if_neg (by omega), hmin'] at h2'
      exact h2' (by omega)

/-- Two edges, and the same moved by two blocks of 8. -/
def exShift : Graph := (Graph.newDirected.addEdge 0 9).addEdge 3 9
def exShift' : Graph := ((Graph.newDirected.addVertex 15 none).addEdge 16 25).addEdge 19 25

theorem exShift_shifted : GReach exShift ∧ GReach exShift' ∧ Shifted (2 * 8) exShift exShift' := by
  have hv : GReach (Graph.newDirected.addVertex 15 none) := .addVertex _ _ .newDirected
  have s0 : Shifted (2 * 8) Graph.newDirected (Graph.newDirected.addVertex 15 none) :=
    ⟨rfl, by decide +kernel, fun u v => by
      change false = (_ && false)
      rw [Bool.and_false]⟩
  have s1 := (C99_shift_edits .newDirected hv s0).1 0 9 (by norm_num [U64_MAX]) (by norm_num [U64_MAX])
  have s2 := (C99_shift_edits (.addEdge 0 9 .newDirected) (.addEdge _ _ hv) s1).1 3 9 (by norm_num [U64_MAX])
    (by norm_num [U64_MAX])
  exact ⟨.addEdge 3 9 (.addEdge 0 9 .newDirected), .addEdge _ _ (.addEdge _ _ hv), s2⟩

example : 8 ≤ exShift.vertexCount ∧ exShift.edgeCount = 2 ∧ exShift'.edgeCount = 2 ∧ exShift'.doesEdgeExist 19 25 = true ∧
    okAnd (exShift.compress exP .id .id 2) (fun c => c.getCompressedMatrixEntry 0 1 == 2 ^ 8 + 2 ^ 11) ∧
    okAnd (exShift'.compress exP .id .id 2) (fun c => c.getCompressedMatrixEntry 2 3 == 2 ^ 8 + 2 ^ 11) :=
  ⟨by decide +kernel, by decide +kernel, by decide +kernel, by decide +kernel, by decide +kernel, by decide +kernel⟩

end Verif.Props
