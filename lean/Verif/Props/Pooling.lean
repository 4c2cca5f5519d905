import Mathlib.Algebra.BigOperators.Group.Finset.Sigma
import Verif.Lemmas.Approx
import Verif.Lemmas.Ieee
import Verif.Lemmas.PoolLarge
import Verif.Props.Codec

/-!
# Properties of average pooling and of `approximate`: C38–C46, C48
-/

namespace Verif.Props
open Verif Spec

theorem clamp_eff {n b : Nat} (hn : n ≠ 0) : Graph.clampBlockDimension n b = effBlock n b := by
  unfold Graph.clampBlockDimension effBlock
  split
  · omega
  · split <;> omega

theorem eff_min {n b : Nat} (hb : 2 ≤ b) (hn : 2 ≤ n) : effBlock n b = min b n := by
  unfold effBlock; omega

theorem F64_le_fin (a b : ℚ) : F64.le (.fin a) (.fin b) = true ↔ a ≤ b := by simp [F64.le]

theorem tiny_eq : tiny = F64.rndQ (1 / 10 ^ 18) := by unfold tiny; decide +kernel

theorem MIN_eq : MIN_THRESHOLD = .fin tiny := by
  rw [tiny_eq]
  unfold MIN_THRESHOLD
  have h1 : (1 : Nat) ≤ 10 ^ 18 := by norm_num
  have h2 : (10 : Nat) ^ 18 ≤ U64_MAX := by norm_num [U64_MAX]
  rw [F64.div_eq_recip h1 h2]
  unfold F64.recipQ
  have : F64.rndQ (((10 ^ 18 : Nat) : ℚ)) = 10 ^ 18 := by
    have h := F64.rndQ_exact (m := 5 ^ 18) (e := 18) (by norm_num) (by norm_num) (by norm_num)
    have e : (((5 : ℤ) ^ 18 : ℤ) : ℚ) * 2 ^ (18 : ℤ) = 10 ^ 18 := by
      rw [show ((2 : ℚ) ^ (18 : ℤ)) = 2 ^ 18 from zpow_ofNat _ _]; norm_num
    rw [e] at h
    push_cast
    exact h
  rw [this]

theorem tiny_pos : 0 < tiny := by unfold tiny; decide +kernel
theorem tiny_le_one : tiny ≤ 1 := by unfold tiny; decide +kernel

theorem clampThreshold_eff (t : F64) : clampThreshold t = effThreshold t := by
  unfold clampThreshold
  rw [F64.lit_one, F64.lit_zero, MIN_eq]
  cases t with
  | nan => rfl
  | inf s => cases s <;> rfl
  | fin q =>
    unfold effThreshold
    simp only [F64.lt, F64.le, Bool.and_eq_true, decide_eq_true_eq, Bool.not_eq_true', decide_eq_false_iff_not]
    by_cases h : 1 < q
    · rw [if_pos ⟨h.le, not_le.2 h⟩, if_pos h]
    · rw [if_neg (fun x => h (not_le.1 x.2)), if_neg h]

/-- No threshold in effect is reached by zero. -/
theorem eff_zero (t : F64) : F64.le (effThreshold t) (.fin 0) = false := by
  have h := tiny_pos
  cases t with
  | nan => rfl
  | inf s =>
    cases s
    · change decide ((1 : ℚ) ≤ 0) = false; exact decide_eq_false (by norm_num)
    · change decide (tiny ≤ 0) = false; exact decide_eq_false (by linarith)
  | fin q =>
    unfold effThreshold
    by_cases h1 : 1 < q
    · simp only [h1, if_true]; change decide ((1 : ℚ) ≤ 0) = false; exact decide_eq_false (by norm_num)
    · by_cases h2 : q ≤ 0
      · simp only [h1, h2, if_true, if_false]; exact decide_eq_false (by linarith)
      · simp only [h1, h2, if_false]; exact decide_eq_false h2

/-- The edges of the graph that fall in a block. -/
theorem blockCount_fiber {g : Graph} (hg : g.OK) {b : Nat} (hb : 0 < b) (c r : Nat) :
    blockCount g.doesEdgeExist b c r = (g.pairs.filter fun p => (p.1 / b, p.2 / b) = (c, r)).card := by
  rw [← Graph.inBlock_eq hg HashOrder.id hb]
  unfold Graph.inBlock
  rw [List.countP_eq_length_filter,
    ← List.toFinset_card_of_nodup ((Graph.items_nodup hg HashOrder.id).filter _)]
  congr 1
  ext p
  rw [List.mem_toFinset, List.mem_filter, Graph.mem_items hg, Finset.mem_filter]
  simp

theorem sum_blocks {g : Graph} (hg : g.OK) {b : Nat} (hb : 0 < b) :
    ∑ p ∈ Finset.range (ceilDiv g.vertexCount b) ×ˢ Finset.range (ceilDiv g.vertexCount b),
      blockCount g.doesEdgeExist b p.1 p.2 = g.edgeCount := by
  rw [Graph.edgeCount_eq hg]
  rw [Finset.card_eq_sum_card_fiberwise (f := fun p : Nat × Nat => (p.1 / b, p.2 / b))
    (t := Finset.range (ceilDiv g.vertexCount b) ×ˢ Finset.range (ceilDiv g.vertexCount b))]
  · apply Finset.sum_congr rfl
    rintro ⟨c, r⟩ _
    exact blockCount_fiber hg hb c r
  · intro p hp
    have := hg.wf.bound p hp
    rw [Finset.mem_coe, Finset.mem_product, Finset.mem_range, Finset.mem_range]
    exact ⟨Graph.div_lt_ceilDiv hb this.1, Graph.div_lt_ceilDiv hb this.2⟩

theorem blockCount_zero_of_empty {g : Graph} (hg : g.OK) (hn : g.vertexCount = 0) (b c r : Nat) :
    blockCount g.doesEdgeExist b c r = 0 := by
  unfold blockCount
  rw [Finset.card_eq_zero, Finset.filter_eq_empty_iff]
  intro p _ h
  have := hg.wf.bound _ (Graph.doesEdgeExist_iff.1 h)
  have hv : g.adjacencyMatrix.dimension = 0 := hn
  omega

/-! ## C38 -/

/-- **C38.** Pooling with block dimension below `2^32`: the result has one row per block, an entry for
exactly the blocks with an edge (seen by iteration, by `get_entry` and by `entry_count`), and the
edges of the blocks add up to all edges. -/
theorem C38_pooling_covers {g : Graph} (hg : GReach g) (P : Platform) (o o' : HashOrder) (b : Nat)
    (hb : effBlock g.vertexCount b < 2 ^ 32) :
    ∃ m, g.findAvgPoolMatrix P o b = .ok m ∧
      m.dimension = (if g.vertexCount = 0 then 0 else ceilDiv g.vertexCount (effBlock g.vertexCount b)) ∧
      (∀ c r, (∃ v, (v, c, r) ∈ m.items o') ↔ 0 < blockCount g.doesEdgeExist (effBlock g.vertexCount b) c r) ∧
      (∀ c r, m.getEntry f64Numeric c r ≠ .fin 0 ↔
        0 < blockCount g.doesEdgeExist (effBlock g.vertexCount b) c r) ∧
      ((m.items o').map fun x => (x.2.1, x.2.2)).Nodup ∧ (m.items o').length = m.entryCount ∧
      (∀ c r, 0 < blockCount g.doesEdgeExist (effBlock g.vertexCount b) c r → c < m.dimension ∧ r < m.dimension) ∧
      ∑ p ∈ Finset.range m.dimension ×ˢ Finset.range m.dimension,
        blockCount g.doesEdgeExist (effBlock g.vertexCount b) p.1 p.2 = g.edgeCount := by
  by_cases hn : g.vertexCount = 0
  · have h0 := blockCount_zero_of_empty hg.ok hn (effBlock g.vertexCount b)
    have hp : g.pairs = ∅ := by
      rw [Finset.eq_empty_iff_forall_notMem]
      intro p hp
      have := hg.ok.wf.bound p hp
      have hv : g.adjacencyMatrix.dimension = 0 := hn
      omega
    have hm : g.findAvgPoolMatrix P o b = .ok SqMatrix.new := by
      unfold Graph.findAvgPoolMatrix; rw [if_pos hn]
    refine ⟨SqMatrix.new, hm, by rw [if_pos hn]; rfl, ?_, ?_, ?_, ?_, ?_, ?_⟩
    · intro c r
      rw [h0]
      simp only [SqMatrix.mem_items SqMatrix.WF.new, SqMatrix.new_at]
      simp
    · intro c r
      rw [h0, SqMatrix.getEntry_eq, SqMatrix.new_at]
      simp only [Option.getD_none, lt_self_iff_false, iff_false, not_not]
      exact F64.lit_zero
    · exact SqMatrix.items_keys_nodup SqMatrix.WF.new o'
    · exact SqMatrix.items_length SqMatrix.WF.new o'
    · intro c r h; rw [h0] at h; exact absurd h (lt_irrefl _)
    · rw [Graph.edgeCount_eq hg.ok, hp]; rfl
  · rw [← clamp_eff hn] at hb ⊢
    have hpos := Graph.clamp_pos (b := b) hn
    obtain ⟨m, hm, hwf, hdim, hat⟩ := Graph.pool_ok hg.ok P o b hn hb
    generalize Graph.clampBlockDimension g.vertexCount b = b' at *
    have hsq := Graph.sq_le_U64 hb
    have h1 : 1 ≤ b' * b' := Nat.mul_pos hpos hpos
    refine ⟨m, hm, by rw [if_neg hn]; exact hdim, ?_, ?_, SqMatrix.items_keys_nodup hwf o',
      SqMatrix.items_length hwf o', ?_, ?_⟩
    · intro c r
      simp only [SqMatrix.mem_items hwf, hat]
      split
      · next h => simp [h]
      · next h => simp only [Option.some.injEq, exists_eq', true_iff]; omega
    · intro c r
      rw [SqMatrix.getEntry_eq, hat]
      split
      · next h =>
        simp only [h, Option.getD_none, lt_self_iff_false, iff_false, not_not]
        exact F64.lit_zero
      · next h =>
        have hk : 0 < blockCount g.doesEdgeExist b' c r := by omega
        simp only [Option.getD_some, hk, iff_true]
        have := lt_of_lt_of_le (F64.recipQ_pos h1 hsq) (F64.poolQ_pos h1 hsq hk)
        intro heq
        rw [F64.fin.injEq] at heq
        linarith
    · intro c r h
      have : (c, r) ∈ m.keys := by
        rw [SqMatrix.mem_keys]; simp only [hat]; rw [if_neg (by omega)]; exact ⟨_, rfl⟩
      exact hwf.bound _ this
    · rw [hdim]; exact sum_blocks hg.ok hpos

/-- Five vertices' worth of blocks: `exD` has 6 vertices, so blocks of dimension 4 give a 2×2 matrix. -/
example : GReach exD ∧ effBlock exD.vertexCount 4 = 4 ∧ exD.edgeCount = 2 ∧
    okAnd (exD.findAvgPoolMatrix exP .id 4) (fun m => m.dimension == 2 && m.entryCount == 2) ∧
    blockCount exD.doesEdgeExist 4 0 0 = 1 ∧ blockCount exD.doesEdgeExist 4 1 0 = 1 :=
  ⟨exD_reach, by decide, by decide, by decide +kernel, by decide, by decide⟩

/-! ## C39 -/

/-- The three roundings in the computation of a pooled value. -/
theorem pool_rounds {s : Nat} (h1 : 1 ≤ s) (hU : s ≤ U64_MAX) (k : Nat) :
    binary64.RoundsTo (s : ℚ) (.fin (F64.rndQ s)) ∧
    binary64.RoundsTo (1 / F64.rndQ s) (.fin (F64.recipQ s)) ∧
    binary64.RoundsTo (((min k (2 ^ 53) : Nat) : ℚ) * F64.recipQ s) (.fin (F64.poolQ s k)) := by
  obtain ⟨ha, hb⟩ := F64.rndQ_s_bounds h1 hU
  refine ⟨(F64.roundsTo _ _).2 ?_, (F64.roundsTo _ _).2 ?_, (F64.roundsTo _ _).2 ?_⟩
  · refine (F64.rnd_fin_of_le (by positivity) (n := 64) (by norm_num) ?_).symm
    have : U64_MAX ≤ 2 ^ 64 := by norm_num [U64_MAX]
    exact_mod_cast hU.trans this
  · refine (F64.rnd_fin_of_le (by positivity) (n := 0) (by norm_num) ?_).symm
    rw [pow_zero, div_le_one (by linarith)]
    exact ha
  · exact (F64.mul_cnt_recip h1 hU k).symm

/-- **C39.** Value of a pooled entry for block dimension up to `2^26`: with `y` the double nearest to the reciprocal of
the number of cells, the entry is the double nearest to the edge count times `y`; in `[0,1]`; within
relative error `2^-52 + 2^-106` of the true average; exact if the block dimension is a power of two. -/
theorem C39_pooling_values {g : Graph} (hg : GReach g) (P : Platform) (o : HashOrder) (b : Nat)
    (hb : effBlock g.vertexCount b ≤ 2 ^ 26) :
    ∃ m, g.findAvgPoolMatrix P o b = .ok m ∧ ∀ c r,
      let b' := effBlock g.vertexCount b
      let k := blockCount g.doesEdgeExist b' c r
      (∃ y : ℚ, binary64.RoundsTo (1 / (b' * b' : Nat)) (.fin y) ∧
        binary64.RoundsTo (k * y) (m.getEntry f64Numeric c r)) ∧
      ∃ x : ℚ, m.getEntry f64Numeric c r = .fin x ∧ 0 ≤ x ∧ x ≤ 1 ∧
        |x - (k : ℚ) / (b' * b' : Nat)| ≤ (k : ℚ) / (b' * b' : Nat) * (1 / 2 ^ 52 + 1 / 2 ^ 106) ∧
        ((∃ j, b' = 2 ^ j) → x = (k : ℚ) / (b' * b' : Nat)) := by
  have hpos : 0 < effBlock g.vertexCount b := by unfold effBlock; omega
  have hsq : effBlock g.vertexCount b * effBlock g.vertexCount b ≤ 2 ^ 52 :=
    (Nat.mul_le_mul hb hb).trans (by norm_num)
  have hU : effBlock g.vertexCount b * effBlock g.vertexCount b ≤ U64_MAX := hsq.trans (by norm_num [U64_MAX])
  have h1 : 1 ≤ effBlock g.vertexCount b * effBlock g.vertexCount b := Nat.mul_pos hpos hpos
  have key : ∃ m, g.findAvgPoolMatrix P o b = .ok m ∧ ∀ c r, m.getEntry f64Numeric c r =
      .fin (F64.poolQ (effBlock g.vertexCount b * effBlock g.vertexCount b)
        (blockCount g.doesEdgeExist (effBlock g.vertexCount b) c r)) := by
    have hz : ∀ s, F64.poolQ s 0 = 0 := by
      intro s; unfold F64.poolQ; simp [F64.rndQ_zero]
    by_cases hn : g.vertexCount = 0
    · refine ⟨SqMatrix.new, by unfold Graph.findAvgPoolMatrix; rw [if_pos hn], fun c r => ?_⟩
      rw [blockCount_zero_of_empty hg.ok hn, hz, SqMatrix.getEntry_eq, SqMatrix.new_at]
      exact F64.lit_zero
    · rw [← clamp_eff hn] at hb ⊢
      obtain ⟨m, hm, hwf, hdim, hat⟩ := Graph.pool_ok hg.ok P o b hn (by omega)
      refine ⟨m, hm, fun c r => ?_⟩
      rw [SqMatrix.getEntry_eq, hat]
      split
      · next h => rw [h, hz]; exact F64.lit_zero
      · rfl
  obtain ⟨m, hm, hv⟩ := key
  refine ⟨m, hm, ?_⟩
  intro c r
  have hk := Graph.blockCount_le g.doesEdgeExist (effBlock g.vertexCount b) c r
  simp only
  generalize effBlock g.vertexCount b = b' at *
  generalize hkk : blockCount g.doesEdgeExist b' c r = k at *
  have hk53 : k ≤ 2 ^ 53 := hk.trans (hsq.trans (by norm_num))
  have hv := hv c r
  rw [hkk] at hv
  rw [hv]
  refine ⟨?_, _, rfl, F64.poolQ_nonneg h1 hU k, F64.poolQ_le_one h1 hU hk, F64.poolQ_err h1 hsq hk, ?_⟩
  · obtain ⟨r1, r2, r3⟩ := pool_rounds h1 hU k
    rw [F64.rndQ_nat (hsq.trans (by norm_num))] at r2
    rw [Nat.min_eq_left hk53] at r3
    exact ⟨_, r2, r3⟩
  · rintro ⟨j, rfl⟩
    have hj : j ≤ 26 := by
      by_contra h
      have : 2 ^ 26 < 2 ^ j := Nat.pow_lt_pow_right (by norm_num) (by omega)
      omega
    have e : (2 : Nat) ^ j * 2 ^ j = 2 ^ (j + j) := (pow_add 2 j j).symm
    rw [e, F64.poolQ_pow2 (by omega) hk53]
    push_cast; rfl

/-- A block of nine cells with one edge: the value is not exactly 1/9. -/
example : GReach exD ∧ effBlock exD.vertexCount 3 = 3 ∧
    okAnd (exD.findAvgPoolMatrix exP .id 3)
      (fun m => decide (m.getEntry f64Numeric 0 0 = .fin (F64.rndQ (1 / 9))) && decide (F64.rndQ (1 / 9) ≠ 1 / 9)) :=
  ⟨exD_reach, by decide, by decide +kernel⟩

/-! ## C40 -/

/-- **C40.** For block dimension and vertex count at least two: whenever pooling returns a matrix (always below
`2^32`, see C46), `approximate` returns a graph with one vertex per block, the same direction, and
exactly the edges whose pooled entry is not zero and reaches the threshold in effect. -/
theorem C40_approximate_keeps {g : Graph} (hg : GReach g) (P : Platform) (o₁ o₂ : HashOrder) {b : Nat} (t : F64)
    (hb : 2 ≤ b) (hn : 2 ≤ g.vertexCount) {m : SqMatrix F64} (hm : g.findAvgPoolMatrix P o₁ b = .ok m) :
    ∃ a, g.approximate P o₁ o₂ b t = .ok a ∧ a.isUndirected = g.isUndirected ∧
      a.vertexCount = ceilDiv g.vertexCount (min b g.vertexCount) ∧
      ∀ c r, a.doesEdgeExist c r = true ↔
        m.getEntry f64Numeric c r ≠ .fin 0 ∧ F64.le (effThreshold t) (m.getEntry f64Numeric c r) = true := by
  obtain ⟨a, ha, _, hu, hv, he⟩ := Graph.approximate_spec hg.ok o₂ t hb hn hm
  refine ⟨a, ha, hu, hv, fun c r => ?_⟩
  rw [he, clampThreshold_eff, SqMatrix.getEntry_eq]
  have h0 := eff_zero t
  cases hat : m.at? c r with
  | none =>
    simp only [Option.getD_none, reduceCtorEq, false_and, exists_false, false_iff]
    rintro ⟨h, _⟩
    exact h F64.lit_zero
  | some v =>
    simp only [Option.some.injEq, exists_eq_left', Option.getD_some]
    constructor
    · intro h
      refine ⟨?_, h⟩
      rintro rfl
      rw [h0] at h; simp at h
    · exact fun h => h.2

/-- `exD` has 6 vertices; of its 2×2 pooled matrix with blocks of dimension 4 only blocks with 1/16 remain. -/
example : GReach exD ∧ 2 ≤ exD.vertexCount ∧
    okAnd (exD.approximate exP .id .id 4 (.fin (1 / 16))) (fun a => a.edgeCount == 2 && a.doesEdgeExist 1 0) ∧
    okAnd (exD.approximate exP .id .id 4 (.fin (1 / 15))) (fun a => a.edgeCount == 0 && a.vertexCount == 2) :=
  ⟨exD_reach, by decide, by decide +kernel, by decide +kernel⟩

/-! ## Approximation below `2^32` -/

/-- Existing edges of `approximate`, for effective block dimension below `2^32`. -/
theorem approx_edges {g : Graph} (hg : GReach g) (P : Platform) (o₁ o₂ : HashOrder) {b : Nat} (t : F64)
    (hb : 2 ≤ b) (hn : 2 ≤ g.vertexCount) (h32 : min b g.vertexCount < 2 ^ 32) :
    ∃ a, g.approximate P o₁ o₂ b t = .ok a ∧ ∀ c r, a.doesEdgeExist c r = true ↔
      0 < blockCount g.doesEdgeExist (min b g.vertexCount) c r ∧
      F64.le (effThreshold t) (.fin (F64.poolQ (min b g.vertexCount * min b g.vertexCount)
        (blockCount g.doesEdgeExist (min b g.vertexCount) c r))) = true := by
  have hcl : Graph.clampBlockDimension g.vertexCount b = min b g.vertexCount := Graph.clamp_min (by omega)
  obtain ⟨m, hm, hwf, hdim, hat⟩ := Graph.pool_ok hg.ok P o₁ b (by omega) (by rw [hcl]; exact h32)
  obtain ⟨a, ha, _, hu, hv, he⟩ := Graph.approximate_spec hg.ok o₂ t hb hn hm
  refine ⟨a, ha, fun c r => ?_⟩
  rw [he, clampThreshold_eff, hat, hcl]
  split
  · next h => simp [h]
  · next h =>
    have : 0 < blockCount g.doesEdgeExist (min b g.vertexCount) c r := by omega
    simp [this]

/-! ## C41 -/

/-- The full statement of C41: `approximate` decides by the true average. -/
def C41_full : Prop :=
  ∀ (g : Graph), GReach g → ∀ (P : Platform) (o₁ o₂ : HashOrder) (b : Nat) (q : ℚ), 2 ≤ b → 2 ≤ g.vertexCount →
    b < 2 ^ 32 → 1 / 10 ^ 18 ≤ q → q ≤ 1 → binary64.Has q →
    ∀ a, g.approximate P o₁ o₂ b (.fin q) = .ok a → ∀ c r,
      (a.doesEdgeExist c r = true ↔
        q ≤ (blockCount g.doesEdgeExist (min b g.vertexCount) c r : ℚ) /
          (min b g.vertexCount * min b g.vertexCount : Nat))

/-- The complete directed graph with loops on 7 vertices. -/
def k7 : Graph :=
  (List.range 7).foldl (fun g u => (List.range 7).foldl (fun g v => g.addEdge u v) g) Graph.newDirected

theorem reach_foldl {α : Type} (F : Graph → α → Graph) (hF : ∀ g a, GReach g → GReach (F g a)) (l : List α) :
    ∀ g, GReach g → GReach (l.foldl F g) := by
  induction l with
  | nil => intro g h; exact h
  | cons a l ih => intro g h; exact ih _ (hF g a h)

theorem k7_reach : GReach k7 :=
  reach_foldl _ (fun _ u h => reach_foldl _ (fun _ v h => h.addEdge u v) _ _ h) _ _ .newDirected

/-- **C41 is false**: a block of 7×7 cells that is completely filled does not reach the threshold 1. -/
theorem C41_full_false : ¬ C41_full := by
  intro h
  cases ha : k7.approximate exP .id .id 7 (.fin 1) with
  | ok a =>
    have hv : k7.vertexCount = 7 := by decide +kernel
    have := (h k7 k7_reach exP .id .id 7 1 (by norm_num) (by rw [hv]; norm_num) (by norm_num) (by norm_num) le_rfl
      ⟨1, 0, by norm_num, by norm_num [binary64], by norm_num [binary64],
        by rw [abs_one]; exact one_lt_zpow₀ (by norm_num) (by norm_num [binary64])⟩ a ha 0 0).2 (by
        have h2 : blockCount k7.doesEdgeExist 7 0 0 = 49 := by decide +kernel
        rw [hv, show min 7 7 = 7 from rfl, h2]; norm_num)
    have hc : okAnd (k7.approximate exP .id .id 7 (.fin 1)) (fun a => !a.doesEdgeExist 0 0) = true := by
      decide +kernel
    rw [ha] at hc
    change (!a.doesEdgeExist 0 0) = true at hc
    rw [this] at hc
    simp at hc
  | err e =>
    have hc : okAnd (k7.approximate exP .id .id 7 (.fin 1)) (fun _ => true) = true := by decide +kernel
    rw [ha] at hc; simp [okAnd] at hc
  | panic =>
    have hc : okAnd (k7.approximate exP .id .id 7 (.fin 1)) (fun _ => true) = true := by decide +kernel
    rw [ha] at hc; simp [okAnd] at hc

/-- **C41, the part that holds** (`C41_full` is false): for effective block dimension below `2^32` and a threshold
`0 < q ≤ 1`, a block of at most `2^53` edges is decided by the true average if the block dimension is a power of two,
and for every block dimension as soon as the true average is not within relative distance `2^-50` of `q` (`2^-51` up to
dimension `2^26`). -/
theorem C41_true_average_partial {g : Graph} (hg : GReach g) (P : Platform) (o₁ o₂ : HashOrder) {b : Nat} {q : ℚ}
    (hb : 2 ≤ b) (hn : 2 ≤ g.vertexCount) (h32 : min b g.vertexCount < 2 ^ 32) (hq0 : 0 < q) (hq1 : q ≤ 1) :
    ∃ a, g.approximate P o₁ o₂ b (.fin q) = .ok a ∧ ∀ c r,
      let b' := min b g.vertexCount
      let k := blockCount g.doesEdgeExist b' c r
      let avg : ℚ := (k : ℚ) / (b' * b' : Nat)
      let ε : ℚ := if b' ≤ 2 ^ 26 then 1 / 2 ^ 51 else 1 / 2 ^ 50
      k ≤ 2 ^ 53 →
      ((∃ j, b' = 2 ^ j) → (a.doesEdgeExist c r = true ↔ q ≤ avg)) ∧
      (q * (1 + ε) ≤ avg → a.doesEdgeExist c r = true) ∧
      (avg ≤ q * (1 - ε) → a.doesEdgeExist c r = false) := by
  obtain ⟨a, ha, he⟩ := approx_edges hg P o₁ o₂ (.fin q) hb hn h32
  refine ⟨a, ha, fun c r => ?_⟩
  have heff : effThreshold (.fin q) = .fin q := by
    unfold effThreshold; simp only; rw [if_neg (not_lt.2 hq1), if_neg (not_le.2 hq0)]
  have he := he c r
  rw [heff, F64_le_fin] at he
  have hk := Graph.blockCount_le g.doesEdgeExist (min b g.vertexCount) c r
  have hpos : 0 < min b g.vertexCount := by omega
  simp only
  generalize min b g.vertexCount = b' at *
  generalize blockCount g.doesEdgeExist b' c r = k at *
  intro hk53
  have hU : b' * b' ≤ U64_MAX := Graph.sq_le_U64 h32
  have h1 : 1 ≤ b' * b' := Nat.mul_pos hpos hpos
  have hs : (0 : ℚ) < (b' * b' : Nat) := by exact_mod_cast h1
  have havg : (0 : ℚ) ≤ (k : ℚ) / (b' * b' : Nat) := by positivity
  have hkpos : ∀ x : ℚ, 0 < x → x ≤ (k : ℚ) / (b' * b' : Nat) → 0 < k := by
    intro x hx h
    by_contra h0
    have : k = 0 := by omega
    rw [this] at h; simp at h; linarith
  refine ⟨?_, ?_⟩
  · rintro ⟨j, rfl⟩
    have hj : j ≤ 31 := by
      by_contra h
      have : 2 ^ 32 ≤ 2 ^ j := Nat.pow_le_pow_right (by norm_num) (by omega)
      omega
    have e : (2 : Nat) ^ j * 2 ^ j = 2 ^ (j + j) := (pow_add 2 j j).symm
    have e2 : (((2 ^ (j + j) : Nat)) : ℚ) = 2 ^ (j + j) := by push_cast; rfl
    rw [e] at hk hkpos ⊢
    rw [e, F64.poolQ_pow2 (by omega) hk53] at he
    rw [e2] at hkpos ⊢
    rw [he]
    exact ⟨fun h => h.2, fun h => ⟨hkpos q hq0 h, h⟩⟩
  · have key : ∀ ε δ : ℚ, 0 ≤ δ → δ ≤ 1 / 2 → ε < 1 → 1 ≤ (1 + ε) * (1 - δ) → (1 - ε) * (1 + δ) < 1 →
        |F64.poolQ (b' * b') k - (k : ℚ) / (b' * b' : Nat)| ≤ (k : ℚ) / (b' * b' : Nat) * δ →
        (q * (1 + ε) ≤ (k : ℚ) / (b' * b' : Nat) → a.doesEdgeExist c r = true) ∧
        ((k : ℚ) / (b' * b' : Nat) ≤ q * (1 - ε) → a.doesEdgeExist c r = false) := by
      intro ε δ hδ hδ1 hε2 hlo hhi herr
      have herr := abs_le.1 herr
      have hε1 : 0 < 1 + ε := by nlinarith
      constructor
      · intro h
        rw [he]
        generalize (k : ℚ) / (b' * b' : Nat) = A at *
        refine ⟨hkpos _ (mul_pos hq0 hε1) h, ?_⟩
        have h3 : A * (1 - δ) ≤ F64.poolQ (b' * b') k := by linarith [herr.1]
        have h4 := mul_le_mul_of_nonneg_right h (by linarith : 0 ≤ 1 - δ)
        have h5 := mul_le_mul_of_nonneg_left hlo hq0.le
        linarith
      · intro h
        rw [← Bool.not_eq_true, he]
        rintro ⟨hk0, hle⟩
        generalize (k : ℚ) / (b' * b' : Nat) = A at *
        have h3 : F64.poolQ (b' * b') k ≤ A * (1 + δ) := by linarith [herr.2]
        have h4 := mul_le_mul_of_nonneg_right h (by linarith : 0 ≤ 1 + δ)
        have h5 := mul_lt_mul_of_pos_left hhi hq0
        linarith
    split
    · next h26 =>
      have hsq : b' * b' ≤ 2 ^ 52 := (Nat.mul_le_mul h26 h26).trans (by norm_num)
      exact key (1 / 2 ^ 51) (1 / 2 ^ 52 + 1 / 2 ^ 106) (by norm_num) (by norm_num) (by norm_num) (by norm_num)
        (by norm_num) (F64.poolQ_err h1 hsq hk)
    · exact key (1 / 2 ^ 50) (1 / 2 ^ 51) (by norm_num) (by norm_num) (by norm_num) (by norm_num)
        (by norm_num) (F64.poolQ_err64 h1 hU hk53)

/-- A case outside the power-of-two rule and outside the band: `k7` with blocks of dimension 3, threshold 1/2. -/
example : GReach k7 ∧ 2 ≤ k7.vertexCount ∧ min 3 k7.vertexCount < 2 ^ 32 ∧
    (1 / 2 : ℚ) * (1 + 1 / 2 ^ 51) ≤ (blockCount k7.doesEdgeExist 3 0 0 : ℚ) / (3 * 3 : Nat) ∧
    (blockCount k7.doesEdgeExist 3 2 0 : ℚ) / (3 * 3 : Nat) ≤ 1 / 2 * (1 - 1 / 2 ^ 51) ∧
    okAnd (k7.approximate exP .id .id 3 (.fin (1 / 2))) (fun a => a.doesEdgeExist 0 0 && !a.doesEdgeExist 2 0) := by
  refine ⟨k7_reach, by decide +kernel, by decide +kernel, ?_, ?_, by decide +kernel⟩
  · rw [show blockCount k7.doesEdgeExist 3 0 0 = 9 by decide +kernel]; norm_num
  · rw [show blockCount k7.doesEdgeExist 3 2 0 = 3 by decide +kernel]; norm_num

/-! ## Thresholds -/

/-- Below the effective block dimension `10^9` every non-empty block reaches `10^-18`. -/
theorem tiny_le_pool {b k : Nat} (hb0 : 0 < b) (hb : b ≤ 10 ^ 9) (hk : 0 < k) : tiny ≤ F64.poolQ (b * b) k := by
  have h1 : 1 ≤ b * b := Nat.mul_pos hb0 hb0
  have h18 : b * b ≤ 10 ^ 18 := (Nat.mul_le_mul hb hb).trans (by norm_num)
  have hU : b * b ≤ U64_MAX := h18.trans (by norm_num [U64_MAX])
  refine le_trans ?_ (F64.poolQ_pos h1 hU hk)
  rw [tiny_eq]
  unfold F64.recipQ
  have hge := (F64.rndQ_s_bounds h1 hU).1
  have hle : F64.rndQ ((b * b : Nat) : ℚ) ≤ 10 ^ 18 := by
    have h := F64.rndQ_exact (m := 5 ^ 18) (e := 18) (by norm_num) (by norm_num) (by norm_num)
    have e : (((5 : ℤ) ^ 18 : ℤ) : ℚ) * 2 ^ (18 : ℤ) = 10 ^ 18 := by
      rw [show ((2 : ℚ) ^ (18 : ℤ)) = 2 ^ 18 from zpow_ofNat _ _]; norm_num
    rw [e] at h
    rw [← h]
    exact F64.rndQ_mono (by positivity) (by exact_mod_cast h18)
  apply F64.rndQ_mono (by positivity)
  exact one_div_le_one_div_of_le (by linarith) hle

/-- A directed graph with one edge and `2^31` vertices. -/
def bigG : Graph := (Graph.newDirected.addEdge 0 0).addVertex (2 ^ 31 - 1) none
theorem bigG_reach : GReach bigG := .addVertex _ _ (.addEdge _ _ .newDirected)

/-- Negative thresholds and zero. -/
def NonPos (t : F64) : Prop := t = .inf true ∨ ∃ q ≤ 0, t = .fin q

theorem eff_nonPos {t : F64} (h : NonPos t) : effThreshold t = .fin tiny := by
  rcases h with rfl | ⟨q, hq, rfl⟩
  · rfl
  · unfold effThreshold; simp only; rw [if_neg (by linarith), if_pos hq]

/-- The full statement of C42. -/
def C42_full : Prop :=
  ∀ (g : Graph), GReach g → ∀ (P : Platform) (o₁ o₂ o₃ o₄ : HashOrder) (b : Nat) (t₁ t₂ : F64),
    F64.le t₁ t₂ = true → ∀ a₁ a₂, g.approximate P o₁ o₂ b t₁ = .ok a₁ → g.approximate P o₃ o₄ b t₂ = .ok a₂ →
    ∀ c r, a₂.doesEdgeExist c r = true → a₁.doesEdgeExist c r = true


/-- A threshold strictly between zero and `10^-18`. -/
def gapT : F64 := .fin (F64.rndQ (2 / 10 ^ 19))

/-- **C42 is false**: threshold 0 keeps fewer edges than threshold `2·10^-19`, on a graph of `2^31` vertices. -/
theorem C42_full_false : ¬ C42_full := by
  intro h
  obtain ⟨a₁, h1, e1⟩ := okAnd_elim (show okAnd (bigG.approximate exP .id .id (2 ^ 31) (.fin 0))
    (fun a => !a.doesEdgeExist 0 0) = true by decide +kernel)
  obtain ⟨a₂, h2, e2⟩ := okAnd_elim (show okAnd (bigG.approximate exP .id .id (2 ^ 31) gapT)
    (fun a => a.doesEdgeExist 0 0) = true by decide +kernel)
  have := h bigG bigG_reach exP .id .id .id .id (2 ^ 31) (.fin 0) gapT (by decide +kernel) a₁ a₂ h1 h2 0 0 e2
  rw [this] at e1; simp at e1

theorem eff_mono {t₁ t₂ : F64} (h : F64.le t₁ t₂ = true) (hgap : ¬ (NonPos t₁ ∧ ∃ q, 0 < q ∧ q < tiny ∧ t₂ = .fin q))
    {x : ℚ} (hx : F64.le (effThreshold t₂) (.fin x) = true) : F64.le (effThreshold t₁) (.fin x) = true := by
  have ht := tiny_le_one
  have htp := tiny_pos
  cases t₁ with
  | nan => simp [F64.le] at h
  | inf s₁ =>
    cases s₁ with
    | true =>
      have he : effThreshold (.inf true) = .fin tiny := rfl
      rw [he, F64_le_fin]
      cases t₂ with
      | nan => simp [F64.le] at h
      | inf s₂ =>
        cases s₂ with
        | true => exact (F64_le_fin _ _).1 hx
        | false => have := (F64_le_fin 1 x).1 hx; linarith
      | fin q =>
        unfold effThreshold at hx
        simp only at hx
        split at hx
        · have := (F64_le_fin 1 x).1 hx; linarith
        · split at hx
          · exact (F64_le_fin _ _).1 hx
          · next h1 h2 =>
            have hqx := (F64_le_fin q x).1 hx
            by_contra hlt
            exact hgap ⟨Or.inl rfl, q, by linarith, by linarith, rfl⟩
    | false =>
      cases t₂ with
      | nan => simp [F64.le] at h
      | inf s₂ =>
        cases s₂ with
        | true => simp [F64.le] at h
        | false => exact hx
      | fin q => simp [F64.le] at h
  | fin q₁ =>
    cases t₂ with
    | nan => simp [F64.le] at h
    | inf s₂ =>
      cases s₂ with
      | true => simp [F64.le] at h
      | false =>
        have h1 := (F64_le_fin 1 x).1 hx
        unfold effThreshold
        simp only
        split
        · rw [F64_le_fin]; exact h1
        · split
          · rw [F64_le_fin]; linarith
          · rw [F64_le_fin]; linarith
    | fin q₂ =>
      rw [F64_le_fin] at h
      unfold effThreshold at hx ⊢
      simp only at hx ⊢
      by_cases c1 : 1 < q₁
      · rw [if_pos c1]; rw [if_pos (by linarith)] at hx; exact hx
      · rw [if_neg c1]
        by_cases c2 : 1 < q₂
        · rw [if_pos c2, F64_le_fin] at hx
          split
          · rw [F64_le_fin]; linarith
          · rw [F64_le_fin]; linarith
        · rw [if_neg c2] at hx
          by_cases c3 : q₂ ≤ 0
          · rw [if_pos c3] at hx; rw [if_pos (by linarith)]; exact hx
          · rw [if_neg c3, F64_le_fin] at hx
            by_cases c4 : q₁ ≤ 0
            · rw [if_pos c4, F64_le_fin]
              by_contra hlt
              exact hgap ⟨Or.inr ⟨q₁, c4, rfl⟩, q₂, by linarith, by linarith, rfl⟩
            · rw [if_neg c4, F64_le_fin]; linarith

/-- **C42, the part that holds** (`C42_full` is false): for effective block dimension below `2^32`, `approximate` is
monotone in the threshold for all pairs of thresholds except a non-positive one against one strictly
between zero and `10^-18` — and that exception only exists for block dimensions above `10^9`. -/
theorem C42_threshold_monotone_partial {g : Graph} (hg : GReach g) (P : Platform) (o₁ o₂ o₃ o₄ : HashOrder) {b : Nat}
    {t₁ t₂ : F64} (h : F64.le t₁ t₂ = true) (h32 : min b g.vertexCount < 2 ^ 32)
    (hgap : ¬ (NonPos t₁ ∧ ∃ q, 0 < q ∧ q < tiny ∧ t₂ = .fin q) ∨ min b g.vertexCount ≤ 10 ^ 9) :
    ∃ a₁ a₂, g.approximate P o₁ o₂ b t₁ = .ok a₁ ∧ g.approximate P o₃ o₄ b t₂ = .ok a₂ ∧
      ∀ c r, a₂.doesEdgeExist c r = true → a₁.doesEdgeExist c r = true := by
  by_cases hs : b ≤ 1 ∨ g.vertexCount ≤ 1
  · refine ⟨g, g, ?_, ?_, fun c r h => h⟩ <;> (unfold Graph.approximate; rw [if_pos hs])
  · obtain ⟨a₁, h1, e1⟩ := approx_edges hg P o₁ o₂ t₁ (by omega : 2 ≤ b) (by omega) h32
    obtain ⟨a₂, h2, e2⟩ := approx_edges hg P o₃ o₄ t₂ (by omega : 2 ≤ b) (by omega) h32
    refine ⟨a₁, a₂, h1, h2, fun c r hc => ?_⟩
    rw [e2] at hc
    rw [e1]
    refine ⟨hc.1, ?_⟩
    by_cases hg' : NonPos t₁ ∧ ∃ q, 0 < q ∧ q < tiny ∧ t₂ = .fin q
    · rcases hgap with h | h
      · exact absurd hg' h
      · rw [eff_nonPos hg'.1, F64_le_fin]
        exact tiny_le_pool (by omega) h hc.1
    · exact eff_mono h hg' hc.2

/-- Two thresholds that select differently. -/
example : GReach exD ∧ F64.le (.fin (1 / 16)) (.fin (1 / 15)) = true ∧ min 4 exD.vertexCount ≤ 10 ^ 9 ∧
    okAnd (exD.approximate exP .id .rev 4 (.fin (1 / 16))) (fun a => a.edgeCount == 2) ∧
    okAnd (exD.approximate exP .rev .id 4 (.fin (1 / 15))) (fun a => a.edgeCount == 0) :=
  ⟨exD_reach, by decide +kernel, by decide, by decide +kernel, by decide +kernel⟩

/-! ## C43 -/

/-- **C43.** Block dimension 0 or 1, or at most one vertex: the result is the same graph. -/
theorem C43_copy (g : Graph) (P : Platform) (o₁ o₂ : HashOrder) (b : Nat) (t : F64)
    (h : b ≤ 1 ∨ g.vertexCount ≤ 1) : g.approximate P o₁ o₂ b t = .ok g := by
  unfold Graph.approximate; rw [if_pos h]

example : (1 ≤ 1 ∨ exU.vertexCount ≤ 1) ∧ exU.edgeCount = 5 := ⟨Or.inl le_rfl, by decide⟩

/-! ## C44 -/

/-- The full documented statement of the lower clamp: every threshold below `10^-18` acts like `10^-18`. -/
def C44_full : Prop :=
  ∀ (g : Graph), GReach g → ∀ (P : Platform) (o₁ o₂ : HashOrder) (b : Nat) (t : F64),
    F64.lt t (.fin tiny) = true →
      g.approximate P o₁ o₂ b t = g.approximate P o₁ o₂ b (.fin tiny)

theorem lit_tiny : F64.lit (1 / 10 ^ 18) = .fin tiny := by
  rw [tiny_eq]
  unfold F64.lit
  rw [F64.rnd_fin_of_le (by positivity) (n := 0) (by norm_num) (by norm_num)]

/-- **C44.** `tiny` is the double nearest to `10^-18`, which is the value of the literal `1e-18`. -/
theorem C44_tiny : binary64.RoundsTo (1 / 10 ^ 18) (.fin tiny) := (F64.roundsTo _ _).2 lit_tiny.symm

/-- **C44 is false** for thresholds strictly between zero and `10^-18`. -/
theorem C44_full_false : ¬ C44_full := by
  intro h
  have := h bigG bigG_reach exP .id .id (2 ^ 31) gapT (by decide +kernel)
  obtain ⟨a₂, h2, e2⟩ := okAnd_elim (show okAnd (bigG.approximate exP .id .id (2 ^ 31) gapT)
    (fun a => a.doesEdgeExist 0 0) = true by decide +kernel)
  obtain ⟨a₁, h1, e1⟩ := okAnd_elim (show okAnd (bigG.approximate exP .id .id (2 ^ 31) (.fin tiny))
    (fun a => !a.doesEdgeExist 0 0) = true by decide +kernel)
  rw [this, h1] at h2
  cases h2
  rw [e2] at e1; simp at e1

theorem approximate_congr {g : Graph} (P : Platform) (o₁ o₂ : HashOrder) (b : Nat) {t t' : F64}
    (h : effThreshold t = effThreshold t') : g.approximate P o₁ o₂ b t = g.approximate P o₁ o₂ b t' := by
  unfold Graph.approximate
  rw [clampThreshold_eff, clampThreshold_eff, h]

theorem eff_of_eff (q : ℚ) (h0 : 0 < q) (h1 : q ≤ 1) : effThreshold (.fin q) = .fin q := by
  unfold effThreshold; simp only; rw [if_neg (not_lt.2 h1), if_neg (not_le.2 h0)]

/-- **C44, the part that holds** (`C44_full` is false): thresholds above one act like one; thresholds of zero or below
act like `10^-18`; NaN keeps no edge; and for effective block dimensions up to `10^9` every threshold
below `10^-18` acts like `10^-18`. -/
theorem C44_threshold_clamping_partial {g : Graph} (hg : GReach g) (P : Platform) (o₁ o₂ : HashOrder) (b : Nat) :
    (∀ t, F64.lt (.fin 1) t = true → g.approximate P o₁ o₂ b t = g.approximate P o₁ o₂ b (.fin 1)) ∧
    (∀ t, F64.le t (.fin 0) = true →
      g.approximate P o₁ o₂ b t = g.approximate P o₁ o₂ b (.fin tiny)) ∧
    (2 ≤ b → 2 ≤ g.vertexCount → ∀ a, g.approximate P o₁ o₂ b .nan = .ok a → a.edgeCount = 0) ∧
    (min b g.vertexCount ≤ 10 ^ 9 → ∀ t, F64.lt t (.fin tiny) = true →
      g.approximate P o₁ o₂ b t = g.approximate P o₁ o₂ b (.fin tiny)) := by
  have ht := tiny_pos
  have ht1 := tiny_le_one
  have hlow : ∀ t, F64.le t (.fin 0) = true → effThreshold t = effThreshold (.fin tiny) := by
    intro t h
    rw [eff_of_eff _ ht ht1]
    cases t with
    | nan => simp [F64.le] at h
    | inf s =>
      cases s
      · simp [F64.le] at h
      · rfl
    | fin q =>
      rw [F64_le_fin] at h
      exact eff_nonPos (Or.inr ⟨q, h, rfl⟩)
  refine ⟨?_, fun t h => approximate_congr P o₁ o₂ b (hlow t h), ?_, ?_⟩
  · intro t h
    apply approximate_congr
    rw [eff_of_eff 1 one_pos le_rfl]
    cases t with
    | nan => simp [F64.lt] at h
    | inf s =>
      cases s
      · rfl
      · simp [F64.lt, F64.le] at h
    | fin q =>
      have hq : 1 < q := by
        simp only [F64.lt, F64.le, Bool.and_eq_true, decide_eq_true_eq, Bool.not_eq_true',
          decide_eq_false_iff_not] at h
        exact not_le.1 h.2
      unfold effThreshold; simp only; rw [if_pos hq]
  · intro hb hn a ha
    rw [Graph.approximate_eq P o₁ o₂ _ hb hn, Res.map_eq_ok] at ha
    obtain ⟨m, hm, rfl⟩ := ha
    have he : ∀ x : F64 × Nat × Nat, F64.le (clampThreshold .nan) x.1 = false := fun x => by
      rw [clampThreshold_eff]; rfl
    simp only [he, List.filter_false, List.map_nil, List.foldl_nil, Graph.addVertex_none, Graph.touch_edgeCount]
    cases g.isUndirected <;> rfl
  · intro h9 t htl
    by_cases hs : b ≤ 1 ∨ g.vertexCount ≤ 1
    · rw [C43_copy _ _ _ _ _ _ hs, C43_copy _ _ _ _ _ _ hs]
    · by_cases hle : F64.le t (.fin 0) = true
      · exact approximate_congr P o₁ o₂ b (hlow t hle)
      · -- a threshold in the gap: both thresholds select every stored entry
        obtain ⟨q, rfl⟩ : ∃ q, t = .fin q := by
          cases t with
          | nan => simp [F64.lt] at htl
          | inf s =>
            cases s
            · simp [F64.lt, F64.le] at htl
            · simp [F64.le] at hle
          | fin q => exact ⟨q, rfl⟩
        rw [F64_le_fin, not_le] at hle
        have hq : q < tiny := by
          simp only [F64.lt, F64.le, Bool.and_eq_true, decide_eq_true_eq, Bool.not_eq_true',
            decide_eq_false_iff_not] at htl
          exact not_le.1 htl.2
        have hcl : Graph.clampBlockDimension g.vertexCount b = min b g.vertexCount := Graph.clamp_min (by omega)
        obtain ⟨m, hm, hwf, hdim, hat⟩ := Graph.pool_ok hg.ok P o₁ b (by omega) (by rw [hcl]; omega)
        rw [Graph.approximate_eq P o₁ o₂ _ (by omega) (by omega),
          Graph.approximate_eq P o₁ o₂ _ (by omega) (by omega), hm]
        have hsel : ∀ x ∈ m.items o₂, tiny ≤ (match x.1 with | .fin y => y | _ => 0) ∧ ∃ y, x.1 = .fin y := by
          rintro ⟨v, c, r⟩ hx
          rw [SqMatrix.mem_items hwf, hat] at hx
          split at hx
          · simp at hx
          · next hk =>
            rw [Option.some.injEq] at hx
            subst hx
            rw [hcl] at hk ⊢
            exact ⟨tiny_le_pool (by omega) h9 (by omega), _, rfl⟩
        have hall : ∀ z, z ≤ tiny → 0 < z → (m.items o₂).filter (fun x => F64.le (clampThreshold (.fin z)) x.1) = m.items o₂ := by
          intro z hz hz0
          rw [List.filter_eq_self]
          intro x hx
          obtain ⟨h1, y, hy⟩ := hsel x hx
          rw [clampThreshold_eff, eff_of_eff z hz0 (by linarith), hy, F64_le_fin]
          rw [hy] at h1
          simp only at h1
          linarith
        simp only [Res.map, hall q hq.le hle, hall tiny le_rfl ht]

/-- The hypotheses are met by a threshold above one, by one below zero and by one in the gap. -/
example : F64.lt (.fin 1) (.fin 3) = true ∧ F64.le (.fin (-1)) (.fin 0) = true ∧
    F64.lt gapT (.fin tiny) = true ∧ F64.le gapT (.fin 0) = false ∧ min 4 exD.vertexCount ≤ 10 ^ 9 ∧
    okAnd (exD.approximate exP .id .id 4 gapT) (fun a => a.edgeCount == 2) ∧
    okAnd (exD.approximate exP .id .id 4 .nan) (fun a => a.edgeCount == 0) :=
  ⟨by decide +kernel, by decide +kernel, by decide +kernel, by decide +kernel, by decide, by decide +kernel,
    by decide +kernel⟩

/-! ## C45 -/

/-- The full statement of C45, for every block dimension. -/
def C45_full : Prop :=
  ∀ (g : Graph), GReach g → ∀ (P : Platform) (o₁ o₂ : HashOrder) (b : Nat) (t : F64), NonPos t → 2 ≤ b →
    2 ≤ g.vertexCount → ∀ a, g.approximate P o₁ o₂ b t = .ok a →
    ∀ c r, (a.doesEdgeExist c r = true ↔ 0 < blockCount g.doesEdgeExist (min b g.vertexCount) c r)

/-- **C45 is false** for huge blocks: one edge in a block of `2^31 × 2^31` cells is dropped at threshold 0. -/
theorem C45_full_false : ¬ C45_full := by
  intro h
  obtain ⟨a₁, h1, e1⟩ := okAnd_elim (show okAnd (bigG.approximate exP .id .id (2 ^ 31) (.fin 0))
    (fun a => !a.doesEdgeExist 0 0) = true by decide +kernel)
  have hv : bigG.vertexCount = 2 ^ 31 := by decide +kernel
  have := (h bigG bigG_reach exP .id .id (2 ^ 31) (.fin 0) (Or.inr ⟨0, le_rfl, rfl⟩) (by norm_num)
    (by rw [hv]; norm_num) a₁ h1 0 0).2 (by
      rw [hv]
      unfold blockCount
      rw [Finset.card_pos]
      refine ⟨(0, 0), ?_⟩
      rw [Finset.mem_filter, Finset.mem_product, Finset.mem_range]
      exact ⟨⟨by norm_num, by norm_num⟩, by decide +kernel⟩)
  rw [this] at e1; simp at e1

/-- Where each edge count stops being kept, up to the last one that matters. -/
theorem tiny_pool_table : ∀ k ∈ List.range 19, k = 9 ∨ k = 0 ∨
    tiny ≤ F64.poolQ (Nat.sqrt (10 ^ 18 * k) * Nat.sqrt (10 ^ 18 * k)) k ∧
    F64.poolQ ((Nat.sqrt (10 ^ 18 * k) + 1) * (Nat.sqrt (10 ^ 18 * k) + 1)) k < tiny := by
  decide +kernel

/-- Exactly when `k` edges in a block of `b × b` cells reach `10^-18`. -/
theorem tiny_pool_iff {b k : Nat} (hb0 : 0 < b) (hb : b < 2 ^ 32) (hk : 0 < k) :
    tiny ≤ F64.poolQ (b * b) k ↔ b * b ≤ 10 ^ 18 * k ∧ ¬ (b = 3 * 10 ^ 9 ∧ k = 9) := by
  have hsq : ∀ {x y : Nat}, x ≤ y → x * x ≤ y * y := fun h => Nat.mul_le_mul h h
  have hU : ∀ {x : Nat}, x < 2 ^ 32 → x * x ≤ U64_MAX := fun h => Graph.sq_le_U64 h
  have key : ∀ B : Nat, B + 1 < 2 ^ 32 → tiny ≤ F64.poolQ (B * B) k → F64.poolQ ((B + 1) * (B + 1)) k < tiny →
      (tiny ≤ F64.poolQ (b * b) k ↔ b ≤ B) := by
    intro B hB h1 h2
    constructor
    · intro h
      by_contra hlt
      have := F64.poolQ_anti (Nat.mul_pos (by omega) (by omega)) (hsq (by omega : B + 1 ≤ b)) (hU hb) k
      linarith
    · intro h
      exact h1.trans (F64.poolQ_anti (Nat.mul_pos hb0 hb0) (hsq h) (hU (by omega)) k)
  rcases Nat.lt_or_ge 18 k with h19 | h18
  · have h1 : tiny ≤ F64.poolQ ((2 ^ 32 - 1) * (2 ^ 32 - 1)) 19 := by decide +kernel
    have h2 := F64.poolQ_anti (Nat.mul_pos hb0 hb0) (hsq (by omega : b ≤ 2 ^ 32 - 1)) (hU (by norm_num)) 19
    have h3 := F64.poolQ_mono (Nat.mul_pos hb0 hb0) (hU hb) (by omega : 19 ≤ k)
    have h4 : b * b ≤ (2 ^ 32 - 1) * (2 ^ 32 - 1) := hsq (by omega)
    refine ⟨fun _ => ⟨by omega, by omega⟩, fun _ => (h1.trans h2).trans h3⟩
  · by_cases h9 : k = 9
    · subst h9
      rw [key (3 * 10 ^ 9 - 1) (by norm_num) (by decide +kernel) (by decide +kernel)]
      constructor
      · intro h
        have := hsq h
        exact ⟨by omega, by omega⟩
      · rintro ⟨h1, h2⟩
        by_contra h3
        have := hsq (by omega : 3 * 10 ^ 9 + 1 ≤ b)
        omega
    · rcases tiny_pool_table k (List.mem_range.2 (by omega)) with h | h | ⟨h1, h2⟩
      · exact absurd h h9
      · omega
      · have hlt : Nat.sqrt (10 ^ 18 * k) + 1 < 2 ^ 32 := by
          have : Nat.sqrt (10 ^ 18 * k) < 2 ^ 32 - 1 := Nat.sqrt_lt.2 (by omega)
          omega
        rw [key _ hlt h1 h2, Nat.le_sqrt]
        exact ⟨fun h => ⟨h, fun h' => h9 h'.2⟩, fun h => h.1⟩

/-- **C45, the part that holds** (`C45_full` is false): with a threshold of zero or below, for effective block
dimensions below `2^32`, `approximate` keeps exactly the blocks whose true average is positive and at least `10^-18`,
except that nine edges in a block of dimension `3·10^9` (average exactly `10^-18`) are dropped. In particular it keeps
exactly the non-empty blocks up to dimension `10^9`, and always those with 19 edges or more. -/
theorem C45_zero_threshold_partial {g : Graph} (hg : GReach g) (P : Platform) (o₁ o₂ : HashOrder) {b : Nat} {t : F64}
    (ht : NonPos t) (hb : 2 ≤ b) (hn : 2 ≤ g.vertexCount) (h32 : min b g.vertexCount < 2 ^ 32) :
    ∃ a, g.approximate P o₁ o₂ b t = .ok a ∧ ∀ c r,
      let b' := min b g.vertexCount
      let k := blockCount g.doesEdgeExist b' c r
      (a.doesEdgeExist c r = true ↔ 0 < k ∧ b' * b' ≤ 10 ^ 18 * k ∧ ¬ (b' = 3 * 10 ^ 9 ∧ k = 9)) ∧
      (b' ≤ 10 ^ 9 → (a.doesEdgeExist c r = true ↔ 0 < k)) ∧
      (19 ≤ k → a.doesEdgeExist c r = true) := by
  obtain ⟨a, ha, he⟩ := approx_edges hg P o₁ o₂ t hb hn h32
  refine ⟨a, ha, fun c r => ?_⟩
  have he := he c r
  rw [eff_nonPos ht, F64_le_fin] at he
  have hpos : 0 < min b g.vertexCount := by omega
  simp only
  generalize min b g.vertexCount = b' at *
  generalize blockCount g.doesEdgeExist b' c r = k at *
  have hmain : a.doesEdgeExist c r = true ↔ 0 < k ∧ b' * b' ≤ 10 ^ 18 * k ∧ ¬ (b' = 3 * 10 ^ 9 ∧ k = 9) := by
    rw [he]
    constructor
    · exact fun h => ⟨h.1, (tiny_pool_iff hpos h32 h.1).1 h.2⟩
    · exact fun h => ⟨h.1, (tiny_pool_iff hpos h32 h.1).2 h.2⟩
  refine ⟨hmain, fun h9 => ?_, fun hk => ?_⟩
  · rw [hmain]
    have : b' * b' ≤ 10 ^ 9 * 10 ^ 9 := Nat.mul_le_mul h9 h9
    constructor
    · exact fun h => h.1
    · exact fun h => ⟨h, by omega, by omega⟩
  · rw [hmain]
    have : b' * b' ≤ (2 ^ 32 - 1) * (2 ^ 32 - 1) := Nat.mul_le_mul (by omega) (by omega)
    exact ⟨by omega, by omega, by omega⟩

/-- The boundary is met: one edge is kept in a block of dimension `10^9`, and dropped in one of `10^9 + 1`. -/
example : let g := fun n => (Graph.newDirected.addEdge 0 0).addVertex n none
    (g (10 ^ 9 - 1)).vertexCount = 10 ^ 9 ∧ (g (10 ^ 9)).vertexCount = 10 ^ 9 + 1 ∧
    okAnd ((g (10 ^ 9 - 1)).approximate exP .id .id U64_MAX (.fin 0)) (fun a => a.edgeCount == 1) ∧
    okAnd ((g (10 ^ 9)).approximate exP .id .id U64_MAX (.fin 0)) (fun a => a.edgeCount == 0) := by
  decide +kernel

example : NonPos (.fin (-2)) ∧ GReach exD ∧ 2 ≤ exD.vertexCount ∧ min 3 exD.vertexCount < 2 ^ 32 ∧
    okAnd (exD.approximate exP .id .id 3 (.fin (-2))) (fun a => a.edgeCount == 2 && a.doesEdgeExist 1 0) :=
  ⟨Or.inr ⟨-2, by norm_num, rfl⟩, exD_reach, by decide, by decide, by decide +kernel⟩

/-! ## C46 (pooling and approximation; `compress` is in `Props/Compress.lean`) -/

/-- The full statement of C46 for pooling. -/
def C46_full : Prop :=
  ∀ (g : Graph), GReach g → ∀ (P : Platform) (o : HashOrder) (b : Nat),
    ∃ m, g.findAvgPoolMatrix P o b = .ok m ∧ ∀ c r, ∃ q, m.getEntry f64Numeric c r = .fin q

/-- One edge, `2^32` vertices. -/
def hugeG : Graph := (Graph.newDirected.addEdge 0 0).addVertex (2 ^ 32 - 1) none
theorem hugeG_reach : GReach hugeG := .addVertex _ _ (.addEdge _ _ .newDirected)

def isPanic {α : Type} : Res α → Bool
  | .panic => true
  | _ => false

/-- **C46 is false**: `2^32` vertices and block dimension `2^32` panic in a debug build, and divide by zero (giving an
infinite entry) in a release build. -/
theorem C46_full_false : ¬ C46_full ∧
    isPanic (hugeG.findAvgPoolMatrix exP .id (2 ^ 32)) = true ∧
    isPanic (hugeG.approximate exP .id .id (2 ^ 32) (.fin 1)) = true ∧
    okAnd (hugeG.findAvgPoolMatrix { exP with profile := .release } .id (2 ^ 32))
      (fun m => decide (m.getEntry f64Numeric 0 0 = .inf false)) = true := by
  have hp : isPanic (hugeG.findAvgPoolMatrix exP .id (2 ^ 32)) = true := by decide +kernel
  refine ⟨?_, hp, by decide +kernel, by decide +kernel⟩
  intro h
  obtain ⟨m, hm, _⟩ := h hugeG hugeG_reach exP .id (2 ^ 32)
  rw [hm] at hp; simp [isPanic] at hp

/-- **C46, the part that holds for pooling and approximation** (`C46_full` is false): they return normally, with finite
entries in `[0,1]`, whenever the effective block dimension is below `2^32`; and a debug build panics exactly
when it is not. -/
theorem C46_no_overflow_partial {g : Graph} (hg : GReach g) (P : Platform) (o₁ o₂ : HashOrder) (b : Nat) (t : F64) :
    (effBlock g.vertexCount b < 2 ^ 32 →
      (∃ m, g.findAvgPoolMatrix P o₁ b = .ok m ∧
        ∀ c r, ∃ q, m.getEntry f64Numeric c r = .fin q ∧ 0 ≤ q ∧ q ≤ 1) ∧
      ∃ a, g.approximate P o₁ o₂ b t = .ok a) ∧
    (P.profile = .debug → 2 ^ 32 ≤ effBlock g.vertexCount b →
      g.findAvgPoolMatrix P o₁ b = .panic ∧ g.approximate P o₁ o₂ b t = .panic) := by
  constructor
  · intro hb
    constructor
    · by_cases hn : g.vertexCount = 0
      · refine ⟨SqMatrix.new, by unfold Graph.findAvgPoolMatrix; rw [if_pos hn], fun c r => ⟨0, ?_, le_rfl, by norm_num⟩⟩
        rw [SqMatrix.getEntry_eq, SqMatrix.new_at]; exact F64.lit_zero
      · rw [← clamp_eff hn] at hb
        have hpos := Graph.clamp_pos (b := b) hn
        obtain ⟨m, hm, hwf, hdim, hat⟩ := Graph.pool_ok hg.ok P o₁ b hn hb
        refine ⟨m, hm, fun c r => ?_⟩
        rw [SqMatrix.getEntry_eq, hat]
        have hsq := Graph.sq_le_U64 hb
        have h1 := Nat.mul_pos hpos hpos
        split
        · exact ⟨0, F64.lit_zero, le_rfl, by norm_num⟩
        · exact ⟨_, rfl, F64.poolQ_nonneg h1 hsq _, F64.poolQ_le_one h1 hsq (Graph.blockCount_le _ _ _ _)⟩
    · by_cases hs : b ≤ 1 ∨ g.vertexCount ≤ 1
      · exact ⟨g, C43_copy _ _ _ _ _ _ hs⟩
      · rw [eff_min (by omega) (by omega)] at hb
        obtain ⟨a, ha, _⟩ := approx_edges hg P o₁ o₂ t (by omega : 2 ≤ b) (by omega) hb
        exact ⟨a, ha⟩
  · intro hd hb
    have hb2 : 2 ≤ b ∧ 2 ≤ g.vertexCount := by unfold effBlock at hb; omega
    have hpan : g.findAvgPoolMatrix P o₁ b = .panic := by
      obtain ⟨m, _, _, _, h⟩ := Graph.pool_general hg.ok P o₁ b (by omega)
      rw [h, clamp_eff (by omega)]
      generalize effBlock g.vertexCount b = b' at *
      have : P.u64Mul b' b' = .panic := by
        unfold Platform.u64Mul Platform.wrapTo
        have : 2 ^ 32 * 2 ^ 32 ≤ b' * b' := Nat.mul_le_mul hb hb
        rw [if_neg (by unfold U64_MAX; omega), hd]
      rw [this]; rfl
    refine ⟨hpan, ?_⟩
    rw [Graph.approximate_eq P o₁ o₂ t hb2.1 hb2.2, hpan]; rfl

example : GReach exD ∧ effBlock exD.vertexCount 1000 = 6 ∧ GReach hugeG ∧ 2 ^ 32 ≤ effBlock hugeG.vertexCount (2 ^ 33) ∧
    exP.profile = .debug :=
  ⟨exD_reach, by decide, hugeG_reach, by decide +kernel, rfl⟩

/-! ## C48 -/

/-- **C48.** `approximate` of an undirected graph is undirected, its edges come in both directions, the vertex count is
that of the blocks, and no edge is added by the mirroring: every edge's own pooled entry reaches the
threshold in effect. -/
theorem C48_approximate_undirected {g : Graph} (hg : GReach g) (hu : g.isUndirected = true) (P : Platform)
    (o₁ o₂ : HashOrder) {b : Nat} (t : F64) {a : Graph} (ha : g.approximate P o₁ o₂ b t = .ok a) :
    a.isUndirected = true ∧ (∀ u v, a.doesEdgeExist u v = a.doesEdgeExist v u) ∧
    (2 ≤ b → 2 ≤ g.vertexCount → ∃ m, g.findAvgPoolMatrix P o₁ b = .ok m ∧ ∀ c r, a.doesEdgeExist c r = true →
      F64.le (effThreshold t) (m.getEntry f64Numeric c r) = true ∧
      F64.le (effThreshold t) (m.getEntry f64Numeric r c) = true) := by
  have hok := hg.ok.approximate ha
  have hsplit : a.isUndirected = true ∧
    (2 ≤ b → 2 ≤ g.vertexCount → ∃ m, g.findAvgPoolMatrix P o₁ b = .ok m ∧ ∀ c r, a.doesEdgeExist c r = true →
      F64.le (effThreshold t) (m.getEntry f64Numeric c r) = true) := by
    by_cases hs : b ≤ 1 ∨ g.vertexCount ≤ 1
    · rw [C43_copy _ _ _ _ _ _ hs] at ha
      cases ha
      exact ⟨hu, fun h1 h2 => absurd hs (by omega)⟩
    · have h' := ha
      rw [Graph.approximate_eq P o₁ o₂ t (by omega) (by omega), Res.map_eq_ok] at h'
      obtain ⟨m, hm, _⟩ := h'
      obtain ⟨a', ha', hu', _, he⟩ := C40_approximate_keeps hg P o₁ o₂ t (by omega : 2 ≤ b) (by omega) hm
      rw [ha] at ha'
      cases ha'
      exact ⟨hu'.trans hu, fun _ _ => ⟨m, hm, fun c r h => ((he c r).1 h).2⟩⟩
  refine ⟨hsplit.1, fun u v => Graph.edge_symm hok hsplit.1 u v, fun hb hn => ?_⟩
  obtain ⟨m, hm, h⟩ := hsplit.2 hb hn
  refine ⟨m, hm, fun c r hc => ⟨h c r hc, h r c ?_⟩⟩
  rw [Graph.edge_symm hok hsplit.1]; exact hc

example : GReach exU ∧ exU.isUndirected = true ∧
    okAnd (exU.approximate exP .id .rev 2 (.fin (1 / 4))) (fun a => a.edgeCount == 4 && a.doesEdgeExist 0 1) :=
  ⟨exU_reach, rfl, by decide +kernel⟩

end Verif.Props
