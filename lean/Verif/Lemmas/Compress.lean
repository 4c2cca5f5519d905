import Mathlib.Tactic.Linarith
import Mathlib.Tactic.Positivity
import Mathlib.Tactic.FieldSimp
import Verif.Lemmas.Approx
import Verif.Lemmas.CGraph

/-! Characterisation of `compress`. -/

namespace Verif
open Spec

namespace Graph

/-- The threshold of `compress` lies a little below `level / 64`. -/
theorem compressThreshold_eq {L : Nat} (h1 : 1 ≤ L) (h2 : L ≤ 64) :
    ∃ θ : ℚ, compressThreshold L = .fin θ ∧ (L : ℚ) / 64 - 1 / 2 ^ 16 ≤ θ ∧ θ ≤ (L : ℚ) / 64 - 1 / 2 ^ 17 := by
  have hL : F64.ofNat L = .fin (L : ℚ) := F64.ofNat_eq (by omega)
  have h64 : F64.lit 64 = .fin 64 := by
    have := F64.lit_nat (n := 64) (by norm_num)
    simpa using this
  have hd : F64.div (.fin (L : ℚ)) (.fin 64) = .fin ((L : ℚ) / 64) := by
    unfold F64.div
    simp only
    rw [if_neg (by norm_num), F64.rnd_fin_of_le (by positivity) (n := 0) (by norm_num)]
    · congr 1
      have := F64.rndQ_exact (m := (L : ℤ)) (e := -6) (by omega) (by omega) (by norm_num)
      have e : (2 : ℚ) ^ (-6 : ℤ) = 1 / 64 := by norm_num
      rw [e] at this
      push_cast at this
      rw [mul_one_div] at this
      exact this
    · rw [pow_zero, div_le_one (by norm_num)]; exact_mod_cast h2
  have hε : ∃ ε : ℚ, F64.lit (1 / 100000) = .fin ε ∧ 1 / 2 ^ 17 ≤ ε ∧ ε ≤ 1 / 2 ^ 16 := by
    refine ⟨F64.rndQ (1 / 100000), F64.rnd_fin_of_le (by positivity) (n := 0) (by norm_num) (by norm_num), ?_, ?_⟩
    · rw [← F64.rndQ_inv_pow2 (n := 17) (by norm_num)]
      exact F64.rndQ_mono (by positivity) (by norm_num)
    · rw [← F64.rndQ_inv_pow2 (n := 16) (by norm_num)]
      exact F64.rndQ_mono (by positivity) (by norm_num)
  obtain ⟨ε, he, hε1, hε2⟩ := hε
  have hLq : (1 : ℚ) ≤ L := by exact_mod_cast h1
  have hLq2 : (L : ℚ) ≤ 64 := by exact_mod_cast h2
  have hpos : (0 : ℚ) ≤ (L : ℚ) / 64 + -ε := by linarith
  -- exactly representable bounds
  have hex : ∀ k : ℕ, (k = 16 ∨ k = 17) → F64.rndQ ((L : ℚ) / 64 - 1 / 2 ^ k) = (L : ℚ) / 64 - 1 / 2 ^ k := by
    intro k hk
    have hk' : 6 ≤ k ∧ k ≤ 17 := by omega
    have hpow : (1 : ℤ) ≤ 2 ^ (k - 6) ∧ (2 : ℤ) ^ (k - 6) ≤ 2 ^ 11 := by
      constructor
      · exact one_le_pow₀ (by norm_num)
      · exact pow_le_pow_right₀ (by norm_num) (by omega)
    have hm0 : (0 : ℤ) ≤ (L : ℤ) * 2 ^ (k - 6) - 1 := by nlinarith
    have hm1 : (L : ℤ) * 2 ^ (k - 6) - 1 ≤ 2 ^ 53 := by nlinarith
    have := F64.rndQ_exact hm0 hm1 (e := -(k : ℤ)) (by omega)
    rw [F64.zp] at this
    push_cast at this
    have e : ((L : ℚ) * 2 ^ (k - 6) - 1) * (1 / 2 ^ k) = (L : ℚ) / 64 - 1 / 2 ^ k := by
      have : (2 : ℚ) ^ k = 2 ^ (k - 6) * 64 := by
        have h6 : (64 : ℚ) = 2 ^ 6 := by norm_num
        rw [h6, ← pow_add]; congr 1; omega
      rw [this]; field_simp
    rwa [e] at this
  refine ⟨F64.rndQ ((L : ℚ) / 64 + -ε), ?_, ?_, ?_⟩
  · unfold compressThreshold
    rw [hL, h64, hd, he]
    unfold F64.sub F64.neg F64.add
    simp only
    exact F64.rnd_fin_of_le hpos (n := 0) (by norm_num) (by rw [pow_zero]; linarith)
  · rw [← hex 16 (Or.inl rfl)]
    exact F64.rndQ_mono (by linarith) (by linarith)
  · rw [← hex 17 (Or.inr rfl)]
    exact F64.rndQ_mono hpos (by linarith)

/-- Which pooled values `compress` keeps, for blocks of at most 64 cells. -/
theorem compress_keeps {L s k : Nat} (h1 : 1 ≤ L) (h2 : L ≤ 64) (hs1 : 1 ≤ s) (hs : s ≤ 64) (hk : k ≤ s) :
    F64.le (compressThreshold L) (.fin (F64.poolQ s k)) = true ↔ L * s ≤ 64 * k := by
  obtain ⟨θ, he, hl, hu⟩ := compressThreshold_eq h1 h2
  rw [he]
  have herr := abs_le.1 (F64.poolQ_err hs1 (hs.trans (by norm_num)) hk)
  have hsq : (1 : ℚ) ≤ s := by exact_mod_cast hs1
  have hsq64 : (s : ℚ) ≤ 64 := by exact_mod_cast hs
  have hs0 : (0 : ℚ) < s := by linarith
  have hA1 : (k : ℚ) / s ≤ 1 := by rw [div_le_one hs0]; exact_mod_cast hk
  have hA0 : (0 : ℚ) ≤ (k : ℚ) / s := by positivity
  simp only [F64.le, decide_eq_true_eq]
  by_cases hc : L * s ≤ 64 * k
  · simp only [hc, iff_true]
    have hA : (L : ℚ) / 64 ≤ (k : ℚ) / s := by
      rw [div_le_div_iff₀ (by norm_num) hs0]
      have : (L * s : ℕ) ≤ k * 64 := by omega
      exact_mod_cast this
    have h3 := herr.1
    generalize (k : ℚ) / s = A at *
    have : A * (1 / 2 ^ 52 + 1 / 2 ^ 106) ≤ 1 * (1 / 2 ^ 52 + 1 / 2 ^ 106) :=
      mul_le_mul_of_nonneg_right hA1 (by positivity)
    have h4 : (1 : ℚ) * (1 / 2 ^ 52 + 1 / 2 ^ 106) ≤ 1 / 2 ^ 17 := by norm_num
    linarith
  · simp only [hc, iff_false, not_le]
    have hA : (k : ℚ) / s ≤ (L : ℚ) / 64 - 1 / 4096 := by
      have h5 : (64 * k + 1 : ℚ) ≤ L * s := by
        have : 64 * k + 1 ≤ L * s := by omega
        exact_mod_cast this
      rw [div_le_iff₀ hs0]
      have : (1 / 4096 : ℚ) * s ≤ 1 / 64 := by nlinarith
      nlinarith
    have h3 := herr.2
    generalize (k : ℚ) / s = A at *
    have : A * (1 / 2 ^ 52 + 1 / 2 ^ 106) ≤ 1 * (1 / 2 ^ 52 + 1 / 2 ^ 106) :=
      mul_le_mul_of_nonneg_right hA1 (by positivity)
    have h4 : (1 : ℚ) * (1 / 2 ^ 52 + 1 / 2 ^ 106) + 1 / 2 ^ 16 < 1 / 4096 := by norm_num
    linarith

/-- Blocks of dimension `min 8 n` and of dimension 8 contain the same edges. -/
theorem blockCount_min {g : Graph} (hg : g.OK) (hn : g.vertexCount ≠ 0) (c r : Nat) :
    blockCount g.doesEdgeExist (min 8 g.vertexCount) c r = blockCount g.doesEdgeExist 8 c r := by
  by_cases h8 : 8 ≤ g.vertexCount
  · rw [min_eq_left h8]
  · have hb : ∀ u v, g.doesEdgeExist u v = true → u < g.vertexCount ∧ v < g.vertexCount := fun u v h =>
      hg.wf.bound (u, v) (doesEdgeExist_iff.1 h)
    rw [min_eq_right (by omega)]
    generalize g.vertexCount = n at *
    have hcr : ∀ c b x : Nat, b ≠ 0 → n ≤ b → c * b + x < n → c = 0 := by
      intro c b x hb0 hbn h
      by_contra hc
      have : 1 * b ≤ c * b := Nat.mul_le_mul_right b (by omega)
      omega
    have hset : ∀ b, n ≤ b → b ≠ 0 → (∃ p ∈ Finset.range b ×ˢ Finset.range b,
        g.doesEdgeExist (c * b + p.1) (r * b + p.2) = true) → c = 0 ∧ r = 0 := by
      rintro b hb1 hb2 ⟨p, _, hp⟩
      have := hb _ _ hp
      exact ⟨hcr c b p.1 hb2 hb1 this.1, hcr r b p.2 hb2 hb1 this.2⟩
    by_cases h0 : c = 0 ∧ r = 0
    · obtain ⟨rfl, rfl⟩ := h0
      unfold blockCount
      congr 1
      ext ⟨x, y⟩
      simp only [Finset.mem_filter, Finset.mem_product, Finset.mem_range, Nat.zero_mul, Nat.zero_add]
      constructor
      · rintro ⟨⟨h1, h2⟩, h3⟩; exact ⟨⟨by omega, by omega⟩, h3⟩
      · rintro ⟨_, h3⟩; exact ⟨hb _ _ h3, h3⟩
    · have hz : ∀ b, n ≤ b → b ≠ 0 → blockCount g.doesEdgeExist b c r = 0 := by
        intro b hb1 hb2
        unfold blockCount
        rw [Finset.card_eq_zero, Finset.filter_eq_empty_iff]
        intro p hp he
        exact h0 (hset b hb1 hb2 ⟨p, hp, he⟩)
      rw [hz n le_rfl hn, hz 8 (by omega) (by norm_num)]

/-- Whether a block with `k` edges is kept at level `L` in a graph with `n` vertices. -/
def Kept (n L k : Nat) : Prop := L * (min 8 n * min 8 n) ≤ 64 * k

instance (n L k : Nat) : Decidable (Kept n L k) := inferInstanceAs (Decidable (_ ≤ _))

/-- The blocks stored by `compress`, in iteration order. -/
def keptBlocks (g : Graph) (L : Nat) (items : List (F64 × Nat × Nat)) : List (Nat × Nat × Nat) :=
  (items.filter fun x => decide (Kept g.vertexCount L (blockCount g.doesEdgeExist 8 x.2.1 x.2.2))).map
    fun x => (wordOf (blockBits g.doesEdgeExist x.2.1 x.2.2) 64, x.2.1, x.2.2)

theorem clampLevel_bounds (l : Nat) : 1 ≤ clampCompressionLevel l ∧ clampCompressionLevel l ≤ 64 := by
  unfold clampCompressionLevel; split
  · omega
  · split <;> omega

theorem clampLevel_idem (l : Nat) : clampCompressionLevel (clampCompressionLevel l) = clampCompressionLevel l := by
  have h := clampLevel_bounds l
  generalize clampCompressionLevel l = x at *
  unfold clampCompressionLevel
  rw [if_neg (by omega), if_neg (by omega)]

theorem compress_eq {g : Graph} (hg : g.OK) (P : Platform) (o₁ o₂ : HashOrder) (l : Nat) :
    ∃ items : List (F64 × Nat × Nat),
      g.compress P o₁ o₂ l = .ok ((CGraph.builderNew g.isUndirected g.vertexCount (clampCompressionLevel l)).addBlocks
        (keptBlocks g (clampCompressionLevel l) items)) ∧
      (items.map fun x => (x.2.1, x.2.2)).Nodup ∧
      ∀ c r, (∃ v, (v, c, r) ∈ items) ↔ 0 < blockCount g.doesEdgeExist 8 c r := by
  obtain ⟨hL1, hL2⟩ := clampLevel_bounds l
  by_cases hn : g.vertexCount = 0
  · refine ⟨[], ?_, List.nodup_nil, ?_⟩
    · unfold compress
      have : g.findAvgPoolMatrix P o₁ COMPRESSION_BLOCK_DIMENSION = .ok SqMatrix.new := by
        unfold findAvgPoolMatrix; rw [if_pos hn]
      simp only [this, Res.bind_ok]
      have hi : (SqMatrix.new : SqMatrix F64).items o₂ = [] := by
        rw [← List.length_eq_zero_iff, SqMatrix.items_length SqMatrix.WF.new]; rfl
      rw [hi]; rfl
    · intro c r
      have : blockCount g.doesEdgeExist 8 c r = 0 := by
        unfold blockCount
        rw [Finset.card_eq_zero, Finset.filter_eq_empty_iff]
        intro p _ h
        have := hg.wf.bound _ (Graph.doesEdgeExist_iff.1 h)
        have hv : g.adjacencyMatrix.dimension = 0 := hn
        omega
      simp [this]
  · have hcl : clampBlockDimension g.vertexCount COMPRESSION_BLOCK_DIMENSION = min 8 g.vertexCount :=
      clamp_min (by decide)
    obtain ⟨m, hm, hwf, hdim, hat⟩ := pool_ok hg P o₁ COMPRESSION_BLOCK_DIMENSION hn (by rw [hcl]; omega)
    rw [hcl] at hat hdim
    have hmin : 0 < min 8 g.vertexCount := by omega
    have hs1 : 1 ≤ min 8 g.vertexCount * min 8 g.vertexCount := Nat.mul_pos hmin hmin
    have hs64 : min 8 g.vertexCount * min 8 g.vertexCount ≤ 64 :=
      Nat.mul_le_mul (min_le_left 8 _) (min_le_left 8 _)
    refine ⟨m.items o₂, ?_, SqMatrix.items_keys_nodup hwf o₂, ?_⟩
    · unfold compress
      simp only [hm, Res.bind_ok]
      have hstep : ∀ b, ∀ x ∈ m.items o₂, compressBlock P g (compressThreshold (clampCompressionLevel l)) b x =
          .ok (if decide (Kept g.vertexCount (clampCompressionLevel l) (blockCount g.doesEdgeExist 8 x.2.1 x.2.2)) = true
            then b.builderAdd (wordOf (blockBits g.doesEdgeExist x.2.1 x.2.2) 64) x.2.1 x.2.2
              (some (popCount (wordOf (blockBits g.doesEdgeExist x.2.1 x.2.2) 64)))
            else b) := by
        rintro b ⟨v, c, r⟩ hx
        rw [SqMatrix.mem_items hwf] at hx
        have hkey : (c, r) ∈ m.keys := SqMatrix.mem_keys.2 ⟨v, hx⟩
        have hb := hwf.bound _ hkey
        rw [hdim] at hb
        rw [hat] at hx
        split at hx
        · simp at hx
        · rw [Option.some.injEq] at hx
          subst hx
          have hk := compress_keeps hL1 hL2 hs1 hs64 (blockCount_le g.doesEdgeExist (min 8 g.vertexCount) c r)
          rw [blockCount_min hg hn] at hk ⊢
          unfold compressBlock
          simp only
          by_cases hkept : Kept g.vertexCount (clampCompressionLevel l) (blockCount g.doesEdgeExist 8 c r)
          · rw [if_pos (hk.2 hkept), decide_eq_true hkept, if_pos rfl]
            have hv : g.vertexCount ≤ U64_MAX := hg.wf.dim
            have hcb : ∀ z, z < ceilDiv g.vertexCount (min 8 g.vertexCount) → z * 8 + 7 ≤ U64_MAX := by
              intro z hz
              have h61 := CGraph.dim_le_pow hv
              rw [CGraph.dim_eq_ceil] at h61
              by_cases h8 : 8 ≤ g.vertexCount
              · rw [min_eq_left h8] at hz; unfold U64_MAX; omega
              · rw [min_eq_right (by omega)] at hz
                have : ceilDiv g.vertexCount g.vertexCount = 1 := by
                  unfold ceilDiv
                  rw [Nat.div_eq_of_lt_le] <;> omega
                rw [this] at hz
                unfold U64_MAX; omega
            have hc := hcb c hb.1
            have hr := hcb r hb.2
            have h1 : P.u64Mul r COMPRESSION_BLOCK_DIMENSION = .ok (r * 8) := by
              unfold Platform.u64Mul Platform.wrapTo COMPRESSION_BLOCK_DIMENSION; rw [if_pos (by omega)]
            have h2 : P.u64Mul c COMPRESSION_BLOCK_DIMENSION = .ok (c * 8) := by
              unfold Platform.u64Mul Platform.wrapTo COMPRESSION_BLOCK_DIMENSION; rw [if_pos (by omega)]
            have h3 := bitLoop P g c r hc hr 64 le_rfl
            simp only [h1, h2, Res.bind_ok, blockPositions_eq, h3, popCount_wordOf]
          · rw [if_neg (fun h => hkept (hk.1 h)), decide_eq_false hkept]
            rfl
      rw [Res.foldl_ok _ hstep]
      congr 1
      unfold CGraph.addBlocks keptBlocks
      rw [List.foldl_map, List.foldl_filter]
    · intro c r
      simp only [SqMatrix.mem_items hwf, hat, blockCount_min hg hn]
      split
      · next h => simp [h]
      · next h => simp only [Option.some.injEq, exists_eq', true_iff]; omega

theorem blockBits_bound {g : Graph} (hg : g.OK) {c r j : Nat} (h : blockBits g.doesEdgeExist c r j = true) :
    c * 8 + j % 8 < g.vertexCount ∧ r * 8 + j / 8 < g.vertexCount :=
  hg.wf.bound (_, _) (doesEdgeExist_iff.1 h)

theorem word_ne_zero {f : Nat → Bool} (h : 0 < countOf f 64) : wordOf f 64 ≠ 0 := by
  intro h0
  have := popCount_wordOf f
  rw [h0] at this
  have hz : popCount 0 = 0 := by decide
  omega

/-- What `compress` returns. -/
theorem compress_spec {g : Graph} (hg : g.OK) (P : Platform) (o₁ o₂ : HashOrder) (l : Nat) :
    ∃ c, g.compress P o₁ o₂ l = .ok c ∧ c.OK ∧ c.isUndirected = g.isUndirected ∧ c.vertexCount = g.vertexCount ∧
      c.compressionLevel = clampCompressionLevel l ∧
      (∀ x y e, c.at? x y = some e ↔ 0 < blockCount g.doesEdgeExist 8 x y ∧
        Kept g.vertexCount (clampCompressionLevel l) (blockCount g.doesEdgeExist 8 x y) ∧
        e = wordOf (blockBits g.doesEdgeExist x y) 64) ∧
      c.edgeCount = min U64_MAX c.pairs.card := by
  obtain ⟨items, heq, hnd, hmem⟩ := compress_eq hg P o₁ o₂ l
  have hv : g.vertexCount ≤ U64_MAX := hg.wf.dim
  obtain ⟨hb1, hb2, hb3⟩ := CGraph.builderNew_at g.isUndirected hv (clampCompressionLevel l)
  have hmemk : ∀ e x y, (e, x, y) ∈ keptBlocks g (clampCompressionLevel l) items ↔
      0 < blockCount g.doesEdgeExist 8 x y ∧
        Kept g.vertexCount (clampCompressionLevel l) (blockCount g.doesEdgeExist 8 x y) ∧
        e = wordOf (blockBits g.doesEdgeExist x y) 64 := by
    intro e x y
    unfold keptBlocks
    rw [List.mem_map, ← hmem]
    constructor
    · rintro ⟨⟨v, x', y'⟩, h, heq⟩
      rw [List.mem_filter, decide_eq_true_eq] at h
      simp only [Prod.mk.injEq] at heq
      obtain ⟨rfl, rfl, rfl⟩ := heq
      exact ⟨⟨v, h.1⟩, h.2, rfl⟩
    · rintro ⟨⟨v, h⟩, hk, rfl⟩
      exact ⟨(v, x, y), by rw [List.mem_filter, decide_eq_true_eq]; exact ⟨h, hk⟩, rfl⟩
  have hfit : ∀ e ∈ keptBlocks g (clampCompressionLevel l) items, CGraph.Fits (compressedMatrixDimension g.vertexCount) e := by
    rintro ⟨e, x, y⟩ he
    obtain ⟨h0, hk, rfl⟩ := (hmemk _ _ _).1 he
    rw [← countOf_blockBits] at h0
    refine ⟨word_ne_zero h0, ?_⟩
    have : ∃ j < 64, blockBits g.doesEdgeExist x y j = true := by
      by_contra hcon
      push Not at hcon
      have := countOf_eq_zero.2 (fun j hj => Bool.eq_false_iff.2 (hcon j hj))
      omega
    obtain ⟨j, hj, hbit⟩ := this
    have hbd := blockBits_bound hg hbit
    have h1 := CGraph.div8_lt_dim hbd.1
    have h2 := CGraph.div8_lt_dim hbd.2
    simp only
    omega
  have hnd' : ((keptBlocks g (clampCompressionLevel l) items).map fun e => (e.2.1, e.2.2)).Nodup := by
    unfold keptBlocks
    rw [List.map_map]
    exact ((List.filter_sublist (p := _) (l := items)).map _).nodup hnd
  obtain ⟨hwf, hdim, hfind⟩ := CGraph.addBlocks_matrix hb3 _ (by rw [hb2]; exact hfit)
  have hat := fun x y e => (CGraph.addBlocks_new_at (u := g.isUndirected) (lv := clampCompressionLevel l) hv hfit hnd' x y e).trans
    (hmemk e x y)
  have hOK : ((CGraph.builderNew g.isUndirected g.vertexCount (clampCompressionLevel l)).addBlocks
      (keptBlocks g (clampCompressionLevel l) items)).OK := by
    constructor
    · exact hwf
    · rw [hdim, hb2, CGraph.addBlocks_vertexCount]; rfl
    · intro x y e he
      obtain ⟨h0, _, rfl⟩ := (hat x y e).1 he
      rw [← countOf_blockBits] at h0
      exact ⟨word_ne_zero h0, wordOf_lt _ 64⟩
    · intro u v huv
      rw [CGraph.doesEdgeExist_iff] at huv
      obtain ⟨e, he, hbit⟩ := huv
      obtain ⟨h0, _, rfl⟩ := (hat _ _ _).1 he
      rw [testBit_wordOf, Bool.and_eq_true] at hbit
      have := blockBits_bound hg hbit.2
      rw [CGraph.addBlocks_vertexCount]
      have hvc : (CGraph.builderNew g.isUndirected g.vertexCount (clampCompressionLevel l)).vertexCount = g.vertexCount := rfl
      rw [hvc]
      omega
    · rw [CGraph.addBlocks_level]
      have : (CGraph.builderNew g.isUndirected g.vertexCount (clampCompressionLevel l)).compressionLevel =
        clampCompressionLevel (clampCompressionLevel l) := rfl
      rw [this]; exact clampLevel_bounds _
    · rw [CGraph.addBlocks_vertexCount]; exact hv
    · rw [CGraph.addBlocks_edgeCount (Nat.zero_le _)]; exact min_le_left _ _
  refine ⟨_, heq, hOK, ?_, ?_, ?_, hat, ?_⟩
  · rw [CGraph.addBlocks_isUndirected]; rfl
  · rw [CGraph.addBlocks_vertexCount]; rfl
  · rw [CGraph.addBlocks_level]
    exact clampLevel_idem l
  · rw [CGraph.addBlocks_edgeCount (Nat.zero_le _), ← CGraph.sum_keys hOK, ← CGraph.sum_items hwf HashOrder.id]
    have h0 : (CGraph.builderNew g.isUndirected g.vertexCount (clampCompressionLevel l)).edgeCount = 0 := rfl
    rw [h0, Nat.zero_add]
    congr 1
    apply List.Perm.sum_eq
    apply List.Perm.map
    rw [List.perm_ext_iff_of_nodup hnd'.of_map (SqMatrix.items_keys_nodup hwf HashOrder.id).of_map]
    rintro ⟨e, x, y⟩
    rw [hmemk, SqMatrix.mem_items hwf]
    exact (hat x y e).symm

end Graph
end Verif
