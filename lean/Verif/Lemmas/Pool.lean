import Verif.Spec.Blocks
import Verif.Lemmas.SqMatrix
import Verif.Lemmas.F64
import Verif.Lemmas.AGraph

/-! Lemmas about block counting, pooling and approximation. -/

namespace Verif
open Spec

namespace F64

theorem log_two_pow53_succ : Int.log 2 ((2 : ℚ) ^ 53 + 1) = 53 := by
  apply le_antisymm
  · have h : ((2 : ℚ) ^ 53 + 1) < ((2 : ℕ) : ℚ) ^ (54 : ℤ) := by
      rw [show (54 : ℤ) = ((54 : ℕ) : ℤ) from rfl, zpow_natCast]; norm_num
    have := (Int.lt_zpow_iff_log_lt (b := 2) (by norm_num) (by positivity)).1 h
    omega
  · have h : ((2 : ℕ) : ℚ) ^ (53 : ℤ) ≤ (2 : ℚ) ^ 53 + 1 := by
      rw [show (53 : ℤ) = ((53 : ℕ) : ℤ) from rfl, zpow_natCast]; norm_num
    exact (Int.zpow_le_iff_le_log (b := 2) (by norm_num) (by positivity)).1 h

/-- `2^53 + 1` is a tie and rounds to `2^53`. -/
theorem rndQ_pow53_succ : rndQ ((2 : ℚ) ^ 53 + 1) = 2 ^ 53 := by
  have he : ulpExp ((2 : ℚ) ^ 53 + 1) = 1 := by
    unfold ulpExp
    rw [abs_of_pos (by positivity), log_two_pow53_succ]; norm_num
  unfold rndQ
  rw [he]
  have h : roundEven (((2 : ℚ) ^ 53 + 1) / 2 ^ (1 : ℤ)) = 2 ^ 52 := by
    have hf : ⌊((2 : ℚ) ^ 53 + 1) / 2 ^ (1 : ℤ)⌋ = 2 ^ 52 := by
      rw [Int.floor_eq_iff]; constructor <;> norm_num
    unfold roundEven
    simp only [hf]
    norm_num
  rw [h]; norm_num

/-- The running count of a block. -/
def cnt (k : Nat) : F64 := fin ((min k (2 ^ 53) : Nat) : ℚ)

theorem cnt_one : lit 1 = cnt 1 := by rw [lit_one]; simp [cnt]

theorem cnt_succ (k : Nat) : add (cnt k) (lit 1) = cnt (k + 1) := by
  rw [lit_one]
  unfold cnt add
  simp only
  by_cases h : k < 2 ^ 53
  · rw [min_eq_left (by omega), min_eq_left (by omega)]
    have : ((k : ℕ) : ℚ) + 1 = ((k + 1 : ℕ) : ℚ) := by push_cast; ring
    rw [this]
    exact ofNat_eq (by omega)
  · rw [min_eq_right (by omega), min_eq_right (by omega)]
    have : (((2 ^ 53 : ℕ) : ℚ)) + 1 = (2 : ℚ) ^ 53 + 1 := by push_cast; ring
    rw [this, rnd_fin_of_le (by positivity) (n := 54) (by norm_num) (by norm_num), rndQ_pow53_succ]
    norm_num

end F64

namespace Graph

/-- Edges of a list that fall into block `(c, r)`. -/
def inBlock (b c r : Nat) (l : List (Nat × Nat)) : Nat :=
  l.countP fun e => decide (e.1 / b = c ∧ e.2 / b = r)

theorem f64_addOne (P : Platform) (x : F64) : f64Numeric.addOne P x = .ok (F64.add x (F64.lit 1)) := rfl

theorem countBlocks_spec (P : Platform) (b : Nat) (l : List (Nat × Nat)) :
    ∀ (l₀ : List (Nat × Nat)) (m : SqMatrix F64) (d : Nat),
      (∀ e ∈ l, e.1 / b < U64_MAX ∧ e.2 / b < U64_MAX ∧ e.1 / b < d ∧ e.2 / b < d) →
      m.WF → m.dimension ≤ d →
      (∀ c r, m.at? c r = if inBlock b c r l₀ = 0 then none else some (F64.cnt (inBlock b c r l₀))) →
      ∃ m', Res.foldl (fun m (e : Nat × Nat) => m.incrementEntry f64Numeric P (e.1 / b) (e.2 / b)) m l = .ok m' ∧
        m'.WF ∧ m'.dimension ≤ d ∧
        ∀ c r, m'.at? c r = if inBlock b c r (l₀ ++ l) = 0 then none
          else some (F64.cnt (inBlock b c r (l₀ ++ l))) := by
  induction l with
  | nil => intro l₀ m d _ hwf hd h; exact ⟨m, rfl, hwf, hd, by simpa using h⟩
  | cons e l ih =>
    intro l₀ m d hl hwf hd h
    obtain ⟨m1, hm1⟩ := SqMatrix.incrementEntry_isOk (N := f64Numeric) (P := P) m (e.1 / b) (e.2 / b)
      (fun x => ⟨_, rfl⟩)
    have he := hl e (by simp)
    obtain ⟨x, hx, hat, hdim, _⟩ := SqMatrix.incrementEntry_ok he.1 he.2.1 hm1
    obtain ⟨m2, hm2, hwf2, hd2, hat2⟩ := ih (l₀ ++ [e]) m1 d (fun e he => hl e (by simp [he]))
      (hwf.incrementEntry hm1) (by rw [hdim]; omega) (by
        intro c r
        rw [hat, h]
        have hcount : inBlock b c r (l₀ ++ [e]) = inBlock b c r l₀ + if e.1 / b = c ∧ e.2 / b = r then 1 else 0 := by
          unfold inBlock
          rw [List.countP_append, List.countP_singleton]
          simp
        by_cases hcr : c = e.1 / b ∧ r = e.2 / b
        · rw [if_pos hcr]
          have hcr' : e.1 / b = c ∧ e.2 / b = r := ⟨hcr.1.symm, hcr.2.symm⟩
          rw [hcount, if_pos hcr', if_neg (by omega)]
          rw [h, hcr'.1, hcr'.2] at hx
          by_cases h0 : inBlock b c r l₀ = 0
          · rw [if_pos h0] at hx
            simp only [SqMatrix.incValue, Res.ok.injEq] at hx
            rw [← hx, h0]
            exact congrArg some F64.cnt_one
          · rw [if_neg h0] at hx
            simp only [SqMatrix.incValue, f64_addOne, Res.ok.injEq] at hx
            rw [← hx, F64.cnt_succ]
        · rw [if_neg hcr]
          have hcr' : ¬ (e.1 / b = c ∧ e.2 / b = r) := fun h => hcr ⟨h.1.symm, h.2.symm⟩
          rw [hcount, if_neg hcr', Nat.add_zero])
    refine ⟨m2, ?_, hwf2, hd2, ?_⟩
    · change (m.incrementEntry f64Numeric P (e.1 / b) (e.2 / b) >>= _) = _
      rw [hm1, Res.bind_ok]; exact hm2
    · intro c r
      rw [hat2, List.append_assoc]; rfl

theorem blocksPerRow_eq (n b : Nat) (hb : 0 < b) : blocksPerRow n b = ceilDiv n b := by
  unfold blocksPerRow ceilDiv
  simp only
  have h := Nat.div_add_mod n b
  have hlt := Nat.mod_lt n hb
  split
  · next h0 =>
    symm
    apply Nat.div_eq_of_lt_le
    · rw [Nat.add_mul, Nat.one_mul, Nat.mul_comm]; omega
    · rw [Nat.add_mul, Nat.add_mul, Nat.one_mul, Nat.mul_comm]; omega
  · next h0 =>
    symm
    apply Nat.div_eq_of_lt_le
    · rw [Nat.mul_comm]; omega
    · rw [Nat.add_mul, Nat.one_mul, Nat.mul_comm]; omega

theorem div_lt_ceilDiv {n b x : Nat} (hb : 0 < b) (hx : x < n) : x / b < ceilDiv n b := by
  unfold ceilDiv
  rw [Nat.lt_div_iff_mul_lt hb]
  have h1 := Nat.div_mul_le_self x b
  have h2 := Nat.mul_comm (x / b) b
  omega

theorem ceilDiv_le {n b : Nat} (hb : 0 < b) : ceilDiv n b ≤ n := by
  unfold ceilDiv
  rw [Nat.div_le_iff_le_mul_add_pred hb]
  have : n ≤ b * n := Nat.le_mul_of_pos_left n hb
  omega

theorem ceilDiv_pos {n b : Nat} (hb : 0 < b) (hn : 0 < n) : 0 < ceilDiv n b := by
  unfold ceilDiv
  exact Nat.div_pos (by omega) hb

theorem inBlock_eq {g : Graph} (hg : g.OK) (o : HashOrder) {b : Nat} (hb : 0 < b) (c r : Nat) :
    inBlock b c r (g.items o) = blockCount g.doesEdgeExist b c r := by
  unfold inBlock blockCount
  rw [List.countP_eq_length_filter]
  rw [← List.toFinset_card_of_nodup ((items_nodup hg o).filter _)]
  symm
  refine Finset.card_bij (fun p _ => (c * b + p.1, r * b + p.2)) ?_ ?_ ?_
  · rintro ⟨i, j⟩ h
    rw [Finset.mem_filter, Finset.mem_product, Finset.mem_range, Finset.mem_range] at h
    obtain ⟨⟨hi, hj⟩, he⟩ := h
    rw [List.mem_toFinset, List.mem_filter, mem_items hg, ← doesEdgeExist_iff]
    refine ⟨he, ?_⟩
    simp only [decide_eq_true_eq]
    constructor
    · rw [Nat.mul_comm, Nat.mul_add_div hb, Nat.div_eq_of_lt hi, Nat.add_zero]
    · rw [Nat.mul_comm, Nat.mul_add_div hb, Nat.div_eq_of_lt hj, Nat.add_zero]
  · rintro ⟨i, j⟩ _ ⟨i', j'⟩ _ heq
    simp only [Prod.mk.injEq] at heq ⊢
    omega
  · rintro ⟨u, v⟩ h
    rw [List.mem_toFinset, List.mem_filter, mem_items hg, ← doesEdgeExist_iff] at h
    obtain ⟨he, hd⟩ := h
    simp only [decide_eq_true_eq] at hd
    have hu : c * b + u % b = u := by rw [← hd.1, Nat.mul_comm]; exact Nat.div_add_mod u b
    have hv : r * b + v % b = v := by rw [← hd.2, Nat.mul_comm]; exact Nat.div_add_mod v b
    refine ⟨(u % b, v % b), ?_, by simp only [hu, hv]⟩
    rw [Finset.mem_filter, Finset.mem_product, Finset.mem_range, Finset.mem_range]
    refine ⟨⟨Nat.mod_lt _ hb, Nat.mod_lt _ hb⟩, ?_⟩
    simp only [hu, hv]; exact he

/-- Pooling, in general: the square of the block dimension may have wrapped around. -/
theorem pool_general {g : Graph} (hg : g.OK) (P : Platform) (o : HashOrder) (b : Nat) (hn : g.vertexCount ≠ 0) :
    ∃ m : SqMatrix F64, m.WF ∧
      m.dimension = ceilDiv g.vertexCount (clampBlockDimension g.vertexCount b) ∧
      (∀ c r, m.at? c r =
        if blockCount g.doesEdgeExist (clampBlockDimension g.vertexCount b) c r = 0 then none
        else some (F64.cnt (blockCount g.doesEdgeExist (clampBlockDimension g.vertexCount b) c r))) ∧
      g.findAvgPoolMatrix P o b =
        (P.u64Mul (clampBlockDimension g.vertexCount b) (clampBlockDimension g.vertexCount b)).map
          (fun sq => m.multiplyEntriesBy (F64.div (F64.lit 1) (F64.ofNat sq))) := by
  have hb : 0 < clampBlockDimension g.vertexCount b := by
    unfold clampBlockDimension; split
    · omega
    · split <;> omega
  generalize hbd : clampBlockDimension g.vertexCount b = b' at hb ⊢
  have hdim : g.vertexCount ≤ U64_MAX := hg.wf.dim
  have hbound : ∀ e ∈ g.items o, e.1 < g.vertexCount ∧ e.2 < g.vertexCount := fun e he =>
    hg.wf.bound e ((mem_items hg o).1 he)
  obtain ⟨m, hm, hwf, hd, hat⟩ := countBlocks_spec P b' (g.items o) [] SqMatrix.new (ceilDiv g.vertexCount b')
    (by
      intro e he
      have h1 := hbound e he
      have h2 := div_lt_ceilDiv hb h1.1
      have h3 := div_lt_ceilDiv hb h1.2
      have h4 := ceilDiv_le (n := g.vertexCount) hb
      omega)
    SqMatrix.WF.new (Nat.zero_le _) (fun c r => by rw [SqMatrix.new_at]; rfl)
  rw [List.nil_append] at hat
  refine ⟨m.setMinimumDimension (ceilDiv g.vertexCount b'), ?_, ?_, ?_, ?_⟩
  · exact hwf.setMinimumDimension ((ceilDiv_le hb).trans hdim)
  · rw [SqMatrix.setMinimumDimension_eq]; simp only; omega
  · intro c r
    rw [SqMatrix.setMinimumDimension_eq]
    change m.at? c r = _
    rw [hat, inBlock_eq hg o hb]
  · unfold findAvgPoolMatrix
    rw [if_neg hn]
    simp only [hbd, blocksPerRow_eq _ _ hb]
    have : countBlocks P b' (g.adjacencyMatrix.items o) = .ok m := hm
    rw [this, Res.bind_ok]
    cases P.u64Mul b' b' <;> rfl

end Graph
end Verif
