import Mathlib.Tactic.Linarith
import Mathlib.Tactic.Positivity
import Mathlib.Tactic.FieldSimp
import Verif.Lemmas.Pool

/-! The floating-point values of the pooled matrix. -/

namespace Verif
open Spec

namespace F64

/-- `1.0 / (s as f64)`. -/
def recipQ (s : Nat) : ℚ := rndQ (1 / rndQ (s : ℚ))

/-- The pooled value of a block with `k` edges and `s` cells. -/
def poolQ (s k : Nat) : ℚ := rndQ (((min k (2 ^ 53) : Nat) : ℚ) * recipQ s)

theorem rndQ_one : rndQ (1 : ℚ) = 1 := by have := rndQ_nat (n := 1) (by norm_num); simpa using this

theorem one_le_rndQ {q : ℚ} (h : 1 ≤ q) : 1 ≤ rndQ q := by
  have := rndQ_mono (q := 1) (by norm_num) h
  rwa [rndQ_one] at this

theorem rndQ_le_one {q : ℚ} (h0 : 0 ≤ q) (h : q ≤ 1) : rndQ q ≤ 1 := by
  have := rndQ_mono h0 h
  rwa [rndQ_one] at this

theorem zp (n : ℕ) : (2 : ℚ) ^ (-(n : ℤ)) = 1 / 2 ^ n := by
  rw [zpow_neg, zpow_natCast, one_div]

/-- `1 + 2^-53` is a tie and rounds to `1`. -/
theorem rndQ_one_add : rndQ (1 + 1 / 2 ^ 53) = 1 := by
  have hlog : Int.log 2 ((1 : ℚ) + 1 / 2 ^ 53) = 0 := by
    apply le_antisymm
    · have h : ((1 : ℚ) + 1 / 2 ^ 53) < ((2 : ℕ) : ℚ) ^ (1 : ℤ) := by norm_num
      have := (Int.lt_zpow_iff_log_lt (b := 2) (by norm_num) (by positivity)).1 h
      omega
    · have h : ((2 : ℕ) : ℚ) ^ (0 : ℤ) ≤ (1 : ℚ) + 1 / 2 ^ 53 := by norm_num
      exact (Int.zpow_le_iff_le_log (b := 2) (by norm_num) (by positivity)).1 h
  have he : ulpExp ((1 : ℚ) + 1 / 2 ^ 53) = -52 := by
    unfold ulpExp
    rw [abs_of_pos (by positivity), hlog]; norm_num
  unfold rndQ
  have h52 : (2 : ℚ) ^ (-52 : ℤ) = 1 / 2 ^ 52 := zp 52
  rw [he, h52]
  have h : roundEven (((1 : ℚ) + 1 / 2 ^ 53) / (1 / 2 ^ 52)) = 2 ^ 52 := by
    have hf : ⌊((1 : ℚ) + 1 / 2 ^ 53) / (1 / 2 ^ 52)⌋ = 2 ^ 52 := by
      rw [Int.floor_eq_iff]; constructor <;> norm_num
    unfold roundEven
    simp only [hf]
    norm_num
  rw [h]; norm_num

theorem rndQ_le_one' {q : ℚ} (h0 : 0 ≤ q) (h : q ≤ 1 + 1 / 2 ^ 53) : rndQ q ≤ 1 := by
  have := rndQ_mono h0 h
  rwa [rndQ_one_add] at this

theorem rndQ_pow64 : rndQ ((2 : ℚ) ^ 64) = 2 ^ 64 := by
  have h := rndQ_pow2 64 (by norm_num)
  have e : (2 : ℚ) ^ (64 : ℤ) = 2 ^ 64 := zpow_ofNat _ _
  rwa [e] at h

theorem rndQ_pow2_nat (n : ℕ) : rndQ ((2 : ℚ) ^ n) = 2 ^ n := by
  have h := rndQ_pow2 (n : ℤ) (by omega)
  rwa [zpow_natCast] at h

theorem rndQ_inv_pow2 {n : ℕ} (hn : n ≤ 1074) : rndQ (1 / (2 : ℚ) ^ n) = 1 / 2 ^ n := by
  have h := rndQ_pow2 (-(n : ℤ)) (by omega)
  rwa [zp] at h

variable {s : Nat}

theorem rndQ_s_bounds (h1 : 1 ≤ s) (h2 : s ≤ U64_MAX) : 1 ≤ rndQ (s : ℚ) ∧ rndQ (s : ℚ) ≤ 2 ^ 64 := by
  refine ⟨one_le_rndQ (by exact_mod_cast h1), ?_⟩
  rw [← rndQ_pow64]
  apply rndQ_mono (by positivity)
  have : U64_MAX ≤ 2 ^ 64 := by norm_num [U64_MAX]
  exact_mod_cast h2.trans this

theorem recipQ_bounds (h1 : 1 ≤ s) (h2 : s ≤ U64_MAX) : 1 / 2 ^ 64 ≤ recipQ s ∧ recipQ s ≤ 1 := by
  obtain ⟨ha, hb⟩ := rndQ_s_bounds h1 h2
  have hpos : 0 < rndQ (s : ℚ) := by linarith
  constructor
  · unfold recipQ
    rw [← rndQ_inv_pow2 (n := 64) (by norm_num)]
    apply rndQ_mono (by positivity)
    exact one_div_le_one_div_of_le hpos hb
  · unfold recipQ
    apply rndQ_le_one (by positivity)
    rw [div_le_one hpos]; exact ha

theorem recipQ_pos (h1 : 1 ≤ s) (h2 : s ≤ U64_MAX) : 0 < recipQ s :=
  lt_of_lt_of_le (by positivity) (recipQ_bounds h1 h2).1

theorem div_eq_recip (h1 : 1 ≤ s) (h2 : s ≤ U64_MAX) : div (lit 1) (ofNat s) = fin (recipQ s) := by
  obtain ⟨ha, hb⟩ := rndQ_s_bounds h1 h2
  have hs : ofNat s = fin (rndQ (s : ℚ)) := by
    unfold ofNat
    refine rnd_fin_of_le (by positivity) (n := 64) (by norm_num) ?_
    have : U64_MAX ≤ 2 ^ 64 := by norm_num [U64_MAX]
    exact_mod_cast h2.trans this
  rw [lit_one, hs]
  unfold div
  simp only
  rw [if_neg (by linarith)]
  have hpos : 0 < rndQ (s : ℚ) := by linarith
  refine rnd_fin_of_le (by positivity) (n := 0) (by norm_num) ?_
  rw [pow_zero, div_le_one hpos]; exact ha

theorem mul_cnt_recip (h1 : 1 ≤ s) (h2 : s ≤ U64_MAX) (k : Nat) :
    mul (cnt k) (fin (recipQ s)) = fin (poolQ s k) := by
  obtain ⟨ha, hb⟩ := recipQ_bounds h1 h2
  have hpos := recipQ_pos h1 h2
  unfold cnt mul poolQ
  simp only
  refine rnd_fin_of_le (by positivity) (n := 53) (by norm_num) ?_
  have : ((min k (2 ^ 53) : Nat) : ℚ) ≤ 2 ^ 53 := by exact_mod_cast min_le_right _ _
  calc ((min k (2 ^ 53) : Nat) : ℚ) * recipQ s ≤ 2 ^ 53 * 1 := by
        apply mul_le_mul this hb hpos.le (by positivity)
    _ = 2 ^ 53 := mul_one _

theorem poolQ_mono (h1 : 1 ≤ s) (h2 : s ≤ U64_MAX) {k k' : Nat} (h : k ≤ k') : poolQ s k ≤ poolQ s k' := by
  have hpos := recipQ_pos h1 h2
  unfold poolQ
  apply rndQ_mono (by positivity)
  apply mul_le_mul_of_nonneg_right _ hpos.le
  exact_mod_cast min_le_min_right _ h

theorem poolQ_nonneg (h1 : 1 ≤ s) (h2 : s ≤ U64_MAX) (k : Nat) : 0 ≤ poolQ s k := by
  have hpos := recipQ_pos h1 h2
  exact rndQ_nonneg (by positivity)

theorem poolQ_pos (h1 : 1 ≤ s) (h2 : s ≤ U64_MAX) {k : Nat} (hk : 0 < k) : recipQ s ≤ poolQ s k := by
  have hpos := recipQ_pos h1 h2
  have h3 : rndQ (recipQ s) = recipQ s := by
    unfold recipQ
    apply rndQ_idem
    have := (rndQ_s_bounds h1 h2).1
    positivity
  rw [← h3]
  unfold poolQ
  apply rndQ_mono hpos.le
  have : (1 : ℚ) ≤ ((min k (2 ^ 53) : Nat) : ℚ) := by
    have : 1 ≤ min k (2 ^ 53) := le_min hk (by norm_num)
    exact_mod_cast this
  nlinarith

theorem pow1022 : (2 : ℚ) ^ (-1022 : ℤ) ≤ 1 / 2 ^ 200 := by
  rw [show (-1022 : ℤ) = -((1022 : ℕ) : ℤ) from rfl, zp]
  apply one_div_le_one_div_of_le (by positivity)
  exact pow_le_pow_right₀ (by norm_num) (by norm_num)

theorem rndQ_err' {q : ℚ} (h : 1 / 2 ^ 200 ≤ q) : |rndQ q - q| ≤ q / 2 ^ 53 := by
  have := rndQ_err (pow1022.trans h)
  have e : (2 : ℚ) ^ (-53 : ℤ) = 1 / 2 ^ 53 := zp 53
  rw [e] at this
  rwa [mul_one_div] at this

/-- For block sizes whose square is exactly representable. -/
theorem recipQ_err (h1 : 1 ≤ s) (h2 : s ≤ 2 ^ 53) : |recipQ s - 1 / s| ≤ 1 / s / 2 ^ 53 := by
  unfold recipQ
  rw [rndQ_nat h2]
  apply rndQ_err'
  have : (s : ℚ) ≤ 2 ^ 200 := by
    have : s ≤ 2 ^ 200 := h2.trans (Nat.pow_le_pow_right (by norm_num) (by norm_num))
    exact_mod_cast this
  exact one_div_le_one_div_of_le (by exact_mod_cast h1) this

/-- Pooled values are at most one. -/
theorem poolQ_le_one (h1 : 1 ≤ s) (h2 : s ≤ U64_MAX) {k : Nat} (hk : k ≤ s) : poolQ s k ≤ 1 := by
  have hpos := recipQ_pos h1 h2
  by_cases h53 : s ≤ 2 ^ 53
  · unfold poolQ
    apply rndQ_le_one' (by positivity)
    have he := recipQ_err h1 h53
    have hs : (0 : ℚ) < s := by exact_mod_cast h1
    rw [abs_le] at he
    have hk' : ((min k (2 ^ 53) : Nat) : ℚ) ≤ s := by exact_mod_cast (min_le_left _ _).trans hk
    calc ((min k (2 ^ 53) : Nat) : ℚ) * recipQ s ≤ s * (1 / s + 1 / s / 2 ^ 53) := by
          apply mul_le_mul hk' (by linarith [he.2]) hpos.le hs.le
      _ = 1 + 1 / 2 ^ 53 := by field_simp
  · have hr : recipQ s ≤ 1 / 2 ^ 53 := by
      unfold recipQ
      rw [← rndQ_inv_pow2 (n := 53) (by norm_num)]
      have h0 := (rndQ_s_bounds h1 h2).1
      apply rndQ_mono (by positivity)
      apply one_div_le_one_div_of_le (by positivity)
      rw [← rndQ_pow2_nat]
      apply rndQ_mono (by positivity)
      have : 2 ^ 53 ≤ s := by omega
      exact_mod_cast this
    unfold poolQ
    apply rndQ_le_one (by positivity)
    have : ((min k (2 ^ 53) : Nat) : ℚ) ≤ 2 ^ 53 := by exact_mod_cast min_le_right _ _
    calc ((min k (2 ^ 53) : Nat) : ℚ) * recipQ s ≤ 2 ^ 53 * (1 / 2 ^ 53) := by
          apply mul_le_mul this hr hpos.le (by positivity)
      _ = 1 := by norm_num

/-- Relative error of pooled values. -/
theorem poolQ_err (h1 : 1 ≤ s) (h2 : s ≤ 2 ^ 52) {k : Nat} (hk : k ≤ s) :
    |poolQ s k - (k : ℚ) / s| ≤ (k : ℚ) / s * (1 / 2 ^ 52 + 1 / 2 ^ 106) := by
  have hU : s ≤ U64_MAX := h2.trans (by norm_num [U64_MAX])
  have he := recipQ_err h1 (h2.trans (by norm_num))
  have hmin : min k (2 ^ 53) = k := min_eq_left (hk.trans (h2.trans (by norm_num)))
  unfold poolQ
  rw [hmin]
  rcases Nat.eq_zero_or_pos k with rfl | hk0
  · simp [rndQ_zero]
  have hs : (0 : ℚ) < s := by exact_mod_cast h1
  have hkq : (1 : ℚ) ≤ k := by exact_mod_cast hk0
  have hr := recipQ_bounds h1 hU
  have hq : (1 : ℚ) / 2 ^ 200 ≤ (k : ℚ) * recipQ s := by
    have : (1 : ℚ) / 2 ^ 200 ≤ 1 / 2 ^ 64 := by norm_num
    nlinarith [hr.1]
  have he2 := rndQ_err' hq
  have hA : |(k : ℚ) * recipQ s - k / s| ≤ (k : ℚ) / s / 2 ^ 53 := by
    have : (k : ℚ) * recipQ s - k / s = k * (recipQ s - 1 / s) := by ring
    rw [this, abs_mul, abs_of_nonneg (by positivity : (0 : ℚ) ≤ k)]
    calc (k : ℚ) * |recipQ s - 1 / s| ≤ k * (1 / s / 2 ^ 53) := by
          apply mul_le_mul_of_nonneg_left he (by positivity)
      _ = (k : ℚ) / s / 2 ^ 53 := by ring
  have htri : |rndQ ((k : ℚ) * recipQ s) - k / s| ≤
      |rndQ ((k : ℚ) * recipQ s) - k * recipQ s| + |(k : ℚ) * recipQ s - k / s| := by
    have := abs_add_le (rndQ ((k : ℚ) * recipQ s) - k * recipQ s) ((k : ℚ) * recipQ s - k / s)
    rwa [sub_add_sub_cancel] at this
  have hB : (k : ℚ) * recipQ s ≤ k / s + (k : ℚ) / s / 2 ^ 53 := by
    have := (abs_le.1 hA).2; linarith
  have hC : (k : ℚ) * recipQ s / 2 ^ 53 ≤ (k / s + (k : ℚ) / s / 2 ^ 53) / 2 ^ 53 :=
    div_le_div_of_nonneg_right hB (by positivity)
  calc |rndQ ((k : ℚ) * recipQ s) - k / s|
      ≤ (k : ℚ) * recipQ s / 2 ^ 53 + (k : ℚ) / s / 2 ^ 53 := by linarith
    _ ≤ (k / s + (k : ℚ) / s / 2 ^ 53) / 2 ^ 53 + (k : ℚ) / s / 2 ^ 53 := by linarith
    _ = (k : ℚ) / s * (1 / 2 ^ 52 + 1 / 2 ^ 106) := by ring

/-- Pooled values are exact when the number of cells is a power of two. -/
theorem poolQ_pow2 {j k : Nat} (hj : j ≤ 63) (hk : k ≤ 2 ^ 53) : poolQ (2 ^ j) k = (k : ℚ) / 2 ^ j := by
  have hr : recipQ (2 ^ j) = 1 / 2 ^ j := by
    unfold recipQ
    push_cast
    rw [rndQ_pow2_nat, rndQ_inv_pow2 (by omega)]
  unfold poolQ
  rw [hr, min_eq_left hk]
  have := rndQ_exact (m := (k : ℤ)) (e := -(j : ℤ)) (by omega) (by exact_mod_cast hk) (by omega)
  rw [zp] at this
  push_cast at this
  rw [this, mul_one_div]

end F64
end Verif
