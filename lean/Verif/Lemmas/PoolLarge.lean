import Verif.Lemmas.PoolVal

/-! Pooled values for all block sizes whose square fits in a `u64`. -/

namespace Verif
namespace F64

/-- More cells give a smaller value. -/
theorem poolQ_anti {s s' : Nat} (h1 : 1 ≤ s) (h : s ≤ s') (h2 : s' ≤ U64_MAX) (k : Nat) : poolQ s' k ≤ poolQ s k := by
  have hp := recipQ_pos (h1.trans h) h2
  have hr : recipQ s' ≤ recipQ s := by
    have h0 := (rndQ_s_bounds h1 (h.trans h2)).1
    have h0' := (rndQ_s_bounds (h1.trans h) h2).1
    unfold recipQ
    apply rndQ_mono (by positivity)
    apply one_div_le_one_div_of_le (by linarith)
    exact rndQ_mono (by positivity) (by exact_mod_cast h)
  unfold poolQ
  apply rndQ_mono (by positivity)
  exact mul_le_mul_of_nonneg_left hr (by positivity)

/-- Relative error of pooled values, three roundings. -/
theorem poolQ_err64 {s : Nat} (h1 : 1 ≤ s) (h2 : s ≤ U64_MAX) {k : Nat} (hk : k ≤ 2 ^ 53) :
    |poolQ s k - (k : ℚ) / s| ≤ (k : ℚ) / s * (1 / 2 ^ 51) := by
  obtain ⟨ha, hb⟩ := rndQ_s_bounds h1 h2
  have hr := recipQ_bounds h1 h2
  unfold poolQ
  rw [min_eq_left hk]
  rcases Nat.eq_zero_or_pos k with rfl | hk0
  · simp [rndQ_zero]
  have hs : (1 : ℚ) ≤ s := by exact_mod_cast h1
  have hkq : (1 : ℚ) ≤ k := by exact_mod_cast hk0
  have e1 := abs_le.1 (rndQ_err' (q := (s : ℚ)) (le_trans (by norm_num) hs))
  have e2 : |recipQ s - 1 / rndQ s| ≤ 1 / rndQ s / 2 ^ 53 := by
    apply rndQ_err'
    apply one_div_le_one_div_of_le (by linarith)
    exact hb.trans (by norm_num)
  have e2 := abs_le.1 e2
  have hq : (1 : ℚ) / 2 ^ 200 ≤ (k : ℚ) * recipQ s := by
    have : (1 : ℚ) / 2 ^ 200 ≤ 1 / 2 ^ 64 := by norm_num
    nlinarith [hr.1]
  have e3 := abs_le.1 (rndQ_err' hq)
  generalize rndQ ((k : ℚ) * recipQ s) = z at *
  generalize recipQ s = y at *
  generalize rndQ (s : ℚ) = x at *
  -- `x` is within `s (1 ± ε)`, so `1 / x` within `(1 / s) / (1 ± ε)`
  have hx : 0 < x := by linarith
  have hs0 : (0 : ℚ) < s := by linarith
  have hA : (0 : ℚ) < 1 / s := by positivity
  have hsA : (s : ℚ) * (1 / s) = 1 := by field_simp
  rw [show (k : ℚ) / s = k * (1 / s) by ring]
  generalize (1 : ℚ) / s = A at *
  have i1 : 1 / x ≤ A * (1 + 1 / 2 ^ 53 + 1 / 2 ^ 105) := by
    rw [div_le_iff₀ hx]
    have h := mul_le_mul_of_nonneg_left (by linarith [e1.1] : (s : ℚ) * (1 - 1 / 2 ^ 53) ≤ x)
      (by positivity : 0 ≤ A * (1 + 1 / 2 ^ 53 + 1 / 2 ^ 105))
    have : A * (1 + 1 / 2 ^ 53 + 1 / 2 ^ 105) * ((s : ℚ) * (1 - 1 / 2 ^ 53)) =
      (s * A) * ((1 + 1 / 2 ^ 53 + 1 / 2 ^ 105) * (1 - 1 / 2 ^ 53)) := by ring
    rw [this, hsA] at h
    norm_num at h ⊢
    linarith
  have i2 : A * (1 - 1 / 2 ^ 53) ≤ 1 / x := by
    rw [le_div_iff₀ hx]
    have h := mul_le_mul_of_nonneg_left (by linarith [e1.2] : x ≤ (s : ℚ) * (1 + 1 / 2 ^ 53))
      (mul_nonneg hA.le (by norm_num) : 0 ≤ A * (1 - 1 / 2 ^ 53))
    have : A * (1 - 1 / 2 ^ 53) * ((s : ℚ) * (1 + 1 / 2 ^ 53)) =
      (s * A) * ((1 - 1 / 2 ^ 53) * (1 + 1 / 2 ^ 53)) := by ring
    rw [this, hsA] at h
    norm_num at h ⊢
    linarith
  generalize 1 / x = w at *
  have j1 : y ≤ A * (1 + 1 / 2 ^ 53 + 1 / 2 ^ 105) * (1 + 1 / 2 ^ 53) := by nlinarith [e2.2]
  have j2 : A * (1 - 1 / 2 ^ 53) * (1 - 1 / 2 ^ 53) ≤ y := by nlinarith [e2.1]
  have hkA : 0 < (k : ℚ) * A := by positivity
  have l1 : (k : ℚ) * y ≤ k * A * ((1 + 1 / 2 ^ 53 + 1 / 2 ^ 105) * (1 + 1 / 2 ^ 53)) := by
    have := mul_le_mul_of_nonneg_left j1 (by positivity : (0 : ℚ) ≤ k)
    linarith
  have l2 : (k : ℚ) * A * ((1 - 1 / 2 ^ 53) * (1 - 1 / 2 ^ 53)) ≤ k * y := by
    have := mul_le_mul_of_nonneg_left j2 (by positivity : (0 : ℚ) ≤ k)
    linarith
  generalize (k : ℚ) * y = u at *
  generalize (k : ℚ) * A = B at *
  rw [abs_le]
  norm_num at *
  constructor <;> linarith

end F64
end Verif
