import Verif.Model.F64
import Mathlib.Tactic.Linarith
import Mathlib.Tactic.Positivity
import Mathlib.Tactic.NormNum
import Mathlib.Tactic.Ring
import Mathlib.Tactic.FieldSimp

/-! Lemmas about rounding to binary64. -/

namespace Verif.F64

theorem roundEven_int (n : ℤ) : roundEven (n : ℚ) = n := by
  unfold roundEven
  simp

theorem roundEven_cases (x : ℚ) :
    (roundEven x = ⌊x⌋ ∧ x - ⌊x⌋ ≤ 1 / 2) ∨ (roundEven x = ⌊x⌋ + 1 ∧ 1 / 2 ≤ x - ⌊x⌋) := by
  unfold roundEven
  simp only
  split
  · left; exact ⟨rfl, by linarith⟩
  · split
    · right; exact ⟨rfl, by linarith⟩
    · split
      · left; exact ⟨rfl, by linarith⟩
      · right; exact ⟨rfl, by linarith⟩

theorem abs_roundEven_sub (x : ℚ) : |(roundEven x : ℚ) - x| ≤ 1 / 2 := by
  have h0 := Int.floor_le x
  have h1 := Int.lt_floor_add_one x
  rcases roundEven_cases x with ⟨h, hd⟩ | ⟨h, hd⟩
  · rw [h, abs_le]; constructor <;> linarith
  · rw [h, abs_le]; push_cast; constructor <;> linarith

theorem roundEven_mono {x y : ℚ} (h : x ≤ y) : roundEven x ≤ roundEven y := by
  have hf : ⌊x⌋ ≤ ⌊y⌋ := Int.floor_mono h
  rcases lt_or_eq_of_le hf with hlt | heq
  · rcases roundEven_cases x with ⟨hx, _⟩ | ⟨hx, _⟩ <;>
    rcases roundEven_cases y with ⟨hy, _⟩ | ⟨hy, _⟩ <;> omega
  · unfold roundEven
    simp only [heq]
    have hd : x - (⌊y⌋ : ℚ) ≤ y - ⌊y⌋ := by linarith
    split_ifs <;> first | omega | (exfalso; linarith)

theorem roundEven_le_int {x : ℚ} {n : ℤ} (h : x ≤ n) : roundEven x ≤ n := by
  rw [← roundEven_int n]; exact roundEven_mono h

theorem int_le_roundEven {x : ℚ} {n : ℤ} (h : (n : ℚ) ≤ x) : n ≤ roundEven x := by
  rw [← roundEven_int n]; exact roundEven_mono h

theorem ulpExp_ge (q : ℚ) : -1074 ≤ ulpExp q := le_max_right _ _

theorem lt_two_zpow_ulpExp {q : ℚ} (h : 0 ≤ q) : q < 2 ^ (ulpExp q + 53) := by
  rcases eq_or_lt_of_le h with h | h
  · rw [← h]; exact zpow_pos (by norm_num) _
  · have h1 := Int.lt_zpow_succ_log_self (b := 2) (by norm_num) q
    refine lt_of_lt_of_le h1 ?_
    push_cast
    apply zpow_le_zpow_right₀ (by norm_num)
    have : Int.log 2 |q| - 52 ≤ ulpExp q := le_max_left _ _
    rw [abs_of_pos h] at this
    omega

theorem two_pos_zpow (e : ℤ) : (0 : ℚ) < 2 ^ e := zpow_pos (by norm_num) _

/-- The scaled significand is at most 2^53. -/
theorem scaled_le {q : ℚ} (h : 0 ≤ q) : roundEven (q / 2 ^ ulpExp q) ≤ 2 ^ 53 := by
  apply roundEven_le_int
  rw [div_le_iff₀ (two_pos_zpow _)]
  have := lt_two_zpow_ulpExp h
  rw [zpow_add₀ (by norm_num)] at this
  push_cast
  have h53 : (2 : ℚ) ^ (53 : ℤ) = 2 ^ 53 := by norm_cast
  rw [h53] at this
  linarith

theorem scaled_nonneg {q : ℚ} (h : 0 ≤ q) : 0 ≤ roundEven (q / 2 ^ ulpExp q) := by
  apply int_le_roundEven
  push_cast
  exact div_nonneg h (two_pos_zpow _).le

theorem rndQ_nonneg {q : ℚ} (h : 0 ≤ q) : 0 ≤ rndQ q := by
  unfold rndQ
  exact mul_nonneg (by exact_mod_cast scaled_nonneg h) (two_pos_zpow _).le

theorem rndQ_le_top {q : ℚ} (h : 0 ≤ q) : rndQ q ≤ 2 ^ (ulpExp q + 53) := by
  unfold rndQ
  rw [zpow_add₀ (by norm_num), mul_comm]
  apply mul_le_mul_of_nonneg_left _ (two_pos_zpow _).le
  have := scaled_le h
  have h53 : (2 : ℚ) ^ (53 : ℤ) = 2 ^ 53 := by norm_cast
  rw [h53]
  exact_mod_cast this

theorem ulpExp_normal {q : ℚ} (h : 0 < q) (hn : -1074 < ulpExp q) :
    ulpExp q = Int.log 2 q - 52 ∧ (2 : ℚ) ^ (ulpExp q + 52) ≤ q := by
  have he : ulpExp q = Int.log 2 q - 52 := by
    unfold ulpExp at *
    rw [abs_of_pos h] at *
    omega
  refine ⟨he, ?_⟩
  rw [he]
  have := Int.zpow_log_le_self (b := 2) (by norm_num) h
  push_cast at this
  rwa [show Int.log 2 q - 52 + 52 = Int.log 2 q by ring]

theorem le_rndQ_bottom {q : ℚ} (h : 0 < q) (hn : -1074 < ulpExp q) : (2 : ℚ) ^ (ulpExp q + 52) ≤ rndQ q := by
  obtain ⟨_, hq⟩ := ulpExp_normal h hn
  unfold rndQ
  rw [zpow_add₀ (by norm_num), mul_comm] at hq ⊢
  apply mul_le_mul_of_nonneg_right _ (two_pos_zpow _).le
  have h52 : (2 : ℚ) ^ (52 : ℤ) = ((2 ^ 52 : ℤ) : ℚ) := by norm_cast
  rw [h52] at hq ⊢
  rw [← le_div_iff₀ (two_pos_zpow _)] at hq
  exact_mod_cast int_le_roundEven hq

theorem ulpExp_mono {q q' : ℚ} (h : 0 < q) (hle : q ≤ q') : ulpExp q ≤ ulpExp q' := by
  unfold ulpExp
  rw [abs_of_pos h, abs_of_pos (lt_of_lt_of_le h hle)]
  have := Int.log_mono_right (b := 2) h hle
  omega

theorem rndQ_zero : rndQ 0 = 0 := by
  unfold rndQ
  have : roundEven ((0 : ℚ) / 2 ^ ulpExp 0) = 0 := by
    rw [zero_div]; exact_mod_cast roundEven_int 0
  rw [this]; simp

/-- Rounding is monotone on non-negative numbers. -/
theorem rndQ_mono {q q' : ℚ} (h : 0 ≤ q) (hle : q ≤ q') : rndQ q ≤ rndQ q' := by
  rcases eq_or_lt_of_le h with h | h
  · rw [← h, rndQ_zero]; exact rndQ_nonneg (by linarith)
  have hq' : 0 < q' := lt_of_lt_of_le h hle
  rcases eq_or_lt_of_le (ulpExp_mono h hle) with he | he
  · unfold rndQ
    rw [← he]
    apply mul_le_mul_of_nonneg_right _ (two_pos_zpow _).le
    have : roundEven (q / 2 ^ ulpExp q) ≤ roundEven (q' / 2 ^ ulpExp q) := by
      apply roundEven_mono
      exact div_le_div_of_nonneg_right hle (two_pos_zpow _).le
    exact_mod_cast this
  · have h1 := rndQ_le_top h.le
    have h2 := le_rndQ_bottom hq' (lt_of_le_of_lt (ulpExp_ge q) he)
    refine h1.trans (le_trans ?_ h2)
    apply zpow_le_zpow_right₀ (by norm_num)
    omega

/-- Numbers with at most 53 significant bits are exact. -/
theorem rndQ_exact_lt {m : ℤ} {e : ℤ} (hm0 : 0 ≤ m) (hm : m < 2 ^ 53) (he : -1074 ≤ e) :
    rndQ ((m : ℚ) * 2 ^ e) = (m : ℚ) * 2 ^ e := by
  rcases eq_or_lt_of_le hm0 with h0 | h0
  · rw [← h0]; simp [rndQ_zero]
  have hq : (0 : ℚ) < (m : ℚ) * 2 ^ e := mul_pos (by exact_mod_cast h0) (two_pos_zpow _)
  have hlt : (m : ℚ) * 2 ^ e < 2 ^ (e + 53) := by
    rw [zpow_add₀ (by norm_num), mul_comm]
    apply mul_lt_mul_of_pos_left _ (two_pos_zpow _)
    have h53 : (2 : ℚ) ^ (53 : ℤ) = ((2 ^ 53 : ℤ) : ℚ) := by norm_cast
    rw [h53]
    exact_mod_cast hm
  have hlog : Int.log 2 ((m : ℚ) * 2 ^ e) < e + 53 :=
    (Int.lt_zpow_iff_log_lt (by norm_num) hq).1 (by exact_mod_cast hlt)
  have hE : ulpExp ((m : ℚ) * 2 ^ e) ≤ e := by
    unfold ulpExp
    rw [abs_of_pos hq]
    omega
  unfold rndQ
  set E := ulpExp ((m : ℚ) * 2 ^ e) with hEdef
  have hint : (m : ℚ) * 2 ^ e / 2 ^ E = ((m * 2 ^ (e - E).toNat : ℤ) : ℚ) := by
    rw [mul_div_assoc, ← zpow_sub₀ (by norm_num)]
    push_cast
    congr 1
    rw [← zpow_natCast]
    congr 1
    omega
  rw [hint, roundEven_int, ← hint]
  field_simp

theorem rndQ_exact {m : ℤ} {e : ℤ} (hm0 : 0 ≤ m) (hm : m ≤ 2 ^ 53) (he : -1074 ≤ e) :
    rndQ ((m : ℚ) * 2 ^ e) = (m : ℚ) * 2 ^ e := by
  rcases eq_or_lt_of_le hm with h | h
  · have : (m : ℚ) * 2 ^ e = ((2 ^ 52 : ℤ) : ℚ) * 2 ^ (e + 1) := by
      rw [h, zpow_add₀ (by norm_num)]; push_cast; ring
    rw [this]
    exact rndQ_exact_lt (by norm_num) (by norm_num) (by omega)
  · exact rndQ_exact_lt hm0 h he

theorem rndQ_nat {n : Nat} (h : n ≤ 2 ^ 53) : rndQ (n : ℚ) = n := by
  have := rndQ_exact (m := n) (e := 0) (by omega) (by exact_mod_cast h) (by norm_num)
  simpa using this

theorem rndQ_idem {q : ℚ} (h : 0 ≤ q) : rndQ (rndQ q) = rndQ q := by
  have := rndQ_exact (scaled_nonneg h) (scaled_le h) (ulpExp_ge q)
  exact this

/-- Relative error of rounding in the normal range. -/
theorem rndQ_err {q : ℚ} (h : (2 : ℚ) ^ (-1022 : ℤ) ≤ q) : |rndQ q - q| ≤ q * 2 ^ (-53 : ℤ) := by
  have hq : 0 < q := lt_of_lt_of_le (two_pos_zpow _) h
  have hlog : -1022 ≤ Int.log 2 q := by
    rw [← Int.zpow_le_iff_le_log (by norm_num) hq]; exact_mod_cast h
  have hE : ulpExp q = Int.log 2 q - 52 := by
    unfold ulpExp; rw [abs_of_pos hq]; omega
  have hbot : (2 : ℚ) ^ (Int.log 2 q) ≤ q := by
    have := Int.zpow_log_le_self (b := 2) (by norm_num) hq
    exact_mod_cast this
  have h1 := abs_roundEven_sub (q / 2 ^ ulpExp q)
  have hp := two_pos_zpow (ulpExp q)
  have : rndQ q - q = (roundEven (q / 2 ^ ulpExp q) - q / 2 ^ ulpExp q) * 2 ^ ulpExp q := by
    unfold rndQ; field_simp
  rw [this, abs_mul, abs_of_pos hp]
  calc |(roundEven (q / 2 ^ ulpExp q) : ℚ) - q / 2 ^ ulpExp q| * 2 ^ ulpExp q
      ≤ 1 / 2 * 2 ^ ulpExp q := mul_le_mul_of_nonneg_right h1 hp.le
    _ = 2 ^ (Int.log 2 q) * 2 ^ (-53 : ℤ) := by
        rw [hE, zpow_sub₀ (by norm_num)]
        norm_num
        ring
    _ ≤ q * 2 ^ (-53 : ℤ) := mul_le_mul_of_nonneg_right hbot (two_pos_zpow _).le

theorem rndQ_pow2 (e : ℤ) (he : -1074 ≤ e) : rndQ ((2 : ℚ) ^ e) = 2 ^ e := by
  have := rndQ_exact (m := 1) (e := e) (by norm_num) (by norm_num) he
  simpa using this

theorem rnd_fin {q : ℚ} (h : 0 ≤ q) (ht : q ≤ 2 ^ 1023) : rnd q = fin (rndQ q) := by
  unfold rnd
  rw [if_pos]
  rw [abs_of_nonneg (rndQ_nonneg h)]
  have h1 := rndQ_mono h ht
  have h2 := rndQ_pow2 1023 (by norm_num)
  have h3 : ((2 : ℚ) ^ (1023 : ℤ)) = 2 ^ 1023 := zpow_ofNat _ _
  rw [h3] at h2
  rw [h2] at h1
  exact lt_of_le_of_lt h1 (pow_lt_pow_right₀ (by norm_num) (by norm_num))

theorem rnd_fin_of_le {q : ℚ} (h : 0 ≤ q) {n : Nat} (hn : n ≤ 1023) (ht : q ≤ 2 ^ n) : rnd q = fin (rndQ q) :=
  rnd_fin h (ht.trans (pow_le_pow_right₀ (by norm_num) hn))

theorem lit_zero : lit 0 = fin 0 := by
  unfold lit; rw [rnd_fin (le_refl _) (by positivity), rndQ_zero]

theorem ofNat_eq {n : Nat} (h : n ≤ 2 ^ 53) : ofNat n = fin n := by
  unfold ofNat
  rw [rnd_fin_of_le (by positivity) (n := 53) (by norm_num) (by exact_mod_cast h), rndQ_nat h]

theorem lit_nat {n : Nat} (h : n ≤ 2 ^ 53) : lit (n : ℚ) = fin n := ofNat_eq h

theorem lit_one : lit 1 = fin 1 := by
  have := lit_nat (n := 1) (by norm_num)
  simpa using this

end Verif.F64
