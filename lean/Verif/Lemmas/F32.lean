import Verif.Model.F32
import Verif.Spec.F32
import Verif.Lemmas.F64
import Verif.Lemmas.F64Wide

/-! Lemmas about rounding to binary32 and about printing `f32` matrices. -/

namespace Verif
open Spec

/-- The largest `f32`. -/
def f32Max : ℚ := (2 ^ 24 - 1) * 2 ^ 104

namespace F32

theorem scaled_le (q : ℚ) : |F64.roundEven (q / 2 ^ ulpExp q)| ≤ 2 ^ 24 := by
  have hb : |q / 2 ^ ulpExp q| ≤ 2 ^ 24 := by
    rw [abs_div, abs_of_pos (F64.two_pos_zpow _), div_le_iff₀ (F64.two_pos_zpow _)]
    rcases eq_or_lt_of_le (abs_nonneg q) with h | h
    · rw [← h]; exact mul_nonneg (by norm_num) (F64.two_pos_zpow _).le
    · have h1 := Int.lt_zpow_succ_log_self (b := 2) (by norm_num) |q|
      push_cast at h1
      have h2 : (2 : ℚ) ^ (Int.log 2 |q| + 1) ≤ 2 ^ (ulpExp q + 24) := by
        apply zpow_le_zpow_right₀ (by norm_num)
        have : Int.log 2 |q| - 23 ≤ ulpExp q := le_max_left _ _
        omega
      have h3 : (2 : ℚ) ^ (ulpExp q + 24) = 2 ^ 24 * 2 ^ ulpExp q := by
        rw [zpow_add₀ (by norm_num), mul_comm]
        norm_cast
      linarith
  rw [abs_le] at hb ⊢
  constructor
  · apply F64.int_le_roundEven; push_cast; exact hb.1
  · apply F64.roundEven_le_int; push_cast; exact hb.2

/-- Every rounded result is an `f32`. -/
theorem rnd_isF32 (q : ℚ) : IsF32 (rnd q) := by
  unfold rnd
  split
  · next h =>
    have hs := scaled_le q
    have he : -149 ≤ ulpExp q := le_max_right _ _
    rcases lt_or_eq_of_le hs with hlt | heq
    · exact ⟨_, _, rfl, hlt, he, h⟩
    · have hd : ∃ s : ℤ, |s| = 2 ^ 23 ∧ F64.roundEven (q / 2 ^ ulpExp q) = s * 2 := by
        rcases abs_eq (by norm_num : (0 : ℤ) ≤ 2 ^ 24) |>.1 heq with h1 | h1
        · exact ⟨2 ^ 23, by norm_num, by rw [h1]; norm_num⟩
        · exact ⟨-2 ^ 23, by norm_num, by rw [h1]; norm_num⟩
      obtain ⟨s, h1, h2⟩ := hd
      refine ⟨s, ulpExp q + 1, ?_, by rw [h1]; norm_num, by omega, h⟩
      unfold rndQ
      rw [h2, zpow_add₀ (by norm_num)]
      push_cast
      ring
  · trivial

theorem add_isF32 (a b : F64) : IsF32 (add a b) := by
  rcases a with _ | a | a <;> rcases b with _ | b | b <;> unfold add <;>
    first | trivial | exact rnd_isF32 _ | (dsimp only; split <;> trivial)

/-- Integers of at most 24 bits are exact. -/
theorem rndQ_nat {n : Nat} (h : n < 2 ^ 24) : rndQ (n : ℚ) = n := by
  have hE : ulpExp (n : ℚ) ≤ 0 := by
    unfold ulpExp
    have : Int.log 2 |(n : ℚ)| ≤ 23 := by
      rw [abs_of_nonneg (by positivity), Int.log_natCast]
      have : Nat.log 2 n < 24 := by
        rcases Nat.eq_zero_or_pos n with rfl | hp
        · simp
        · exact (Nat.log_lt_iff_lt_pow (by norm_num) (by omega)).2 h
      omega
    omega
  unfold rndQ
  have hint : (n : ℚ) / 2 ^ ulpExp (n : ℚ) = (((n : ℤ) * 2 ^ (-ulpExp (n : ℚ)).toNat : ℤ) : ℚ) := by
    rw [div_eq_mul_inv, ← zpow_neg]
    push_cast
    congr 1
    rw [← zpow_natCast]
    congr 1
    omega
  rw [hint, F64.roundEven_int, ← hint]
  field_simp

theorem rnd_nat {n : Nat} (h : n < 2 ^ 24) : rnd (n : ℚ) = .fin n := by
  unfold rnd
  rw [rndQ_nat h, if_pos]
  rw [abs_of_nonneg (by positivity)]
  calc (n : ℚ) < ((2 ^ 24 : ℕ) : ℚ) := by exact_mod_cast h
    _ ≤ 2 ^ 128 := by norm_num

/-- Adding one, counting from zero: exact up to `2^24`, then stuck. -/
theorem add_one (n : Nat) : add (.fin ((min n (2 ^ 24) : ℕ) : ℚ)) (rnd 1) = .fin ((min (n + 1) (2 ^ 24) : ℕ) : ℚ) := by
  have h1 : rnd 1 = .fin 1 := by
    have := rnd_nat (n := 1) (by norm_num)
    simpa using this
  rw [h1]
  change rnd _ = _
  have hcast : ((min n (2 ^ 24) : ℕ) : ℚ) + 1 = ((min n (2 ^ 24) + 1 : ℕ) : ℚ) := by push_cast; rfl
  rw [hcast]
  by_cases h : n + 1 < 2 ^ 24
  · rw [Nat.min_eq_left (by omega), Nat.min_eq_left (by omega), rnd_nat h]
  · by_cases h2 : n + 1 = 2 ^ 24
    · have : n = 2 ^ 24 - 1 := by omega
      subst this
      decide +kernel
    · rw [Nat.min_eq_right (by omega), Nat.min_eq_right (by omega)]
      decide +kernel

theorem zero_eq : rnd 0 = .fin 0 := by
  have := rnd_nat (n := 0) (by norm_num)
  simpa using this

theorem one_eq : rnd 1 = .fin 1 := by
  have := rnd_nat (n := 1) (by norm_num)
  simpa using this

/-- No `f32` exceeds the largest one. -/
theorem abs_le_max {q : ℚ} (h : IsF32Q q) : |q| ≤ f32Max := by
  obtain ⟨s, e, rfl, hs, _, hlt⟩ := h
  have hs' : |s| ≤ 2 ^ 24 - 1 := by omega
  rw [abs_mul, abs_of_pos (F64.two_pos_zpow e)] at hlt ⊢
  unfold f32Max
  by_cases he : e ≤ 104
  · apply mul_le_mul
    · exact_mod_cast hs'
    · calc (2 : ℚ) ^ e ≤ 2 ^ (104 : ℤ) := zpow_le_zpow_right₀ (by norm_num) he
        _ = 2 ^ 104 := by norm_cast
    · exact (F64.two_pos_zpow _).le
    · norm_num
  · obtain ⟨k, hk⟩ : ∃ k : Nat, e = 104 + k := ⟨(e - 104).toNat, by omega⟩
    have h2 : (2 : ℚ) ^ e = 2 ^ k * 2 ^ 104 := by
      rw [hk, zpow_add₀ (by norm_num), zpow_natCast, mul_comm]
      norm_cast
    rw [h2, ← mul_assoc] at hlt ⊢
    apply mul_le_mul_of_nonneg_right _ (by positivity)
    have h3 : (|(s : ℚ)| * 2 ^ k) < 2 ^ 24 := by
      by_contra hc
      push Not at hc
      have := mul_le_mul_of_nonneg_right hc (show (0 : ℚ) ≤ 2 ^ 104 by positivity)
      norm_num at this hlt
      linarith
    have h4 : (|s| * 2 ^ k : ℤ) < 2 ^ 24 := by exact_mod_cast h3
    have h5 : (|s| * 2 ^ k : ℤ) ≤ 2 ^ 24 - 1 := by omega
    exact_mod_cast h5

theorem printable {v : F64} (h : IsF32 v) : v.Printable := by
  rcases v with _ | _ | q
  · trivial
  · trivial
  · refine lt_of_le_of_lt (abs_le_max h) ?_
    unfold f32Max
    norm_num

end F32

namespace SqMatrix

/-- The two loops agree except that they may both still be at their (different) starting values. -/
theorem foldExtremes_f32 (l : List F64) (hl : ∀ v ∈ l, IsF32 v) : ∀ a b a' b' : F64,
    (a = a' ∨ a = .fin (-f32Max) ∧ a' = .fin (-f64Max)) → (b = b' ∨ b = .fin f32Max ∧ b' = .fin f64Max) →
    let x := l.foldl (fun hl v => (if F64.lt hl.1 v then v else hl.1, if F64.lt v hl.2 then v else hl.2)) (a, b)
    let y := l.foldl (fun hl v => (if F64.lt hl.1 v then v else hl.1, if F64.lt v hl.2 then v else hl.2)) (a', b')
    (x.1 = y.1 ∨ x.1 = .fin (-f32Max) ∧ y.1 = .fin (-f64Max)) ∧
    (x.2 = y.2 ∨ x.2 = .fin f32Max ∧ y.2 = .fin f64Max) := by
  have hM : f32Max < f64Max := by
    unfold f32Max f64Max
    calc ((2 : ℚ) ^ 24 - 1) * 2 ^ 104 < 1 * 2 ^ 128 := by norm_num
      _ ≤ _ := mul_le_mul (by norm_num) (pow_le_pow_right₀ (by norm_num) (by norm_num)) (by positivity) (by norm_num)
  induction l with
  | nil => intro a b a' b' ha hb; exact ⟨ha, hb⟩
  | cons v l ih =>
    intro a b a' b' ha hb
    simp only [List.foldl_cons]
    apply ih (fun v hv => hl v (by simp [hv]))
    · rcases ha with rfl | ⟨rfl, rfl⟩
      · exact .inl rfl
      · rcases v with _ | (_ | _) | q
        · right; simp [F64.lt]
        · left; simp [F64.lt, F64.le]
        · right; simp [F64.lt, F64.le]
        · have hq := F32.abs_le_max (hl (.fin q) (by simp))
          have h1 := (abs_le.1 hq).1
          rw [F64.lt_fin, F64.lt_fin, decide_eq_true (show -f64Max < q by linarith)]
          left
          simp only [if_true]
          by_cases h2 : -f32Max < q
          · rw [decide_eq_true h2]; rfl
          · rw [decide_eq_false h2]
            have : q = -f32Max := le_antisymm (not_lt.1 h2) h1
            rw [this]; rfl
    · rcases hb with rfl | ⟨rfl, rfl⟩
      · exact .inl rfl
      · rcases v with _ | (_ | _) | q
        · right; simp [F64.lt]
        · right; simp [F64.lt, F64.le]
        · left; simp [F64.lt, F64.le]
        · have hq := F32.abs_le_max (hl (.fin q) (by simp))
          have h1 := (abs_le.1 hq).2
          rw [F64.lt_fin, F64.lt_fin, decide_eq_true (show q < f64Max by linarith)]
          left
          simp only [if_true]
          by_cases h2 : q < f32Max
          · rw [decide_eq_true h2]; rfl
          · rw [decide_eq_false h2]
            have : q = f32Max := le_antisymm h1 (not_lt.1 h2)
            rw [this]; rfl

theorem asI128_f64Max : F64.asI128 (.fin f64Max) = 2 ^ 127 - 1 ∧ F64.asI128 (.fin (-f64Max)) = -2 ^ 127 := by
  have : f64Max = (((2 ^ 53 - 1) * 2 ^ 971 : ℤ) : ℚ) := by
    unfold f64Max; rw [Int.cast_mul, Int.cast_pow]; norm_num
  have hp : (0 : ℚ) < f64Max := by unfold f64Max; exact mul_pos (by norm_num) (by positivity)
  constructor
  · unfold F64.asI128
    simp only
    rw [if_neg (not_lt.2 hp.le), this, Int.floor_intCast]
    decide +kernel
  · unfold F64.asI128
    simp only
    rw [if_pos (by linarith), this, Int.ceil_neg, Int.floor_intCast]
    decide +kernel

theorem asI128_f32Max : F64.asI128 (.fin f32Max) = 2 ^ 127 - 1 ∧ F64.asI128 (.fin (-f32Max)) = -2 ^ 127 := by
  constructor <;> decide +kernel

/-- The same digits are reserved for the values as `f32` and as `f64`. -/
theorem digits_f32 (o : HashOrder) {m : SqMatrix F64} (hm : ∀ c r v, m.at? c r = some v → IsF32 v) :
    f32Fmt.digitCount (extremes f32Fmt o m).1 = f64Fmt.digitCount (extremes f64Fmt o m).1 ∧
    f32Fmt.digitCount (extremes f32Fmt o m).2 = f64Fmt.digitCount (extremes f64Fmt o m).2 := by
  have hA : ∀ a a' : F64, (a = a' ∨ a = .fin (-f32Max) ∧ a' = .fin (-f64Max)) →
      f32Fmt.digitCount a = f64Fmt.digitCount a' := by
    rintro a a' (rfl | ⟨rfl, rfl⟩)
    · rfl
    · change (intChars (F64.asI128 _)).length = (intChars (F64.asI128 _)).length
      rw [asI128_f64Max.2, asI128_f32Max.2]
  have hB : ∀ a a' : F64, (a = a' ∨ a = .fin f32Max ∧ a' = .fin f64Max) →
      f32Fmt.digitCount a = f64Fmt.digitCount a' := by
    rintro a a' (rfl | ⟨rfl, rfl⟩)
    · rfl
    · change (intChars (F64.asI128 _)).length = (intChars (F64.asI128 _)).length
      rw [asI128_f64Max.1, asI128_f32Max.1]
  have hv : ∀ v ∈ values o m, IsF32 v := by
    intro v hv
    obtain ⟨c, r, h⟩ := mem_values.1 hv
    exact hm c r v h
  unfold extremes
  by_cases h0 : m.edgesTable.entries.length = 0
  · rw [if_pos h0, if_pos h0]
    refine ⟨hA _ _ (.inl ?_), hB _ _ (.inr ⟨rfl, rfl⟩)⟩
    change F32.rnd 0 = F64.lit 0
    rw [F32.zero_eq, F64.lit_zero]
  · rw [if_neg h0, if_neg h0]
    obtain ⟨h1, h2⟩ := foldExtremes_f32 (values o m) hv (.fin (-f32Max)) (.fin f32Max) (.fin (-f64Max)) (.fin f64Max)
      (.inr ⟨rfl, rfl⟩) (.inr ⟨rfl, rfl⟩)
    exact ⟨hA _ _ h1, hB _ _ h2⟩

/-- An `f32` matrix prints like the `f64` matrix with the same values. -/
theorem toString_f32 (P : Platform) (o₁ o₂ : HashOrder) {m : SqMatrix F64}
    (hm : ∀ c r v, m.at? c r = some v → IsF32 v) (d : Nat) :
    m.toStringWithPrecision P f32Fmt o₁ o₂ d = m.toStringWithPrecision P f64Fmt o₁ o₂ d := by
  obtain ⟨h1, h2⟩ := digits_f32 o₁ hm
  have hF : ∀ h l h' l' : F64, formatEntry P f32Fmt h l = formatEntry P f64Fmt h' l' := by
    intro h l h' l'
    funext e d v
    unfold formatEntry
    have hd : f32Fmt.hasDecimal = true := rfl
    have hd' : f64Fmt.hasDecimal = true := rfl
    rw [hd, hd']
    simp only [Bool.not_true, Bool.false_and, Bool.false_eq_true, if_false]
    have : f32Fmt.fmt = f64Fmt.fmt := rfl
    rw [this]
  have hW : ∀ h l h' l' : F64, writeEntry P f32Fmt h l = writeEntry P f64Fmt h' l' := by
    intro h l h' l'
    funext e d cr ce b cell
    unfold writeEntry
    rw [hF h l h' l']
  have hd : f32Fmt.hasDecimal = f64Fmt.hasDecimal := rfl
  unfold toStringWithPrecision
  simp only [h1, h2, hd, hW (extremes f32Fmt o₁ m).1 (extremes f32Fmt o₁ m).2 (extremes f64Fmt o₁ m).1
    (extremes f64Fmt o₁ m).2]

end SqMatrix
end Verif
