import Verif.Lemmas.F64
import Verif.Model.F32
import Verif.Spec.Ieee

/-! The rounding functions of the model are the rounding of IEEE-754. -/

namespace Verif.Spec.Format

open Verif.F64

variable {F : Format}

/-- Exponent of the unit in the last place. -/
def ulp (F : Format) (q : ℚ) : ℤ := max (Int.log 2 |q| - (F.p - 1)) F.emin

/-- Rounding before the overflow check. -/
def near (F : Format) (q : ℚ) : ℚ := (roundEven (q / 2 ^ F.ulp q) : ℚ) * 2 ^ F.ulp q

theorem roundEven_even {x : ℚ} (h : |(roundEven x : ℚ) - x| = 1 / 2) : roundEven x % 2 = 0 := by
  unfold roundEven at *
  simp only at *
  split at h
  · rename_i hd
    have := Int.floor_le x
    rw [abs_of_nonpos (by linarith)] at h
    linarith
  · rename_i hd
    split at h
    · rename_i hd2
      have := Int.lt_floor_add_one x
      push_cast at h
      rw [abs_of_pos (by linarith)] at h
      linarith
    · rw [if_neg (by assumption), if_neg (by assumption)]
      split <;> omega

theorem roundEven_unique {x : ℚ} {n : ℤ} (h : |(n : ℚ) - x| ≤ 1 / 2) (he : |(n : ℚ) - x| = 1 / 2 → n % 2 = 0) :
    roundEven x = n := by
  have h' := abs_roundEven_sub x
  have hab := abs_le.1 h
  have hab' := abs_le.1 h'
  have h1 : (roundEven x : ℚ) ≤ n + 1 := by linarith
  have h2 : (n : ℚ) ≤ roundEven x + 1 := by linarith
  have h1' : roundEven x ≤ n + 1 := by exact_mod_cast h1
  have h2' : n ≤ roundEven x + 1 := by exact_mod_cast h2
  rcases (show roundEven x = n ∨ roundEven x = n + 1 ∨ roundEven x = n - 1 by omega) with e | e | e
  · exact e
  · have e1 : (roundEven x : ℚ) = n + 1 := by exact_mod_cast e
    have hx : (n : ℚ) - x = -(1 / 2) := by linarith
    have hn := he (by rw [hx]; norm_num)
    have hr := roundEven_even (x := x) (by rw [e1, show (n : ℚ) + 1 - x = 1 / 2 by linarith]; norm_num)
    omega
  · have e1 : (roundEven x : ℚ) = n - 1 := by rw [e]; push_cast; ring
    have hx : (n : ℚ) - x = 1 / 2 := by linarith
    have hn := he (by rw [hx]; norm_num)
    have hr := roundEven_even (x := x) (by rw [e1, show (n : ℚ) - 1 - x = -(1 / 2) by linarith]; norm_num)
    omega

theorem roundEven_neg (x : ℚ) : roundEven (-x) = -roundEven x := by
  apply roundEven_unique
  · push_cast
    rw [show -(roundEven x : ℚ) - -x = -((roundEven x : ℚ) - x) by ring, abs_neg]
    exact abs_roundEven_sub x
  · push_cast
    rw [show -(roundEven x : ℚ) - -x = -((roundEven x : ℚ) - x) by ring, abs_neg]
    intro h
    have := roundEven_even h
    omega

theorem ulp_neg (q : ℚ) : F.ulp (-q) = F.ulp q := by unfold ulp; rw [abs_neg]

theorem near_neg (q : ℚ) : F.near (-q) = -F.near q := by
  unfold near
  rw [ulp_neg, neg_div, roundEven_neg]
  push_cast
  ring

theorem near_zero : F.near 0 = 0 := by
  unfold near
  rw [zero_div, show roundEven 0 = 0 by exact_mod_cast roundEven_int 0]
  simp

theorem Has.neg {q : ℚ} (h : F.Has q) : F.Has (-q) := by
  obtain ⟨s, e, h1, h2, h3, h4⟩ := h
  exact ⟨-s, e, by rw [h1]; push_cast; ring, by rwa [abs_neg], h3, by rwa [abs_neg]⟩

theorem EvenSig.neg {q : ℚ} (h : F.EvenSig q) : F.EvenSig (-q) := by
  obtain ⟨s, e, h1, h2, h3, h4⟩ := h
  exact ⟨-s, e, by rw [h1]; push_cast; ring, by rwa [abs_neg], h3, by omega⟩

/-- The formats that are used. -/
structure Good (F : Format) : Prop where
  p : 2 ≤ F.p
  range : F.emin + F.p ≤ F.emax

theorem emin_le_ulp (q : ℚ) : F.emin ≤ F.ulp q := le_max_right _ _

theorem ulp_normal {q : ℚ} (h : 0 < q) (hn : F.emin < F.ulp q) :
    F.ulp q = Int.log 2 q - (F.p - 1) ∧ (2 : ℚ) ^ (F.ulp q + F.p - 1) ≤ q := by
  have he : F.ulp q = Int.log 2 q - (F.p - 1) := by
    unfold ulp at *
    rw [abs_of_pos h] at *
    omega
  refine ⟨he, ?_⟩
  have := Int.zpow_log_le_self (b := 2) (by norm_num) h
  push_cast at this
  rwa [he, show Int.log 2 q - ((F.p : ℤ) - 1) + F.p - 1 = Int.log 2 q by ring]

theorem lt_ulp {q : ℚ} (h : 0 < q) : q < 2 ^ (F.ulp q + F.p) := by
  have h1 := Int.lt_zpow_succ_log_self (b := 2) (by norm_num) q
  refine lt_of_lt_of_le h1 ?_
  push_cast
  apply zpow_le_zpow_right₀ (by norm_num)
  have : Int.log 2 |q| - (F.p - 1) ≤ F.ulp q := le_max_left _ _
  rw [abs_of_pos h] at this
  omega

/-- `2^(e+p-1)` is a multiple of `2^e`. -/
theorem pow_split (hF : F.Good) (e : ℤ) : (2 : ℚ) ^ (e + F.p - 1) = ((2 ^ (F.p - 1) : ℤ) : ℚ) * 2 ^ e := by
  have : ((F.p - 1 : ℕ) : ℤ) = (F.p : ℤ) - 1 := by have := hF.p; omega
  rw [show e + (F.p : ℤ) - 1 = ((F.p - 1 : ℕ) : ℤ) + e by omega, zpow_add₀ (by norm_num), zpow_natCast]
  push_cast
  ring

theorem pow_split' (e : ℤ) : (2 : ℚ) ^ (e + F.p) = ((2 ^ F.p : ℤ) : ℚ) * 2 ^ e := by
  rw [zpow_add₀ (by norm_num), zpow_natCast]
  push_cast
  ring

/-- Numbers of the format that are at least `2^(e+p-1)` are multiples of `2^e`; so are those whose exponent is at
least `e`. -/
theorem multiple {s e e' : ℤ} (he : e ≤ e') : ∃ k : ℤ, (s : ℚ) * 2 ^ e' = k * 2 ^ e := by
  obtain ⟨n, hn⟩ := Int.eq_ofNat_of_zero_le (show 0 ≤ e' - e by omega)
  refine ⟨s * 2 ^ n, ?_⟩
  rw [show e' = (n : ℤ) + e by omega, zpow_add₀ (by norm_num), zpow_natCast]
  push_cast
  ring

theorem small {s e e' : ℤ} (hs : |s| < 2 ^ F.p) (he : e' < e) : (s : ℚ) * 2 ^ e' < 2 ^ (e + F.p - 1) := by
  have h1 : (s : ℚ) < 2 ^ F.p := by
    have := (abs_lt.1 hs).2
    exact_mod_cast this
  calc (s : ℚ) * 2 ^ e' < 2 ^ F.p * 2 ^ e' := mul_lt_mul_of_pos_right h1 (two_pos_zpow _)
    _ = 2 ^ (e' + F.p) := by rw [pow_split']; push_cast; ring
    _ ≤ 2 ^ (e + F.p - 1) := zpow_le_zpow_right₀ (by norm_num) (by omega)

/-- The floor of `q` in units of the last place. -/
theorem floor_bounds {q : ℚ} : (⌊q / 2 ^ F.ulp q⌋ : ℚ) * 2 ^ F.ulp q ≤ q ∧ q < (⌊q / 2 ^ F.ulp q⌋ + 1 : ℚ) * 2 ^ F.ulp q := by
  have hu := two_pos_zpow (F.ulp q)
  constructor
  · rw [← le_div_iff₀ hu]; exact Int.floor_le _
  · rw [← div_lt_iff₀ hu]; exact Int.lt_floor_add_one _

theorem bottom_le_floor (hF : F.Good) {q : ℚ} (h : 0 < q) (hn : F.emin < F.ulp q) :
    (2 : ℚ) ^ (F.ulp q + F.p - 1) ≤ (⌊q / 2 ^ F.ulp q⌋ : ℚ) * 2 ^ F.ulp q := by
  have hq := (ulp_normal h hn).2
  rw [pow_split hF] at hq ⊢
  apply mul_le_mul_of_nonneg_right _ (two_pos_zpow _).le
  rw [← le_div_iff₀ (two_pos_zpow _)] at hq
  exact_mod_cast Int.le_floor.2 hq

theorem floor_nonneg {q : ℚ} (h : 0 < q) : 0 ≤ ⌊q / 2 ^ F.ulp q⌋ :=
  Int.floor_nonneg.2 (div_nonneg h.le (two_pos_zpow _).le)

/-- No number of the format lies strictly between two neighbouring multiples of the unit. -/
theorem gap (hF : F.Good) {q z : ℚ} (h : 0 < q) (hz : F.Has z) :
    z ≤ (⌊q / 2 ^ F.ulp q⌋ : ℚ) * 2 ^ F.ulp q ∨ (⌊q / 2 ^ F.ulp q⌋ + 1 : ℚ) * 2 ^ F.ulp q ≤ z := by
  obtain ⟨s, e, rfl, hs, he, _⟩ := hz
  have hu := two_pos_zpow (F.ulp q)
  rcases le_or_gt (F.ulp q) e with hle | hlt
  · obtain ⟨k, hk⟩ := multiple (s := s) hle
    rw [hk]
    rcases le_or_gt k ⌊q / 2 ^ F.ulp q⌋ with h1 | h1
    · left; exact mul_le_mul_of_nonneg_right (by exact_mod_cast h1) hu.le
    · right; exact mul_le_mul_of_nonneg_right (by exact_mod_cast h1) hu.le
  · left
    exact (small hs hlt).le.trans (bottom_le_floor hF h (by omega))

theorem floor_le_top {q : ℚ} (h : 0 < q) : ⌊q / 2 ^ F.ulp q⌋ + 1 ≤ 2 ^ F.p := by
  have h1 := lt_ulp (F := F) h
  rw [pow_split', ← div_lt_iff₀ (two_pos_zpow _)] at h1
  have := Int.floor_lt.2 h1
  omega

/-- Multiples of the unit up to `2^p` units are in the format, unless they overflow. -/
theorem has_multiple (hF : F.Good) {k e : ℤ} (h0 : 0 ≤ k) (hk : k ≤ 2 ^ F.p) (he : F.emin ≤ e)
    (ho : (k : ℚ) * 2 ^ e < 2 ^ F.emax) : F.Has (k * 2 ^ e) := by
  have habs : |(k : ℚ) * 2 ^ e| < 2 ^ F.emax := by
    rw [abs_of_nonneg (mul_nonneg (by exact_mod_cast h0) (two_pos_zpow _).le)]; exact ho
  rcases lt_or_eq_of_le hk with hk | hk
  · exact ⟨k, e, rfl, by rwa [abs_of_nonneg h0], he, habs⟩
  · refine ⟨1, e + F.p, ?_, ?_, by omega, habs⟩
    · rw [pow_split', hk]; push_cast; ring
    · rw [abs_one]
      exact one_lt_pow₀ (by norm_num) (by have := hF.p; omega)

theorem even_of_multiple (hF : F.Good) {q : ℚ} (h : 0 < q) {k : ℤ} (hk : ⌊q / 2 ^ F.ulp q⌋ ≤ k)
    (hs : F.EvenSig (k * 2 ^ F.ulp q)) : k % 2 = 0 := by
  obtain ⟨s, e, h1, h2, h3, h4⟩ := hs
  rcases le_or_gt (F.ulp q) e with hle | hlt
  · obtain ⟨n, hn⟩ := Int.eq_ofNat_of_zero_le (show 0 ≤ e - F.ulp q by omega)
    rw [show e = (n : ℤ) + F.ulp q by omega, zpow_add₀ (by norm_num), zpow_natCast, ← mul_assoc] at h1
    have h5 := mul_right_cancel₀ (two_pos_zpow _).ne' h1
    have h6 : k = s * 2 ^ n := by exact_mod_cast h5
    rw [h6, Int.mul_emod, h4]
    simp
  · have h5 := small (F := F) h2 hlt
    rw [← h1] at h5
    have h6 := bottom_le_floor hF h (by omega)
    have h7 : (⌊q / 2 ^ F.ulp q⌋ : ℚ) * 2 ^ F.ulp q ≤ k * 2 ^ F.ulp q :=
      mul_le_mul_of_nonneg_right (by exact_mod_cast hk) (two_pos_zpow _).le
    linarith

theorem even_sig_multiple (hF : F.Good) {k e : ℤ} (h0 : 0 ≤ k) (hk : k ≤ 2 ^ F.p) (he : F.emin ≤ e) (h2 : k % 2 = 0) :
    F.EvenSig (k * 2 ^ e) := by
  have hp := hF.p
  rcases lt_or_eq_of_le hk with hk | hk
  · exact ⟨k, e, rfl, by rwa [abs_of_nonneg h0], he, h2⟩
  · refine ⟨2, e + F.p - 1, ?_, ?_, by omega, by norm_num⟩
    · rw [pow_split hF, hk]
      obtain ⟨n, hn⟩ : ∃ n, F.p = n + 1 := ⟨F.p - 1, by omega⟩
      rw [hn]
      simp only [Nat.add_sub_cancel]
      push_cast
      ring
    · calc |(2 : ℤ)| = 2 ^ 1 := by norm_num
        _ < 2 ^ F.p := pow_lt_pow_right₀ (by norm_num) (by omega)

theorem near_abs {q : ℚ} : |F.near q - q| ≤ 2 ^ F.ulp q / 2 := by
  have hu := two_pos_zpow (F.ulp q)
  have h := abs_roundEven_sub (q / 2 ^ F.ulp q)
  have : F.near q - q = (roundEven (q / 2 ^ F.ulp q) - q / 2 ^ F.ulp q) * 2 ^ F.ulp q := by
    unfold near; field_simp
  rw [this, abs_mul, abs_of_pos hu]
  nlinarith

/-- The rounded number is one of the two neighbouring multiples of the unit, the closer one, and the even one if both
are equally close. -/
theorem near_cases {q : ℚ} : ∃ n : ℤ, F.near q = n * 2 ^ F.ulp q ∧
    (n = ⌊q / 2 ^ F.ulp q⌋ ∨ n = ⌊q / 2 ^ F.ulp q⌋ + 1) ∧
    (|(n : ℚ) * 2 ^ F.ulp q - q| = 2 ^ F.ulp q / 2 → n % 2 = 0) := by
  have hu := two_pos_zpow (F.ulp q)
  refine ⟨roundEven (q / 2 ^ F.ulp q), rfl, (roundEven_cases _).imp And.left And.left, fun h => roundEven_even ?_⟩
  have : (roundEven (q / 2 ^ F.ulp q) : ℚ) * 2 ^ F.ulp q - q =
      (roundEven (q / 2 ^ F.ulp q) - q / 2 ^ F.ulp q) * 2 ^ F.ulp q := by field_simp
  rw [this, abs_mul, abs_of_pos hu] at h
  have h2 : (|(roundEven (q / 2 ^ F.ulp q) : ℚ) - q / 2 ^ F.ulp q|) * 2 ^ F.ulp q = 1 / 2 * 2 ^ F.ulp q := by
    rw [h]; ring
  exact mul_right_cancel₀ hu.ne' h2

theorem near_lt_iff (hF : F.Good) {q : ℚ} (h : 0 < q) : F.near q < 2 ^ F.emax ↔ q < F.overflow := by
  have hu := two_pos_zpow (F.ulp q)
  have hp := hF.p
  have hr := hF.range
  obtain ⟨n, hn, hc, he⟩ := near_cases (F := F) (q := q)
  have hab := abs_le.1 (near_abs (F := F) (q := q))
  have hfb := floor_bounds (F := F) (q := q)
  rcases le_or_gt ((2 : ℚ) ^ F.emax) q with hq | hq
  · have h1 : F.emax ≤ Int.log 2 q := by
      rw [← Int.zpow_le_iff_le_log (by norm_num) h]; push_cast; exact hq
    have h2 : F.emax - F.p + 1 ≤ F.ulp q := by
      have : Int.log 2 |q| - (F.p - 1) ≤ F.ulp q := le_max_left _ _
      rw [abs_of_pos h] at this
      omega
    have h3 := bottom_le_floor hF h (by omega)
    have h4 : (2 : ℚ) ^ F.emax ≤ 2 ^ (F.ulp q + F.p - 1) := zpow_le_zpow_right₀ (by norm_num) (by omega)
    have h5 : (⌊q / 2 ^ F.ulp q⌋ : ℚ) * 2 ^ F.ulp q ≤ F.near q := by
      rw [hn]
      apply mul_le_mul_of_nonneg_right _ hu.le
      exact_mod_cast (show ⌊q / 2 ^ F.ulp q⌋ ≤ n by omega)
    have h6 : F.overflow < 2 ^ F.emax := by
      unfold overflow
      linarith [two_pos_zpow (F.emax - F.p - 1)]
    constructor <;> intro <;> linarith
  · have h1 : Int.log 2 q < F.emax := by
      rw [← Int.lt_zpow_iff_log_lt (by norm_num) h]; push_cast; exact hq
    have h2 : F.ulp q ≤ F.emax - F.p := by
      unfold ulp
      rw [abs_of_pos h]
      omega
    rcases lt_or_eq_of_le h2 with h2 | h2
    · have h3 : F.near q ≤ 2 ^ (F.ulp q + F.p) := by
        rw [hn, pow_split']
        apply mul_le_mul_of_nonneg_right _ hu.le
        have := floor_le_top (F := F) h
        exact_mod_cast (show n ≤ 2 ^ F.p by omega)
      have h4 : (2 : ℚ) ^ (F.ulp q + F.p) ≤ 2 ^ (F.emax - 1) := zpow_le_zpow_right₀ (by norm_num) (by omega)
      have h5 : (2 : ℚ) ^ F.emax = 2 * 2 ^ (F.emax - 1) := by
        rw [show F.emax = 1 + (F.emax - 1) by omega, zpow_add₀ (by norm_num)]
        norm_num
      have h6 : (2 : ℚ) ^ (F.emax - F.p - 1) ≤ 2 ^ (F.emax - 1) := zpow_le_zpow_right₀ (by norm_num) (by omega)
      have h7 := two_pos_zpow (F.emax - 1)
      have h8 := lt_ulp (F := F) h
      unfold overflow
      constructor <;> intro <;> linarith
    · have h3 : (2 : ℚ) ^ F.emax = ((2 ^ F.p : ℤ) : ℚ) * 2 ^ F.ulp q := by
        rw [← pow_split', h2]; congr 1; omega
      have h4 : (2 : ℚ) ^ (F.emax - F.p - 1) = 2 ^ F.ulp q / 2 := by
        rw [h2, zpow_sub_one₀ (by norm_num)]; ring
      have ht := floor_le_top (F := F) h
      unfold overflow
      rw [h4]
      constructor
      · intro hlt
        by_contra hge
        rw [not_lt] at hge
        rw [hn, h3] at hlt
        have h5 : n < 2 ^ F.p := by
          have := lt_of_mul_lt_mul_right hlt hu.le
          exact_mod_cast this
        have h6 : (n : ℚ) * 2 ^ F.ulp q ≤ (((2 ^ F.p : ℤ) : ℚ) - 1) * 2 ^ F.ulp q := by
          apply mul_le_mul_of_nonneg_right _ hu.le
          exact_mod_cast (show n ≤ 2 ^ F.p - 1 by omega)
        rw [hn] at hab
        rw [h3] at hge
        have h7 : (n : ℚ) * 2 ^ F.ulp q - q = -(2 ^ F.ulp q / 2) := by linarith
        have h8 := he (by rw [h7, abs_neg, abs_of_pos (by linarith)])
        have h9 : (n : ℚ) * 2 ^ F.ulp q = (((2 ^ F.p : ℤ) : ℚ) - 1) * 2 ^ F.ulp q := by linarith
        have h10 := mul_right_cancel₀ hu.ne' h9
        have h11 : n = 2 ^ F.p - 1 := by exact_mod_cast h10
        obtain ⟨m, hm⟩ : ∃ m, F.p = m + 1 := ⟨F.p - 1, by omega⟩
        rw [hm, pow_succ] at h11
        omega
      · intro hlt
        linarith

/-- The statement of `RoundsTo` about finite results, without the overflow. -/
def Closest (F : Format) (q y : ℚ) : Prop :=
  F.Has y ∧ (∀ z, F.Has z → |y - q| ≤ |z - q|) ∧ ∀ z, F.Has z → z ≠ y → |z - q| = |y - q| → F.EvenSig y

theorem Closest.neg {q y : ℚ} (h : F.Closest q y) : F.Closest (-q) (-y) := by
  have key (a b : ℚ) : |-a - -b| = |a - b| := by rw [show -a - -b = -(a - b) by ring, abs_neg]
  refine ⟨h.1.neg, fun z hz => ?_, fun z hz hne ht => ?_⟩
  · have := h.2.1 _ hz.neg
    rw [key, ← key (-z), neg_neg] at *
    simpa using this
  · refine EvenSig.neg (h.2.2 _ hz.neg (fun h => hne (by rw [← h, neg_neg])) ?_)
    rw [key] at ht
    rw [← ht, ← key (-z), neg_neg]

theorem overflow_pos : 0 < F.overflow := by
  have h : (2 : ℚ) ^ (F.emax - F.p - 1) < 2 ^ F.emax := zpow_lt_zpow_right₀ (by norm_num) (by omega)
  unfold overflow
  linarith

theorem closest_near_pos (hF : F.Good) {q : ℚ} (h : 0 < q) (ho : q < F.overflow) : F.Closest q (F.near q) := by
  have hu := two_pos_zpow (F.ulp q)
  obtain ⟨n, hn, hc, he⟩ := near_cases (F := F) (q := q)
  have hab := near_abs (F := F) (q := q)
  have hfb := floor_bounds (F := F) (q := q)
  have ht := floor_le_top (F := F) h
  have h0 := floor_nonneg (F := F) h
  have hlt := (near_lt_iff hF h).2 ho
  rw [hn] at hab hlt ⊢
  have hev : n % 2 = 0 → F.EvenSig (n * 2 ^ F.ulp q) :=
    even_sig_multiple hF (by omega) (by omega) (emin_le_ulp q)
  refine ⟨has_multiple hF (by omega) (by omega) (emin_le_ulp q) hlt, fun z hz => ?_, fun z hz hne hz2 => hev (he ?_)⟩
  · have hg := gap hF h hz
    generalize (2 : ℚ) ^ F.ulp q = u at *
    rcases hc with rfl | rfl <;> push_cast at hab ⊢ <;> rw [abs_le] at hab <;> rcases hg with hg | hg
    · rw [abs_of_nonpos (by linarith), abs_of_nonpos (by linarith)]; linarith
    · rw [abs_of_nonpos (by linarith), abs_of_nonneg (by linarith)]; linarith
    · rw [abs_of_nonneg (by linarith), abs_of_nonpos (by linarith)]; linarith
    · rw [abs_of_nonneg (by linarith), abs_of_nonneg (by linarith)]; linarith
  · have hg := gap hF h hz
    generalize (2 : ℚ) ^ F.ulp q = u at *
    rcases hc with rfl | rfl <;> push_cast at hab hne hz2 ⊢ <;> rw [abs_le] at hab <;> rcases hg with hg | hg
    · rw [abs_of_nonpos (by linarith), abs_of_nonpos (by linarith)] at hz2
      exact absurd (by linarith) hne
    · rw [abs_of_nonneg (by linarith), abs_of_nonpos (by linarith)] at hz2
      rw [abs_of_nonpos (by linarith)]; linarith
    · rw [abs_of_nonpos (by linarith), abs_of_nonneg (by linarith)] at hz2
      rw [abs_of_nonneg (by linarith)]; linarith
    · rw [abs_of_nonneg (by linarith), abs_of_nonneg (by linarith)] at hz2
      exact absurd (by linarith) hne

theorem closest_unique_pos (hF : F.Good) {q y : ℚ} (h : 0 < q) (ho : q < F.overflow) (hy : F.Closest q y) :
    y = F.near q := by
  by_contra hne
  have hc := closest_near_pos hF h ho
  have heq := le_antisymm (hy.2.1 _ hc.1) (hc.2.1 _ hy.1)
  have e1 := hy.2.2 _ hc.1 (Ne.symm hne) heq.symm
  have e2 := hc.2.2 _ hy.1 hne heq
  have hu := two_pos_zpow (F.ulp q)
  obtain ⟨n, hn, hcs, -⟩ := near_cases (F := F) (q := q)
  have hab := near_abs (F := F) (q := q)
  have hfb := floor_bounds (F := F) (q := q)
  have hg := gap hF h hy.1
  have d1 (k : ℤ) := even_of_multiple hF (q := q) (k := k) h
  rw [hn] at hne heq e2 hab
  have hev : n % 2 = 0 := d1 n (by omega) e2
  suffices hy2 : ∃ k : ℤ, y = k * 2 ^ F.ulp q ∧ ⌊q / 2 ^ F.ulp q⌋ ≤ k ∧ k % 2 ≠ n % 2 by
    obtain ⟨k, hk, hle, hpar⟩ := hy2
    rw [hk] at e1
    have := d1 k hle e1
    omega
  generalize (2 : ℚ) ^ F.ulp q = u at *
  rcases hcs with rfl | rfl <;> push_cast at hab hne heq <;> rw [abs_le] at hab <;> rcases hg with hg | hg
  · rw [abs_of_nonpos (by linarith), abs_of_nonpos (by linarith)] at heq
    exact absurd (by linarith) hne
  · rw [abs_of_nonneg (by linarith), abs_of_nonpos (by linarith)] at heq
    refine ⟨⌊q / u⌋ + 1, ?_, by omega, by omega⟩
    push_cast
    linarith
  · rw [abs_of_nonpos (by linarith), abs_of_nonneg (by linarith)] at heq
    exact ⟨_, by linarith, le_refl _, by omega⟩
  · rw [abs_of_nonneg (by linarith), abs_of_nonneg (by linarith)] at heq
    exact absurd (by linarith) hne

theorem has_zero : F.Has 0 :=
  ⟨0, F.emin, by simp, by simp, le_refl _, by simpa using two_pos_zpow F.emax⟩

theorem closest_iff (hF : F.Good) {q y : ℚ} (ho : |q| < F.overflow) : F.Closest q y ↔ y = F.near q := by
  rcases lt_trichotomy q 0 with h | rfl | h
  · have h' : 0 < -q := by linarith
    have ho' : -q < F.overflow := by rwa [abs_of_neg h] at ho
    constructor
    · intro hy
      have := closest_unique_pos hF h' ho' hy.neg
      rw [near_neg] at this
      linarith
    · rintro rfl
      have := (closest_near_pos hF h' ho').neg
      rwa [near_neg, neg_neg, neg_neg] at this
  · rw [near_zero]
    constructor
    · intro hy
      have := hy.2.1 0 (has_zero)
      simpa using this
    · rintro rfl
      refine ⟨has_zero, fun z _ => by simp, fun z _ hne h => ?_⟩
      simp at h
      exact absurd h hne
  · rw [abs_of_pos h] at ho
    exact ⟨closest_unique_pos hF h ho, fun e => e ▸ closest_near_pos hF h ho⟩

theorem near_abs_lt_iff (hF : F.Good) (q : ℚ) : |F.near q| < 2 ^ F.emax ↔ |q| < F.overflow := by
  have pos {q : ℚ} (h : 0 < q) : |F.near q| < 2 ^ F.emax ↔ |q| < F.overflow := by
    have : 0 ≤ F.near q := by
      obtain ⟨n, hn, hc, -⟩ := near_cases (F := F) (q := q)
      have := floor_nonneg (F := F) h
      rw [hn]
      exact mul_nonneg (by exact_mod_cast (show 0 ≤ n by omega)) (two_pos_zpow _).le
    rw [abs_of_nonneg this, abs_of_pos h]
    exact near_lt_iff hF h
  rcases lt_trichotomy q 0 with h | rfl | h
  · have := pos (q := -q) (by linarith)
    rwa [near_neg, abs_neg, abs_neg] at this
  · rw [near_zero, abs_zero]
    exact ⟨fun _ => overflow_pos, fun _ => two_pos_zpow _⟩
  · exact pos h

/-- The rounding of the specification is a function, and this is the function. -/
theorem roundsTo_iff (hF : F.Good) (q : ℚ) (x : F64) :
    F.RoundsTo q x ↔ x = if |F.near q| < 2 ^ F.emax then .fin (F.near q) else .inf (decide (q < 0)) := by
  by_cases ho : |q| < F.overflow
  · rw [if_pos ((near_abs_lt_iff hF q).2 ho)]
    cases x with
    | nan => exact ⟨False.elim, fun h => by cases h⟩
    | inf s => exact ⟨fun h => absurd h.1 (not_le.2 ho), fun h => by cases h⟩
    | fin y => exact ⟨fun h => by rw [(closest_iff hF ho).1 h.2], fun h => by
        injection h with h
        exact ⟨ho, (closest_iff hF ho).2 h⟩⟩
  · rw [if_neg (fun h => ho ((near_abs_lt_iff hF q).1 h))]
    cases x with
    | nan => exact ⟨False.elim, fun h => by cases h⟩
    | fin y => exact ⟨fun h => absurd h.1 ho, fun h => by cases h⟩
    | inf s =>
      constructor
      · intro h
        congr 1
        by_cases hq : q < 0
        · rw [h.2.2 hq]; simp [hq]
        · rw [Bool.eq_false_iff.2 (fun e => hq (h.2.1 e))]; simp [hq]
      · intro h
        injection h with h
        exact ⟨not_lt.1 ho, by rw [h]; simp⟩

theorem good64 : binary64.Good := ⟨by decide, by decide⟩

theorem good32 : binary32.Good := ⟨by decide, by decide⟩

end Verif.Spec.Format

namespace Verif

open Spec

theorem F64.near_eq (q : ℚ) : binary64.near q = F64.rndQ q := by
  have : binary64.ulp q = F64.ulpExp q := by
    unfold Format.ulp F64.ulpExp binary64
    norm_num
  unfold Format.near F64.rndQ
  rw [this]

theorem F32.near_eq (q : ℚ) : binary32.near q = F32.rndQ q := by
  have : binary32.ulp q = F32.ulpExp q := by
    unfold Format.ulp F32.ulpExp binary32
    norm_num
  unfold Format.near F32.rndQ
  rw [this]

theorem F64.roundsTo (q : ℚ) (x : F64) : binary64.RoundsTo q x ↔ x = F64.rnd q := by
  rw [Format.roundsTo_iff Format.good64, F64.near_eq]
  unfold F64.rnd
  rw [show (2 : ℚ) ^ binary64.emax = 2 ^ 1024 from zpow_natCast 2 1024]

theorem F32.roundsTo (q : ℚ) (x : F64) : binary32.RoundsTo q x ↔ x = F32.rnd q := by
  rw [Format.roundsTo_iff Format.good32, F32.near_eq]
  unfold F32.rnd
  rw [show (2 : ℚ) ^ binary32.emax = 2 ^ 128 from zpow_natCast 2 128]

end Verif
