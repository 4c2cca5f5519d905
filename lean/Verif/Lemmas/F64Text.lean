import Mathlib.Tactic.Linarith
import Mathlib.Tactic.Positivity
import Verif.Lemmas.F64
import Verif.Lemmas.IntText
import Verif.Model.F64Fmt

/-! Text of `f64` entries. -/

namespace Verif
open Spec

theorem F64.lt_fin (a b : ℚ) : F64.lt (.fin a) (.fin b) = decide (a < b) := by
  unfold F64.lt F64.le
  by_cases h : a < b
  · simp [h, h.le]
  · simp [h]
    intro h'
    exact not_lt.1 h

theorem frac_length (d k : Nat) (hd : 1 ≤ d) : (Nat.toDigits 10 (k % 10 ^ d)).length ≤ d :=
  (Nat.length_toDigits_le_iff (by norm_num) hd).2 (Nat.mod_lt _ (by positivity))

theorem roundEven_even {x : ℚ} (h : |(F64.roundEven x : ℚ) - x| = 1 / 2) : F64.roundEven x % 2 = 0 := by
  have h0 := Int.floor_le x
  have h1 := Int.lt_floor_add_one x
  unfold F64.roundEven at h ⊢
  simp only at h ⊢
  split at h
  · next hd =>
    rw [abs_sub_comm, abs_of_nonneg (by linarith)] at h
    linarith
  · split at h
    · next hd =>
      push_cast at h
      rw [abs_of_nonneg (by linarith)] at h
      linarith
    · next hd1 hd2 =>
      rw [if_neg hd1, if_neg hd2]
      split
      · assumption
      · next he => omega

theorem fixedChars_eq (d k : Nat) (hd : 1 ≤ d) : fixedChars d k = Nat.toDigits 10 (k / 10 ^ d) ++
    '.' :: (List.replicate (d - (Nat.toDigits 10 (k % 10 ^ d)).length) '0' ++ Nat.toDigits 10 (k % 10 ^ d)) := by
  unfold fixedChars
  rw [if_neg (by omega)]
  simp only [decChars_eq]

theorem isDecimal_f64Chars (d : Nat) (hd : 1 ≤ d) (q : ℚ) : IsDecimal d q (f64Chars (.fin q) d) := by
  have hnn : 0 ≤ F64.roundEven (|q| * 10 ^ d) := F64.int_le_roundEven (by push_cast; positivity)
  obtain ⟨k, hk⟩ := Int.eq_ofNat_of_zero_le hnn
  have hkq : (F64.roundEven (|q| * 10 ^ d) : ℚ) = (k : ℚ) := by rw [hk]; rfl
  refine ⟨k, ?_, ?_, List.replicate (d - (Nat.toDigits 10 (k % 10 ^ d)).length) '0' ++ Nat.toDigits 10 (k % 10 ^ d),
    ?_, ⟨_, rfl⟩, ?_⟩
  · rw [← hkq]; exact F64.abs_roundEven_sub _
  · intro h
    rw [← hkq] at h
    have := roundEven_even h
    omega
  · have := frac_length d k hd
    simp; omega
  · unfold f64Chars
    simp only
    rw [hk, Int.toNat_natCast, fixedChars_eq d k hd, List.append_assoc]

theorem f64Chars_length (d : Nat) (hd : 1 ≤ d) (q : ℚ) : (f64Chars (.fin q) d).length =
    (if q < 0 then 1 else 0) + (Nat.toDigits 10 ((F64.roundEven (|q| * 10 ^ d)).toNat / 10 ^ d)).length + (1 + d) := by
  unfold f64Chars
  simp only
  have := frac_length d (F64.roundEven (|q| * 10 ^ d)).toNat hd
  rw [fixedChars_eq _ _ hd]
  simp only [List.length_append, List.length_cons, List.length_replicate]
  split <;> simp <;> omega

theorem f64Chars_zero (d : Nat) (hd : 1 ≤ d) : f64Chars (.fin 0) d = '0' :: '.' :: List.replicate d '0' := by
  unfold f64Chars
  have h : F64.roundEven (|(0 : ℚ)| * 10 ^ d) = 0 := by
    rw [abs_zero, zero_mul]; exact_mod_cast F64.roundEven_int 0
  simp only [lt_irrefl, if_false, List.nil_append]
  rw [h, Int.toNat_zero, fixedChars_eq _ _ hd]
  simp only [Nat.zero_div, Nat.zero_mod, Nat.toDigits_zero, List.length_cons, List.length_nil, List.cons_append,
    List.nil_append]
  congr 2
  obtain ⟨e, rfl⟩ : ∃ e, d = e + 1 := ⟨d - 1, by omega⟩
  rw [List.replicate_succ']
  rfl

/-- The largest `f64`. -/
def f64Max : ℚ := (2 ^ 53 - 1) * 2 ^ 971

namespace SqMatrix

theorem foldExtremes_fin (l : List ℚ) : ∀ a b : ℚ,
    (l.map F64.fin).foldl (fun hl v => (if f64Fmt.gt v hl.1 then v else hl.1, if f64Fmt.lt v hl.2 then v else hl.2))
      (F64.fin a, F64.fin b) =
    ((F64.fin (l.foldl (fun hl v => ((if decide (v > hl.1) then v else hl.1 : ℚ),
        (if decide (v < hl.2) then v else hl.2 : ℚ))) (a, b)).1),
      (F64.fin (l.foldl (fun hl v => ((if decide (v > hl.1) then v else hl.1 : ℚ),
        (if decide (v < hl.2) then v else hl.2 : ℚ))) (a, b)).2)) := by
  induction l with
  | nil => intro a b; rfl
  | cons x l ih =>
    intro a b
    simp only [List.map_cons, List.foldl_cons]
    rw [← ih]
    congr 1
    change (if F64.lt (.fin a) (.fin x) then _ else _, if F64.lt (.fin x) (.fin b) then _ else _) = _
    rw [F64.lt_fin, F64.lt_fin]
    apply Prod.ext
    · simp only [gt_iff_lt]; split <;> rfl
    · simp only; split <;> rfl

/-- Highest and lowest of a matrix of finite doubles. -/
theorem extremes_fin {m : SqMatrix F64} (hb : ∀ c r v, m.at? c r = some v → ∃ q, v = .fin q ∧ |q| ≤ f64Max)
    (o : HashOrder) :
    ((∃ c r v, m.at? c r = some v) → ∃ hi lo, extremes f64Fmt o m = (.fin hi, .fin lo) ∧
      (∃ c r, m.at? c r = some (.fin hi)) ∧ (∃ c r, m.at? c r = some (.fin lo)) ∧
      ∀ c r q, m.at? c r = some (.fin q) → lo ≤ q ∧ q ≤ hi) ∧
    ((∀ c r, m.at? c r = none) →
      extremes f64Fmt o m = (if m.edgesTable.entries.length = 0 then .fin 0 else .fin (-f64Max), .fin f64Max)) := by
  have hvals : ∃ l : List ℚ, values o m = l.map F64.fin := by
    have : ∀ vs : List F64, (∀ v ∈ vs, ∃ q, v = F64.fin q) → ∃ l : List ℚ, vs = l.map F64.fin := by
      intro vs
      induction vs with
      | nil => intro _; exact ⟨[], rfl⟩
      | cons v vs ih =>
        intro h
        obtain ⟨q, hq⟩ := h v (by simp)
        obtain ⟨l, hl⟩ := ih (fun v hv => h v (by simp [hv]))
        exact ⟨q :: l, by rw [hq, hl]; rfl⟩
    apply this
    intro v hv
    obtain ⟨c, r, h⟩ := mem_values.1 hv
    obtain ⟨q, hq, _⟩ := hb c r v h
    exact ⟨q, hq⟩
  obtain ⟨l, hl⟩ := hvals
  have hmem : ∀ q, q ∈ l ↔ ∃ c r, m.at? c r = some (.fin q) := by
    intro q
    rw [← mem_values (o := o), hl, List.mem_map]
    constructor
    · intro h; exact ⟨q, h, rfl⟩
    · rintro ⟨q', h, he⟩; cases he; exact h
  unfold extremes
  by_cases h0 : m.edgesTable.entries.length = 0
  · have hnone : ∀ c r, m.at? c r = none := by
      intro c r
      have : m.edgesTable.entries = [] := List.length_eq_zero_iff.1 h0
      simp [at?, get2, HMap.get?, this, HMap.lookup]
    simp only [h0, if_true]
    refine ⟨?_, fun _ => ?_⟩
    · rintro ⟨c, r, v, h⟩; rw [hnone] at h; cases h
    · change (F64.lit 0, _) = _
      rw [F64.lit_zero]; rfl
  · simp only [h0, if_false]
    rw [hl]
    change (_ → ∃ hi lo, List.foldl _ (F64.fin (-f64Max), F64.fin f64Max) _ = _ ∧ _) ∧
      (_ → List.foldl _ (F64.fin (-f64Max), F64.fin f64Max) _ = _)
    rw [foldExtremes_fin]
    obtain ⟨h1, h2, h3, h4, h5, h6⟩ := foldExtremes l (-f64Max) f64Max
    generalize hE : List.foldl _ _ _ = hl' at h1 h2 h3 h4 h5 h6
    refine ⟨?_, ?_⟩
    · rintro ⟨c, r, v, h⟩
      obtain ⟨q, rfl, hq⟩ := hb c r v h
      have hql := (hmem q).2 ⟨c, r, h⟩
      have hq1 := h2 q hql
      have hq2 := h5 q hql
      refine ⟨hl'.1, hl'.2, rfl, ?_, ?_, fun c r q h => ⟨h5 q ((hmem q).2 ⟨c, r, h⟩), h2 q ((hmem q).2 ⟨c, r, h⟩)⟩⟩
      · rcases h3 with h3 | h3
        · have : q = hl'.1 := le_antisymm hq1 (by rw [h3]; exact (abs_le.1 hq).1)
          exact ⟨c, r, by rw [← this]; exact h⟩
        · exact (hmem _).1 h3
      · rcases h6 with h6 | h6
        · have : hl'.2 = q := le_antisymm hq2 (by rw [h6]; exact (abs_le.1 hq).2)
          exact ⟨c, r, by rw [this]; exact h⟩
        · exact (hmem _).1 h6
    · intro hnone
      have : l = [] := by
        rw [List.eq_nil_iff_forall_not_mem]
        intro v hv
        obtain ⟨c, r, h⟩ := (hmem v).1 hv
        rw [hnone] at h; cases h
      subst this
      rw [← hE]
      rfl

/-- Text of a matrix of doubles all of whose numbers fit in the computed width: stored entries are formatted, the others show
as `0.` followed by `d` zeros, even for `d = 0`. -/
theorem f64Text₀ {P : Platform} (o₁ o₂ : HashOrder) {m : SqMatrix F64} (hw : m.WF) (d : Nat) {j : Nat}
    (hj : digitsOf f64Fmt (extremes f64Fmt o₁ m) = j) (hj1 : 1 ≤ j) (hfm : j + (1 + d) ≤ P.fmtMax)
    (hlen : ∀ c r v, m.at? c r = some v → (f64Chars v d).length ≤ j + (1 + d)) :
    ShowsText P m.dimension (j + (1 + d))
      (fun c r => match m.at? c r with | some v => f64Chars v d | none => '0' :: '.' :: List.replicate d '0')
      (m.toStringWithPrecision P f64Fmt o₁ o₂ d) := by
  have hcw : cellWidth f64Fmt (extremes f64Fmt o₁ m) d = j + (1 + d) := by
    unfold cellWidth
    rw [hj]; rfl
  have hmain : m.dimension ≠ 0 → 4 * m.dimension + (j + (1 + d) + 2) * (m.dimension * m.dimension) ≤ P.usizeMax →
      m.toStringWithPrecision P f64Fmt o₁ o₂ d =
      if P.alloc (4 * m.dimension + (j + (1 + d) + 2) * (m.dimension * m.dimension) - 2) then
        .ok (grid m.dimension fun c r => rightAligned (j + (1 + d))
          (match m.at? c r with | some v => f64Chars v d | none => '0' :: '.' :: List.replicate d '0'))
      else .err (.CapacityOverflow "Unable to allocate matrix string") := by
    intro hd hsize
    rw [toString_ok (text := fun v => rightAligned (j + (1 + d)) (f64Chars v d)) o₁ o₂ hw hd (by omega)
      hcw.symm hsize]
    · congr 2
      apply grid_congr
      intro c _ r _
      rw [hj]
      cases hat : m.at? c r with
      | none => exact zeroCell_dec _ _ hj1
      | some v => rfl
    · intro c r v hat
      refine ⟨?_, rightAligned_length (hlen c r v hat)⟩
      unfold formatEntry
      change (if (!true && _) = true then _ else _) = _
      simp only [Bool.not_true, Bool.false_and, Bool.false_eq_true, if_false]
      rw [if_neg (by omega)]
      rfl
  refine ⟨?_, ?_, ?_, ?_, ?_⟩
  · intro c r
    cases hat : m.at? c r with
    | none => simp; omega
    | some v => exact hlen c r v hat
  · intro h0
    unfold toStringWithPrecision
    rw [if_pos h0]
  · intro hd hsize hal
    rw [hmain hd hsize, if_pos hal]
  · intro hd hsize hal
    rw [hmain hd hsize, hal]
    exact ⟨_, rfl⟩
  · intro hd hfit hsize
    exact toString_tooLarge o₁ o₂ hd (by omega) hcw.symm hfit (by omega)

/-- Text of a matrix of finite doubles all of whose numbers fit in the computed width. -/
theorem f64Text {P : Platform} (o₁ o₂ : HashOrder) {m : SqMatrix F64} (hw : m.WF) (d : Nat) (hd1 : 1 ≤ d) {j : Nat}
    (hj : digitsOf f64Fmt (extremes f64Fmt o₁ m) = j) (hj1 : 1 ≤ j) (hfm : j + (1 + d) ≤ P.fmtMax)
    (hlen : ∀ c r v, m.at? c r = some v → (f64Chars v d).length ≤ j + (1 + d)) :
    ShowsText P m.dimension (j + (1 + d)) (fun c r => f64Chars (m.getEntry f64Numeric c r) d)
      (m.toStringWithPrecision P f64Fmt o₁ o₂ d) := by
  have h := f64Text₀ (P := P) o₁ o₂ hw d hj hj1 hfm hlen
  have : (fun c r => f64Chars (m.getEntry f64Numeric c r) d) =
      (fun c r => match m.at? c r with | some v => f64Chars v d | none => '0' :: '.' :: List.replicate d '0') := by
    funext c r
    rw [getEntry_eq]
    cases hat : m.at? c r with
    | none =>
      simp only [Option.getD_none]
      change f64Chars (F64.lit 0) d = _
      rw [F64.lit_zero, f64Chars_zero _ hd1]
    | some v => rfl
  rw [this]
  exact h

end SqMatrix

/-- Number of characters of a non-negative double below `10^j` whose rounding does not carry. -/
theorem f64Chars_length_le {d j : Nat} (hd : 1 ≤ d) (hj : 1 ≤ j) {q : ℚ} (h0 : 0 ≤ q)
    (hq : q + 1 / (2 * 10 ^ d) < 10 ^ j) : (f64Chars (.fin q) d).length ≤ j + (1 + d) := by
  rw [f64Chars_length d hd, if_neg (not_lt.2 h0), abs_of_nonneg h0]
  have : (Nat.toDigits 10 ((F64.roundEven (q * 10 ^ d)).toNat / 10 ^ d)).length ≤ j := by
    apply (Nat.length_toDigits_le_iff (by norm_num) hj).2
    rw [Nat.div_lt_iff_lt_mul (by positivity), ← pow_add, Int.toNat_lt' (by positivity)]
    have h1 := F64.abs_roundEven_sub (q * 10 ^ d)
    have h2 := (abs_le.1 h1).2
    have hp : (0 : ℚ) < 10 ^ d := by positivity
    have h3 : (q + 1 / (2 * 10 ^ d)) * 10 ^ d < 10 ^ j * 10 ^ d := by
      exact mul_lt_mul_of_pos_right hq hp
    have h4 : (q + 1 / (2 * 10 ^ d)) * 10 ^ d = q * 10 ^ d + 1 / 2 := by
      field_simp
    rw [h4, ← pow_add] at h3
    have : ((F64.roundEven (q * 10 ^ d) : ℤ) : ℚ) < ((10 ^ (j + d) : ℕ) : ℚ) := by push_cast; linarith
    exact_mod_cast this
  omega

/-- `integral_digit_count` of a double in `[0, 10^38)`. -/
theorem digitCount_fin {q : ℚ} (h0 : 0 ≤ q) (h1 : q < 10 ^ 38) :
    f64Fmt.digitCount (.fin q) = (Nat.toDigits 10 ⌊q⌋.toNat).length := by
  change (intChars (F64.asI128 (.fin q))).length = _
  have hf0 : 0 ≤ ⌊q⌋ := Int.floor_nonneg.2 h0
  have hf1 : ⌊q⌋ < 10 ^ 38 := by
    rw [Int.floor_lt]; exact_mod_cast h1
  have : F64.asI128 (.fin q) = ((⌊q⌋.toNat : ℕ) : ℤ) := by
    unfold F64.asI128
    simp only
    rw [if_neg (not_lt.2 h0), min_eq_left (by norm_num at hf1 ⊢; omega), max_eq_right (by norm_num at hf1 ⊢; omega)]
    omega
  rw [this, intChars_eq, numeral_natCast]

end Verif
