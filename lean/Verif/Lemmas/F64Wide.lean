import Verif.Lemmas.TextTotal

/-! Widths of `f64` texts compared with the widths that `to_string_with_precision` reserves. -/

namespace Verif
open Spec

theorem toDigits_length_succ (n : Nat) :
    (Nat.toDigits 10 (n + 1)).length ≤ (Nat.toDigits 10 n).length + 1 := by
  apply (Nat.length_toDigits_le_iff (by norm_num) (by omega)).2
  have h := (Nat.length_toDigits_le_iff (b := 10) (n := n) (by norm_num) Nat.length_toDigits_pos).1 (le_refl _)
  rw [pow_succ]
  omega

/-- The text of a double has at most two characters more than its integral digits, the point and the decimals. -/
theorem f64Chars_wide (d : Nat) (q : ℚ) :
    (f64Chars (.fin q) d).length ≤ (Nat.toDigits 10 ⌊|q|⌋.toNat).length + (1 + d) + 2 := by
  have hk : (F64.roundEven (|q| * 10 ^ d)).toNat / 10 ^ d ≤ ⌊|q|⌋.toNat + 1 := by
    have hfl : 0 ≤ ⌊|q|⌋ := Int.floor_nonneg.2 (abs_nonneg q)
    have h1 : F64.roundEven (|q| * 10 ^ d) ≤ (⌊|q|⌋ + 1) * 10 ^ d := by
      apply F64.roundEven_le_int
      push_cast
      exact mul_le_mul_of_nonneg_right (Int.lt_floor_add_one |q|).le (by positivity)
    have h2 : (F64.roundEven (|q| * 10 ^ d)).toNat ≤ (⌊|q|⌋.toNat + 1) * 10 ^ d := by
      rw [Int.toNat_le]
      push_cast
      rwa [Int.toNat_of_nonneg hfl]
    calc _ ≤ (⌊|q|⌋.toNat + 1) * 10 ^ d / 10 ^ d := Nat.div_le_div_right h2
      _ = _ := Nat.mul_div_cancel _ (by positivity)
  have h3 := (toDigits_length_mono hk).trans (toDigits_length_succ _)
  by_cases hd : 1 ≤ d
  · rw [f64Chars_length d hd]
    split <;> omega
  · have : d = 0 := by omega
    subst this
    unfold f64Chars fixedChars
    simp only [if_true, List.append_nil, decChars_eq, List.length_append]
    split <;> simp only [List.length_cons, List.length_nil] <;> omega

namespace F64

/-- NaN, an infinity, or a number with at most 39 integral digits. -/
def Printable : F64 → Prop
  | nan => True
  | inf _ => True
  | fin q => |q| < 10 ^ 39

/-- The place of a value in the order (NaN aside). -/
def key : F64 → WithBot (WithTop ℚ)
  | nan => ⊥
  | inf true => ⊥
  | inf false => ((⊤ : WithTop ℚ) : WithBot (WithTop ℚ))
  | fin q => ((q : WithTop ℚ) : WithBot (WithTop ℚ))

theorem lt_key {a b : F64} (ha : a ≠ nan) (hb : b ≠ nan) : lt a b = true ↔ key a < key b := by
  rcases a with _ | (_ | _) | a <;> rcases b with _ | (_ | _) | b <;> simp_all [lt, le, key]
  all_goals first
    | exact WithBot.coe_lt_coe.2 (WithTop.coe_lt_top _)
    | exact fun h => le_of_lt h

theorem lt_false_key {a b : F64} (ha : a ≠ nan) (hb : b ≠ nan) : lt a b = false ↔ key b ≤ key a := by
  rw [← not_lt, ← lt_key ha hb, Bool.not_eq_true]

theorem lt_ne_nan {a b : F64} (h : lt a b = true) : a ≠ nan ∧ b ≠ nan := by
  rcases a with _ | (_ | _) | a <;> rcases b with _ | (_ | _) | b <;> simp_all [lt, le]

theorem asI128_fin_mono {a b : ℚ} (hab : a ≤ b) : (fin a).asI128 ≤ (fin b).asI128 := by
  have hf := Int.floor_mono hab
  have hc := Int.ceil_mono hab
  unfold asI128
  simp only
  split <;> split
  · omega
  · next h1 h2 =>
    have : ⌈a⌉ ≤ 0 := by rw [Int.ceil_le]; push_cast; exact h1.le
    have : 0 ≤ ⌊b⌋ := Int.floor_nonneg.2 (not_lt.1 h2)
    omega
  · next h1 h2 => exact absurd (lt_of_le_of_lt hab h2) h1
  · omega

theorem asI128_range (a : F64) : -2 ^ 127 ≤ a.asI128 ∧ a.asI128 ≤ 2 ^ 127 - 1 := by
  rcases a with _ | (_ | _) | a
  · exact ⟨by decide, by decide⟩
  · exact ⟨by decide, by decide⟩
  · exact ⟨by decide, by decide⟩
  · unfold asI128
    simp only
    omega

/-- `as i128` respects the order. -/
theorem asI128_mono {a b : F64} (ha : a ≠ nan) (hb : b ≠ nan) (h : key a ≤ key b) : a.asI128 ≤ b.asI128 := by
  rcases a with _ | (_ | _) | a <;> rcases b with _ | (_ | _) | b <;> simp_all [key]
  all_goals first
    | exact asI128_fin_mono h
    | exact (asI128_range _).1
    | exact (asI128_range _).2

end F64

theorem intChars_length (z : Int) : (Nat.toDigits 10 z.natAbs).length ≤ (intChars z).length := by
  rw [intChars_eq]
  unfold numeral
  split <;> simp

theorem intChars_pos (z : Int) : 1 ≤ (intChars z).length :=
  le_trans Nat.length_toDigits_pos (intChars_length z)

/-- `as i128` of a printable number does not lose digits. -/
theorem digits_asI128 {q : ℚ} (hq : |q| < 10 ^ 39) {z : Int}
    (hz : (0 ≤ q ∧ (F64.fin q).asI128 ≤ z) ∨ (q < 0 ∧ z ≤ (F64.fin q).asI128)) :
    (Nat.toDigits 10 ⌊|q|⌋.toNat).length ≤ (Nat.toDigits 10 z.natAbs).length := by
  have hfl : ⌊|q|⌋ < 10 ^ 39 := by rw [Int.floor_lt]; exact_mod_cast hq
  have hnn : 0 ≤ ⌊|q|⌋ := Int.floor_nonneg.2 (abs_nonneg q)
  have h39 : (Nat.toDigits 10 ⌊|q|⌋.toNat).length ≤ 39 :=
    (Nat.length_toDigits_le_iff (by norm_num) (by norm_num)).2 (by omega)
  have hbig : ∀ n : Nat, 2 ^ 127 - 1 ≤ n → 39 ≤ (Nat.toDigits 10 n).length := by
    intro n hn
    by_contra hlt
    have := (Nat.length_toDigits_le_iff (b := 10) (n := n) (k := 38) (by norm_num) (by norm_num)).1 (by omega)
    norm_num at this hn
    omega
  rcases hz with ⟨h0, hz⟩ | ⟨h0, hz⟩
  · rw [abs_of_nonneg h0] at *
    unfold F64.asI128 at hz
    simp only [if_neg (not_lt.2 h0)] at hz
    by_cases hs : ⌊q⌋ ≤ 2 ^ 127 - 1
    · apply toDigits_length_mono
      omega
    · exact h39.trans (hbig _ (by omega))
  · rw [abs_of_neg h0, Int.floor_neg] at *
    unfold F64.asI128 at hz
    simp only [if_pos h0] at hz
    by_cases hs : -2 ^ 127 ≤ ⌈q⌉
    · apply toDigits_length_mono
      omega
    · exact h39.trans (hbig _ (by omega))

namespace SqMatrix

/-- The loop over the values never ends below (above) a value, NaN aside. -/
theorem foldExtremes_f64 (l : List F64) : ∀ a b : F64, a ≠ .nan → b ≠ .nan →
    let hl := l.foldl (fun hl v => (if F64.lt hl.1 v then v else hl.1, if F64.lt v hl.2 then v else hl.2)) (a, b)
    hl.1 ≠ .nan ∧ hl.2 ≠ .nan ∧ a.key ≤ hl.1.key ∧ hl.2.key ≤ b.key ∧
      ∀ v ∈ l, v ≠ .nan → v.key ≤ hl.1.key ∧ hl.2.key ≤ v.key := by
  induction l with
  | nil => intro a b ha hb; exact ⟨ha, hb, le_refl _, le_refl _, by simp⟩
  | cons x l ih =>
    intro a b ha hb
    simp only [List.foldl_cons]
    have hA : (if F64.lt a x then x else a) ≠ .nan ∧ a.key ≤ (if F64.lt a x then x else a).key ∧
        (x ≠ .nan → x.key ≤ (if F64.lt a x then x else a).key) := by
      by_cases h : F64.lt a x = true
      · rw [if_pos h]
        exact ⟨(F64.lt_ne_nan h).2, ((F64.lt_key ha (F64.lt_ne_nan h).2).1 h).le, fun _ => le_refl _⟩
      · rw [if_neg h]
        exact ⟨ha, le_refl _, fun hx => (F64.lt_false_key ha hx).1 (by simpa using h)⟩
    have hB : (if F64.lt x b then x else b) ≠ .nan ∧ (if F64.lt x b then x else b).key ≤ b.key ∧
        (x ≠ .nan → (if F64.lt x b then x else b).key ≤ x.key) := by
      by_cases h : F64.lt x b = true
      · rw [if_pos h]
        exact ⟨(F64.lt_ne_nan h).1, ((F64.lt_key (F64.lt_ne_nan h).1 hb).1 h).le, fun _ => le_refl _⟩
      · rw [if_neg h]
        exact ⟨hb, le_refl _, fun hx => (F64.lt_false_key hx hb).1 (by simpa using h)⟩
    obtain ⟨h1, h2, h3, h4, h5⟩ := ih _ _ hA.1 hB.1
    refine ⟨h1, h2, hA.2.1.trans h3, h4.trans hB.2.1, ?_⟩
    intro v hv hvn
    rcases List.mem_cons.1 hv with rfl | hv
    · exact ⟨(hA.2.2 hvn).trans h3, h4.trans (hB.2.2 hvn)⟩
    · exact h5 v hv hvn

/-- The number of digits that the code reserves for integral parts is between 1 and 40. -/
theorem digitsOf_f64 (hl : F64 × F64) : 1 ≤ digitsOf f64Fmt hl ∧ digitsOf f64Fmt hl ≤ 40 := by
  have hle : ∀ x : F64, f64Fmt.digitCount x ≤ 40 := by
    intro x
    change (intChars x.asI128).length ≤ 40
    obtain ⟨h1, h2⟩ := F64.asI128_range x
    rw [intChars_eq]
    have h39 : (Nat.toDigits 10 x.asI128.natAbs).length ≤ 39 :=
      (Nat.length_toDigits_le_iff (by norm_num) (by norm_num)).2 (by norm_num at h1 h2 ⊢; omega)
    unfold numeral
    split
    · rw [List.length_cons]; omega
    · omega
  have h1 : 1 ≤ f64Fmt.digitCount hl.1 := intChars_pos _
  have := hle hl.1
  have := hle hl.2
  unfold digitsOf
  omega

/-- No printable entry is more than two characters wider than its cell. -/
theorem width_f64 {m : SqMatrix F64} (o : HashOrder) (d : Nat) {c r : Nat} {v : F64} (hat : m.at? c r = some v)
    (hp : v.Printable) : (f64Chars v d).length ≤ digitsOf f64Fmt (extremes f64Fmt o m) + (1 + d) + 2 := by
  have hd1 := (digitsOf_f64 (extremes f64Fmt o m)).1
  rcases v with _ | neg | q
  · show 3 ≤ _; omega
  · cases neg <;> simp [f64Chars] <;> omega
  · refine (f64Chars_wide d q).trans ?_
    have hne : ¬ m.edgesTable.entries.length = 0 := by
      intro h0
      have : m.edgesTable.entries = [] := List.length_eq_zero_iff.1 h0
      simp [at?, get2, HMap.get?, this, HMap.lookup] at hat
    have hv : F64.fin q ∈ values o m := mem_values.2 ⟨c, r, hat⟩
    have hext : extremes f64Fmt o m = (values o m).foldl
        (fun hl v => (if F64.lt hl.1 v then v else hl.1, if F64.lt v hl.2 then v else hl.2))
        (f64Fmt.minV, f64Fmt.maxV) := by
      unfold extremes; rw [if_neg hne]; rfl
    obtain ⟨h1, h2, _, _, h5⟩ := foldExtremes_f64 (values o m) f64Fmt.minV f64Fmt.maxV (F64.noConfusion)
      (F64.noConfusion)
    rw [← hext] at h1 h2 h5
    obtain ⟨h6, h7⟩ := h5 _ hv (by simp)
    have : (Nat.toDigits 10 ⌊|q|⌋.toNat).length ≤ digitsOf f64Fmt (extremes f64Fmt o m) := by
      unfold digitsOf
      by_cases h0 : 0 ≤ q
      · have := digits_asI128 hp (.inl ⟨h0, F64.asI128_mono (by simp) h1 h6⟩)
        have h8 := intChars_length (extremes f64Fmt o m).1.asI128
        exact (this.trans h8).trans (le_max_left _ _)
      · have := digits_asI128 hp (.inr ⟨not_le.1 h0, F64.asI128_mono h2 (by simp) h7⟩)
        have h8 := intChars_length (extremes f64Fmt o m).2.asI128
        exact (this.trans h8).trans (le_max_right _ _)
    omega

/-- Printing a matrix of printable doubles succeeds with a text of the computed length or reports a capacity error. -/
theorem f64Text_total_at {P : Platform} (o₁ o₂ : HashOrder) {m : SqMatrix F64} (hw : m.WF) (d : Nat)
    (hp : ∀ c r v, m.at? c r = some v → v.Printable) {w : Nat} (hcw : w = digitsOf f64Fmt (extremes f64Fmt o₁ m) + (1 + d))
    (hf : w ≤ P.fmtMax) (hu : w + 2 ≤ P.usizeMax) :
      (∃ s, m.toStringWithPrecision P f64Fmt o₁ o₂ d = .ok s ∧
        s.length = 4 * m.dimension + (w + 2) * (m.dimension * m.dimension) - 2) ∨
      (∃ msg, m.toStringWithPrecision P f64Fmt o₁ o₂ d = .err (.CapacityOverflow msg) ∧
        (P.usizeMax < 4 * m.dimension + (w + 2) * (m.dimension * m.dimension) ∨
        P.alloc (4 * m.dimension + (w + 2) * (m.dimension * m.dimension) - 2) = false)) := by
  obtain ⟨h1, -⟩ := digitsOf_f64 (extremes f64Fmt o₁ m)
  have hcw' : w = cellWidth f64Fmt (extremes f64Fmt o₁ m) d := hcw
  by_cases hd : m.dimension = 0
  · left
    refine ⟨[], ?_, by rw [hd]; rfl⟩
    unfold toStringWithPrecision
    rw [if_pos hd]
  by_cases hsize : 4 * m.dimension + (w + 2) * (m.dimension * m.dimension) ≤ P.usizeMax
  · obtain ⟨s, hs, h⟩ := toString_total (P := P) (F := f64Fmt) o₁ o₂ hw hd h1 hcw' hsize
      (text := fun v => padLeft w (f64Chars v d)) (by
        intro c r v hat
        have hlen := width_f64 o₁ d hat (hp c r v hat)
        refine ⟨?_, ?_⟩
        · unfold formatEntry
          change (if (!true && _) = true then _ else _) = _
          simp only [Bool.not_true, Bool.false_and, Bool.false_eq_true, if_false]
          rw [if_neg (by omega)]
          rfl
        · unfold padLeft
          simp only [List.length_append, List.length_replicate]
          omega)
    rw [h]
    cases hal : P.alloc _ with
    | true => left; exact ⟨s, rfl, hs⟩
    | false => right; exact ⟨_, rfl, .inr rfl⟩
  · obtain ⟨msg, h⟩ := toString_tooLarge (P := P) (F := f64Fmt) o₁ o₂ hd h1 hcw' (by omega) hsize
    right
    exact ⟨msg, h, .inl (by omega)⟩

/-- The width of a cell is at most 41 and the number of decimals. -/
theorem f64Text_total {P : Platform} (o₁ o₂ : HashOrder) {m : SqMatrix F64} (hw : m.WF) (d : Nat)
    (hp : ∀ c r v, m.at? c r = some v → v.Printable) (hf : 41 + d ≤ P.fmtMax) (hu : 43 + d ≤ P.usizeMax) :
    ∃ w, 2 + d ≤ w ∧ w ≤ 41 + d ∧
      ((∃ s, m.toStringWithPrecision P f64Fmt o₁ o₂ d = .ok s ∧
        s.length = 4 * m.dimension + (w + 2) * (m.dimension * m.dimension) - 2) ∨
      (∃ msg, m.toStringWithPrecision P f64Fmt o₁ o₂ d = .err (.CapacityOverflow msg) ∧
        (P.usizeMax < 4 * m.dimension + (w + 2) * (m.dimension * m.dimension) ∨
        P.alloc (4 * m.dimension + (w + 2) * (m.dimension * m.dimension) - 2) = false))) := by
  obtain ⟨h1, h40⟩ := digitsOf_f64 (extremes f64Fmt o₁ m)
  exact ⟨_, by omega, by omega, f64Text_total_at o₁ o₂ hw d hp rfl (by omega) (by omega)⟩

end SqMatrix
end Verif
