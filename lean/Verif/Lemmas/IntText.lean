import Verif.Lemmas.Extremes

/-! `to_string_with_precision` for integer entries. -/

namespace Verif
open Spec

theorem zeros_length (d : Nat) : (zeros d).length = if decide (d > 0) then 1 + d else 0 := by
  unfold zeros
  by_cases h : d = 0
  · simp [h]
  · simp only [h, if_false, List.length_cons, List.length_replicate]
    rw [if_pos (by simp; omega)]; omega

theorem numeral_zero : numeral 0 = ['0'] := by decide

namespace SqMatrix

variable {T : Type} [LinearOrder T]

/-- An integer entry type, seen through its values. -/
structure IsIntFmt (F : NumFmt T) (toInt : T → Int) : Prop where
  le_iff : ∀ a b, a ≤ b ↔ toInt a ≤ toInt b
  lt : ∀ a b, F.lt a b = decide (a < b)
  gt : ∀ a b, F.gt a b = decide (a > b)
  zero : toInt F.zero = 0
  digitCount : ∀ x, F.digitCount x = (numeral (toInt x)).length
  fmt : ∀ x w p, F.fmt x w p = rightAligned w (numeral (toInt x))
  fmtW : ∀ x w, F.fmtW x w = rightAligned w (numeral (toInt x))

theorem IsIntFmt.lt_iff {F : NumFmt T} {toInt : T → Int} (hF : IsIntFmt F toInt) (a b : T) :
    a < b ↔ toInt a < toInt b := by
  rw [lt_iff_not_ge, hF.le_iff]; omega

theorem intText {P : Platform} {F : NumFmt T} {toInt : T → Int} (hF : IsIntFmt F toInt) (hdec : F.hasDecimal = false)
    (o₁ o₂ : HashOrder) {m : SqMatrix T} (hw : m.WF) (hb : ∀ c r v, m.at? c r = some v → F.minV ≤ v ∧ v ≤ F.maxV)
    (d : Nat) (hfm : digitsOf F (extremes F o₁ m) ≤ P.fmtMax)
    (hcase : d = 0 ∨ 0 ≤ toInt (extremes F o₁ m).2 ∨
      F.digitCount (extremes F o₁ m).2 = F.digitCount (extremes F o₁ m).1 + 1) :
    ShowsGrid P m.dimension d (cellWidth F (extremes F o₁ m) d) (fun c r => toInt (m.getEntry F.toNumeric c r))
      (m.toStringWithPrecision P F o₁ o₂ d) := by
  obtain ⟨hbetween, _, _⟩ := extremes_spec hF.lt hF.gt m hb o₁
  have hpos : 1 ≤ digitsOf F (extremes F o₁ m) := by
    unfold digitsOf
    rw [hF.digitCount]
    exact (numeral_length_pos _).trans (le_max_left _ _)
  have hcw : cellWidth F (extremes F o₁ m) d = digitsOf F (extremes F o₁ m) + (zeros d).length := by
    unfold cellWidth
    rw [zeros_length, hdec, Bool.false_or]
  have hlen : ∀ c r v, m.at? c r = some v → (numeral (toInt v)).length ≤ digitsOf F (extremes F o₁ m) := by
    intro c r v h
    obtain ⟨h1, h2⟩ := hbetween c r v h
    unfold digitsOf
    rw [hF.digitCount, hF.digitCount]
    exact numeral_length_between ((hF.le_iff _ _).1 h1) ((hF.le_iff _ _).1 h2)
  have hfits : ∀ c r, (numeral (toInt (m.getEntry F.toNumeric c r)) ++ zeros d).length ≤
      cellWidth F (extremes F o₁ m) d := by
    intro c r
    rw [List.length_append, hcw, getEntry_eq]
    cases hat : m.at? c r with
    | none => simp only [Option.getD_none, hF.zero, numeral_zero]; simp; omega
    | some v => simp only [Option.getD_some]; have := hlen c r v hat; omega
  have hzero : zeroCell (cellWidth F (extremes F o₁ m) d) (digitsOf F (extremes F o₁ m) - 1) =
      rightAligned (cellWidth F (extremes F o₁ m) d) (numeral 0 ++ zeros d) := by
    rw [numeral_zero]
    unfold cellWidth
    rw [hdec, Bool.false_or]
    by_cases h0 : d = 0
    · subst h0
      simp only [gt_iff_lt, Nat.lt_irrefl, decide_false, Bool.false_eq_true, if_false, Nat.add_zero]
      rw [zeroCell_zero _ hpos]
      simp [zeros]
    · have : decide (d > 0) = true := by simp; omega
      rw [this]
      simp only [if_true]
      rw [zeroCell_dec _ _ hpos]
      simp [zeros, h0]
  have hmain : m.dimension ≠ 0 →
      4 * m.dimension + (cellWidth F (extremes F o₁ m) d + 2) * (m.dimension * m.dimension) ≤ P.usizeMax →
      m.toStringWithPrecision P F o₁ o₂ d =
      if P.alloc (4 * m.dimension + (cellWidth F (extremes F o₁ m) d + 2) * (m.dimension * m.dimension) - 2) then
        .ok (grid m.dimension fun c r => rightAligned (cellWidth F (extremes F o₁ m) d)
          (numeral (toInt (m.getEntry F.toNumeric c r)) ++ zeros d))
      else .err (.CapacityOverflow "Unable to allocate matrix string") := by
    intro hd hsize
    have hle : (cellWidth F (extremes F o₁ m) d + 2) * 1 ≤
        (cellWidth F (extremes F o₁ m) d + 2) * (m.dimension * m.dimension) :=
      Nat.mul_le_mul_left _ (Nat.mul_pos (by omega) (by omega))
    rw [toString_ok (text := fun v => rightAligned (cellWidth F (extremes F o₁ m) d) (numeral (toInt v) ++ zeros d))
      o₁ o₂ hw hd hpos rfl hsize]
    · congr 2
      apply grid_congr
      intro c _ r _
      rw [getEntry_eq]
      cases hat : m.at? c r with
      | none => simp only [Option.getD_none, hF.zero]; exact hzero
      | some v => rfl
    · intro c r v hat
      have hv := hlen c r v hat
      refine ⟨?_, ?_⟩
      · unfold formatEntry
        rw [hdec]
        by_cases h0 : d = 0
        · subst h0
          have hcw0 : cellWidth F (extremes F o₁ m) 0 = digitsOf F (extremes F o₁ m) := by
            rw [hcw]; simp [zeros]
          simp only [Bool.not_false, Bool.true_and, gt_iff_lt, Nat.lt_irrefl, decide_false, Bool.false_eq_true,
            if_false]
          rw [if_neg (by rw [hcw0]; omega), hF.fmt]
          simp [zeros]
        · have hd0 : decide (d > 0) = true := by simp; omega
          simp only [Bool.not_false, Bool.true_and, hd0, if_true]
          obtain ⟨hlo, hhi⟩ := hbetween c r v hat
          have hz : zeros d = ['.'] ++ List.replicate d '0' := by unfold zeros; rw [if_neg h0]; rfl
          have finish : ∀ width, width = digitsOf F (extremes F o₁ m) →
              (if width > P.fmtMax then Res.panic
                else .ok (F.fmtW v width ++ ['.'] ++ List.replicate d '0')) =
              .ok (rightAligned (cellWidth F (extremes F o₁ m) d) (numeral (toInt v) ++ zeros d)) := by
            intro width hwd
            rw [if_neg (by omega), hF.fmtW, List.append_assoc, ← hz, rightAligned_append, hcw, hwd]
          by_cases hneg : toInt (extremes F o₁ m).2 < 0
          · have hlt : F.lt (extremes F o₁ m).2 F.zero = true := by
              rw [hF.lt, decide_eq_true_iff, hF.lt_iff, hF.zero]; exact hneg
            have heq : F.digitCount (extremes F o₁ m).1 + 1 = digitsOf F (extremes F o₁ m) := by
              unfold digitsOf
              rcases hcase with h | h | h
              · exact absurd h h0
              · omega
              · rw [h]; omega
            rw [hlt]
            simp only [if_true]
            rw [Platform.usizeAdd_ok (by rw [heq]; omega), Res.bind_ok]
            exact finish _ heq
          · have hlt : F.lt (extremes F o₁ m).2 F.zero = false := by
              rw [hF.lt, decide_eq_false_iff_not, hF.lt_iff, hF.zero]; exact hneg
            rw [hlt]
            simp only [Bool.false_eq_true, if_false, Res.bind_ok]
            apply finish
            unfold digitsOf
            rw [hF.digitCount, hF.digitCount]
            have hle2 := numeral_length_mono (a := toInt (extremes F o₁ m).2) (b := toInt (extremes F o₁ m).1) (by omega)
              ((hF.le_iff _ _).1 (hlo.trans hhi))
            omega
      · apply rightAligned_length
        rw [List.length_append, hcw]; omega
  refine ⟨hfits, ?_, ?_, ?_, ?_⟩
  · intro h0
    unfold toStringWithPrecision
    rw [if_pos h0]
  · intro hd hsize hal
    rw [hmain hd hsize, if_pos hal]
  · intro hd hsize hal
    rw [hmain hd hsize, hal]
    exact ⟨_, rfl⟩
  · intro hd hfit hsize
    exact toString_tooLarge o₁ o₂ hd hpos rfl hfit (by omega)

end SqMatrix

/-- Unsigned types. -/
theorem uintFmt_isInt (max : Nat) : SqMatrix.IsIntFmt (uintFmt max) (fun n => (n : Int)) where
  le_iff a b := by omega
  lt _ _ := rfl
  gt _ _ := rfl
  zero := rfl
  digitCount x := by rw [numeral_natCast, ← decChars_eq]; rfl
  fmt x w p := by rw [numeral_natCast, ← decChars_eq]; rfl
  fmtW x w := by rw [numeral_natCast, ← decChars_eq]; rfl

/-- Signed types. -/
theorem sintFmt_isInt (max : Nat) (hasDec : Bool) : SqMatrix.IsIntFmt (sintFmt max hasDec) (fun z => z) where
  le_iff a b := Iff.rfl
  lt _ _ := rfl
  gt _ _ := rfl
  zero := rfl
  digitCount x := by rw [← intChars_eq]; rfl
  fmt x w p := by rw [← intChars_eq]; rfl
  fmtW x w := by rw [← intChars_eq]; rfl

end Verif
