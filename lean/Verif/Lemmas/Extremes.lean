import Mathlib.Order.Basic
import Verif.Lemmas.SqText

/-! `highest` and `lowest` of `to_string_with_precision`; lengths of numerals. -/

namespace Verif
open Spec

namespace SqMatrix

variable {T : Type}

theorem mem_values {m : SqMatrix T} {o : HashOrder} {v : T} :
    v ∈ values o m ↔ ∃ c r, m.at? c r = some v := by
  have : values o m = (flatO o m.edgesTable).map (fun x => x.2.2) := by
    unfold values flatO
    rw [List.map_flatMap]
    apply List.flatMap_congr
    intro e _
    rw [List.map_map]
    rfl
  rw [this, ((flatO_perm o m.edgesTable).map _).mem_iff, List.mem_map]
  constructor
  · rintro ⟨⟨c, r, v'⟩, hm, rfl⟩
    exact ⟨c, r, mem_flat.1 hm⟩
  · rintro ⟨c, r, h⟩
    exact ⟨(c, r, v), mem_flat.2 h, rfl⟩

section order
variable [LinearOrder T]

/-- What the loop over the values computes. -/
theorem foldExtremes (l : List T) : ∀ a b : T,
    let hl := l.foldl (fun hl v => ((if decide (v > hl.1) then v else hl.1 : T), (if decide (v < hl.2) then v else hl.2 : T)))
      (a, b)
    a ≤ hl.1 ∧ (∀ v ∈ l, v ≤ hl.1) ∧ (hl.1 = a ∨ hl.1 ∈ l) ∧
    hl.2 ≤ b ∧ (∀ v ∈ l, hl.2 ≤ v) ∧ (hl.2 = b ∨ hl.2 ∈ l) := by
  induction l with
  | nil => intro a b; simp
  | cons x l ih =>
    intro a b
    simp only [List.foldl_cons, decide_eq_true_eq]
    have h := ih (if x > a then x else a) (if x < b then x else b)
    simp only [decide_eq_true_eq] at h
    generalize List.foldl _ _ l = hl at h
    obtain ⟨h1, h2, h3, h4, h5, h6⟩ := h
    have ha : a ≤ (if x > a then x else a) ∧ x ≤ (if x > a then x else a) := by
      split
      · next h => exact ⟨le_of_lt h, le_refl _⟩
      · next h => exact ⟨le_refl _, not_lt.1 h⟩
    have hb : (if x < b then x else b) ≤ b ∧ (if x < b then x else b) ≤ x := by
      split
      · next h => exact ⟨le_of_lt h, le_refl _⟩
      · next h => exact ⟨le_refl _, not_lt.1 h⟩
    refine ⟨ha.1.trans h1, ?_, ?_, h4.trans hb.1, ?_, ?_⟩
    · intro v hv
      rcases List.mem_cons.1 hv with rfl | hv
      · exact ha.2.trans h1
      · exact h2 v hv
    · rcases h3 with h3 | h3
      · rw [h3]; split <;> simp
      · simp [h3]
    · intro v hv
      rcases List.mem_cons.1 hv with rfl | hv
      · exact h4.trans hb.2
      · exact h5 v hv
    · rcases h6 with h6 | h6
      · rw [h6]; split <;> simp
      · simp [h6]

/-- The extremes of a matrix whose values lie between `minV` and `maxV`. -/
theorem extremes_spec {F : NumFmt T} (hlt : ∀ a b, F.lt a b = decide (a < b)) (hgt : ∀ a b, F.gt a b = decide (a > b))
    (m : SqMatrix T) (hb : ∀ c r v, m.at? c r = some v → F.minV ≤ v ∧ v ≤ F.maxV) (o : HashOrder) :
    (∀ c r v, m.at? c r = some v → (extremes F o m).2 ≤ v ∧ v ≤ (extremes F o m).1) ∧
    ((∃ c r v, m.at? c r = some v) →
      (∃ c r, m.at? c r = some (extremes F o m).1) ∧ ∃ c r, m.at? c r = some (extremes F o m).2) ∧
    ((∀ c r, m.at? c r = none) →
      extremes F o m = (if m.edgesTable.entries.length = 0 then F.zero else F.minV, F.maxV)) := by
  unfold extremes
  by_cases h0 : m.edgesTable.entries.length = 0
  · have hnone : ∀ c r, m.at? c r = none := by
      intro c r
      have : m.edgesTable.entries = [] := List.length_eq_zero_iff.1 h0
      simp [at?, get2, HMap.get?, this, HMap.lookup]
    simp only [h0, if_true]
    refine ⟨?_, ?_, fun _ => trivial⟩
    · intro c r v h; rw [hnone] at h; cases h
    · rintro ⟨c, r, v, h⟩; rw [hnone] at h; cases h
  · simp only [h0, if_false, hlt, hgt]
    obtain ⟨h1, h2, h3, h4, h5, h6⟩ := foldExtremes (values o m) F.minV F.maxV
    generalize hE : List.foldl _ _ _ = hl at h1 h2 h3 h4 h5 h6
    refine ⟨?_, ?_, ?_⟩
    · intro c r v h
      have := mem_values (o := o).2 ⟨c, r, h⟩
      exact ⟨h5 v this, h2 v this⟩
    · rintro ⟨c, r, v, h⟩
      have hv := mem_values (o := o).2 ⟨c, r, h⟩
      constructor
      · rcases h3 with h3 | h3
        · have : v = hl.1 := le_antisymm (h2 v hv) (by rw [h3]; exact (hb c r v h).1)
          exact ⟨c, r, by rw [← this]; exact h⟩
        · exact mem_values.1 h3
      · rcases h6 with h6 | h6
        · have : hl.2 = v := le_antisymm (h5 v hv) (by rw [h6]; exact (hb c r v h).2)
          exact ⟨c, r, by rw [this]; exact h⟩
        · exact mem_values.1 h6
    · intro hnone
      have : values o m = [] := by
        rw [List.eq_nil_iff_forall_not_mem]
        intro v hv
        obtain ⟨c, r, h⟩ := mem_values.1 hv
        rw [hnone] at h; cases h
      rw [this] at hE
      exact hE.symm

/-- The extremes do not depend on the hash order. -/
theorem extremes_indep {F : NumFmt T} (hlt : ∀ a b, F.lt a b = decide (a < b)) (hgt : ∀ a b, F.gt a b = decide (a > b))
    (m : SqMatrix T) (hb : ∀ c r v, m.at? c r = some v → F.minV ≤ v ∧ v ≤ F.maxV) (o o' : HashOrder) :
    extremes F o m = extremes F o' m := by
  obtain ⟨a1, a2, a3⟩ := extremes_spec hlt hgt m hb o
  obtain ⟨b1, b2, b3⟩ := extremes_spec hlt hgt m hb o'
  by_cases h : ∃ c r v, m.at? c r = some v
  · obtain ⟨⟨c1, r1, e1⟩, ⟨c2, r2, e2⟩⟩ := a2 h
    obtain ⟨⟨c3, r3, e3⟩, ⟨c4, r4, e4⟩⟩ := b2 h
    apply Prod.ext
    · exact le_antisymm (b1 _ _ _ e1).2 (a1 _ _ _ e3).2
    · exact le_antisymm (a1 _ _ _ e4).1 (b1 _ _ _ e2).1
  · have hnone : ∀ c r, m.at? c r = none := by
      intro c r
      cases hat : m.at? c r with
      | none => rfl
      | some v => exact absurd ⟨c, r, v, hat⟩ h
    rw [a3 hnone, b3 hnone]

end order
end SqMatrix

/-! ### lengths of numerals -/

theorem numeral_length_pos (z : Int) : 1 ≤ (numeral z).length := by
  unfold numeral
  split
  · simp
  · exact Nat.length_toDigits_pos

theorem toDigits_length_mono {a b : Nat} (h : a ≤ b) : (Nat.toDigits 10 a).length ≤ (Nat.toDigits 10 b).length := by
  have hb := (Nat.length_toDigits_le_iff (b := 10) (n := b) (k := (Nat.toDigits 10 b).length) (by norm_num)
    Nat.length_toDigits_pos).1 (le_refl _)
  exact (Nat.length_toDigits_le_iff (by norm_num) Nat.length_toDigits_pos).2 (lt_of_le_of_lt h hb)

theorem numeral_length_mono {a b : Int} (h0 : 0 ≤ a) (h : a ≤ b) : (numeral a).length ≤ (numeral b).length := by
  unfold numeral
  rw [if_neg (by omega), if_neg (by omega)]
  exact toDigits_length_mono (by omega)

theorem numeral_length_antitone {a b : Int} (h0 : b < 0) (h : a ≤ b) : (numeral b).length ≤ (numeral a).length := by
  unfold numeral
  rw [if_pos h0, if_pos (by omega)]
  have := toDigits_length_mono (a := b.natAbs) (b := a.natAbs) (by omega)
  simpa using this

/-- A number between two others is not longer than the longer one. -/
theorem numeral_length_between {lo hi z : Int} (h1 : lo ≤ z) (h2 : z ≤ hi) :
    (numeral z).length ≤ max (numeral hi).length (numeral lo).length := by
  by_cases hz : 0 ≤ z
  · exact (numeral_length_mono hz h2).trans (le_max_left _ _)
  · exact (numeral_length_antitone (by omega) h1).trans (le_max_right _ _)

theorem numeral_inj {a b : Int} (h : numeral a = numeral b) : a = b := by
  have key : ∀ x y : Nat, Nat.toDigits 10 x = Nat.toDigits 10 y → x = y := by
    intro x y hxy
    rw [← Nat.ofDigitChars_ten_toDigits (n := x), hxy, Nat.ofDigitChars_ten_toDigits]
  have hminus : ∀ x : Nat, ∀ t, Nat.toDigits 10 x ≠ '-' :: t := by
    intro x t hx
    have := Nat.isDigit_of_mem_toDigits (c := '-') (n := x) (b := 10) (by norm_num) (by norm_num) (by rw [hx]; simp)
    exact absurd this (by decide)
  unfold numeral at h
  split at h <;> split at h
  · have := key _ _ (List.cons.inj h).2; omega
  · exact absurd h.symm (hminus _ _)
  · exact absurd h (hminus _ _)
  · have := key _ _ h; omega

end Verif
