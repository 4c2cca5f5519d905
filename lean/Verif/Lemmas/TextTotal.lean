import Verif.Lemmas.SqText
import Verif.Lemmas.F64Text

/-! `to_string_with_precision` when some numbers are wider than their cell. -/

namespace Verif
open Spec

namespace SqMatrix

variable {T : Type}

theorem writeChars_ok (cs : List Char) : ∀ (buffer : List Char) (pos : Nat), pos + cs.length ≤ buffer.length →
    ∃ b, writeChars buffer pos cs = .ok b ∧ b.length = buffer.length := by
  induction cs with
  | nil => intro buffer pos _; exact ⟨buffer, rfl, rfl⟩
  | cons c cs ih =>
    intro buffer pos h
    simp only [List.length_cons] at h
    unfold writeChars
    rw [if_pos (by omega)]
    obtain ⟨b, hb, hl⟩ := ih (buffer.set pos c) (pos + 1) (by rw [List.length_set]; omega)
    exact ⟨b, hb, by rw [hl, List.length_set]⟩

/-- A number at most two characters wider than its cell stays inside the buffer. -/
theorem cell_end {n e c r : Nat} (hc : c < n) (hr : r < n) :
    r * (4 + n * (e + 2)) + 2 + (e + 2) * c + (e + 2) ≤ 4 * n + (e + 2) * (n * n) - 2 := by
  obtain ⟨k, rfl⟩ : ∃ k, n = k + 1 := ⟨n - 1, by omega⟩
  have h1 : r * (4 + (k + 1) * (e + 2)) ≤ k * (4 + (k + 1) * (e + 2)) := Nat.mul_le_mul_right _ (by omega)
  have h2 : (e + 2) * c ≤ (e + 2) * k := Nat.mul_le_mul_left _ (by omega)
  have h3 : k * (4 + (k + 1) * (e + 2)) + (e + 2) * k + (e + 2) + 4 =
      4 * (k + 1) + (e + 2) * ((k + 1) * (k + 1)) := by ring
  omega

theorem writeAll_total {P : Platform} {F : NumFmt T} {highest lowest : T} {e d n : Nat} {text : T → List Char}
    (hn : n ≤ P.usizeMax) (hsize : 4 * n + (e + 2) * (n * n) ≤ P.usizeMax) (l : List (Nat × Nat × T))
    (hl : ∀ x ∈ l, x.1 < n ∧ x.2.1 < n ∧ formatEntry P F highest lowest e d x.2.2 = .ok (text x.2.2) ∧
      (text x.2.2).length ≤ e + 2) :
    ∀ buffer : List Char, buffer.length = 4 * n + (e + 2) * (n * n) - 2 →
    ∃ b, Res.foldl (writeEntry P F highest lowest e d (4 + n * (e + 2)) (e + 2)) buffer l = .ok b ∧
      b.length = buffer.length := by
  induction l with
  | nil => intro buffer _; exact ⟨buffer, rfl, rfl⟩
  | cons x l ih =>
    intro buffer hb
    obtain ⟨c, r, v⟩ := x
    obtain ⟨hc, hr, hf, hlen⟩ := hl (c, r, v) (by simp)
    simp only at hc hr hf hlen
    have hend := cell_end (e := e) hc hr
    obtain ⟨b, hw, hbl⟩ := writeChars_ok (text v) buffer (r * (4 + n * (e + 2)) + 2 + (e + 2) * c) (by omega)
    have hstep : writeEntry P F highest lowest e d (4 + n * (e + 2)) (e + 2) buffer (c, r, v) = .ok b := by
      have ha1 : asUsize P r = r := Nat.mod_eq_of_lt (by omega)
      have ha2 : asUsize P c = c := Nat.mod_eq_of_lt (by omega)
      unfold writeEntry
      simp only [ha1, ha2]
      rw [Platform.usizeMul_ok (by omega), Res.bind_ok, Platform.usizeAdd_ok (by omega), Res.bind_ok,
        Platform.usizeMul_ok (by omega), Res.bind_ok, Platform.usizeAdd_ok (by omega), Res.bind_ok, hf, Res.bind_ok,
        hw]
    obtain ⟨b', hb', hl'⟩ := ih (fun y hy => hl y (by simp [hy])) b (by omega)
    refine ⟨b', ?_, by omega⟩
    change (writeEntry P F highest lowest e d (4 + n * (e + 2)) (e + 2) buffer (c, r, v) >>=
      fun b' => Res.foldl _ b' l) = _
    rw [hstep, Res.bind_ok, hb']

/-- If no number is more than two characters wider than its cell, the call succeeds with a text of the computed
length, or reports a capacity error. -/
theorem toString_total {P : Platform} {F : NumFmt T} (o₁ o₂ : HashOrder) {m : SqMatrix T} (hw : m.WF) {d : Nat}
    (hd : m.dimension ≠ 0) (hpos : 1 ≤ digitsOf F (extremes F o₁ m)) {e : Nat}
    (he : e = cellWidth F (extremes F o₁ m) d)
    (hsize : 4 * m.dimension + (e + 2) * (m.dimension * m.dimension) ≤ P.usizeMax)
    {text : T → List Char}
    (ht : ∀ c r v, m.at? c r = some v →
      formatEntry P F (extremes F o₁ m).1 (extremes F o₁ m).2 e d v = .ok (text v) ∧ (text v).length ≤ e + 2) :
    ∃ s : List Char, s.length = 4 * m.dimension + (e + 2) * (m.dimension * m.dimension) - 2 ∧
    m.toStringWithPrecision P F o₁ o₂ d =
      if P.alloc (4 * m.dimension + (e + 2) * (m.dimension * m.dimension) - 2) then .ok s
      else .err (.CapacityOverflow "Unable to allocate matrix string") := by
  have hn1 : 1 ≤ m.dimension := by omega
  have hnn : m.dimension ≤ m.dimension * m.dimension := Nat.le_mul_of_pos_left _ (by omega)
  have hle1 : (e + 2) * 1 ≤ (e + 2) * (m.dimension * m.dimension) := Nat.mul_le_mul_left _ (by omega)
  have hle2 : m.dimension * m.dimension ≤ (e + 2) * (m.dimension * m.dimension) := Nat.le_mul_of_pos_left _ (by omega)
  have hle3 : m.dimension * (e + 2) ≤ (e + 2) * (m.dimension * m.dimension) := by
    rw [Nat.mul_comm]; exact Nat.mul_le_mul_left _ hnn
  rw [toString_prefix P F o₁ o₂ m d hd hpos (by omega)]
  simp only [← he]
  have h1 : P.usizeTryFrom m.dimension = some m.dimension := by unfold Platform.usizeTryFrom; rw [if_pos (by omega)]
  have h2 : P.checkedMul m.dimension m.dimension = some (m.dimension * m.dimension) := by
    unfold Platform.checkedMul; rw [if_pos (by omega)]
  have h3 : ((P.checkedMul 4 m.dimension).bind fun rows =>
          ((P.checkedMul (e + 2) (m.dimension * m.dimension)).bind fun x => P.checkedAdd x rows).bind fun size =>
            checkedSub size 2) = some (4 * m.dimension + (e + 2) * (m.dimension * m.dimension) - 2) := by
    have a1 : P.checkedMul 4 m.dimension = some (4 * m.dimension) := by
      unfold Platform.checkedMul; rw [if_pos (by omega)]
    have a2 : P.checkedMul (e + 2) (m.dimension * m.dimension) = some ((e + 2) * (m.dimension * m.dimension)) := by
      unfold Platform.checkedMul; rw [if_pos (by omega)]
    rw [a1, a2]
    simp only [Option.bind_some]
    unfold Platform.checkedAdd
    rw [if_pos (by omega)]
    simp only [Option.bind_some]
    unfold checkedSub
    rw [if_pos (by omega), Nat.add_comm]
  rw [h1]
  simp only [Res.ofOption, Res.bind_ok]
  rw [h2]
  simp only [Res.bind_ok]
  rw [h3]
  simp only [Res.bind_ok]
  have ht' : ∀ row, templateRow m.dimension e (digitsOf F (extremes F o₁ m) - 1) row =
    rowText m.dimension (fun _ _ => zeroCell e (digitsOf F (extremes F o₁ m) - 1)) row := templateRow_eq _ _ _
  have hrl := rows_length m.dimension e hd (fun _ _ => zeroCell e (digitsOf F (extremes F o₁ m) - 1))
    (fun _ _ _ _ => zeroCell_length _ _)
  obtain ⟨b, hb, hbl⟩ := writeAll_total (P := P) (F := F) (highest := (extremes F o₁ m).1)
    (lowest := (extremes F o₁ m).2) (d := d) (text := text) (n := m.dimension) (e := e) (by omega) hsize (cells o₂ m)
    (by
      rintro ⟨c, r, v⟩ hx
      have hat : m.at? c r = some v := mem_flat.1 (((flatO_perm o₂ m.edgesTable).mem_iff).1 hx)
      have hb := hw.bound (c, r) (mem_keys.2 ⟨v, hat⟩)
      exact ⟨hb.1, hb.2, ht c r v hat⟩)
    ((List.range m.dimension).flatMap (rowText m.dimension
      (fun _ _ => zeroCell e (digitsOf F (extremes F o₁ m) - 1)))) (by omega)
  refine ⟨b, by omega, ?_⟩
  cases ha : P.alloc (4 * m.dimension + (e + 2) * (m.dimension * m.dimension) - 2) with
  | false => rfl
  | true =>
    simp only [Bool.not_true, Bool.false_eq_true, if_false, if_true]
    rw [List.flatMap_congr (fun r _ => ht' r), writeChars_full _ _ (by rw [List.length_replicate]; omega), Res.bind_ok,
      Platform.usizeMul_ok (by omega), Res.bind_ok, Platform.usizeAdd_ok (by
        have : m.dimension * (e + 2) + 4 ≤ 4 * m.dimension + (e + 2) * (m.dimension * m.dimension) := by omega
        omega), Res.bind_ok]
    exact hb

end SqMatrix
end Verif
