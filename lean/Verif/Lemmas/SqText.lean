import Verif.Lemmas.Grid
import Verif.Lemmas.Reach

/-! `to_string_with_precision` writes a grid. -/

namespace Verif
open Spec

theorem Platform.usizeAdd_ok {P : Platform} {a b : Nat} (h : a + b ≤ P.usizeMax) : P.usizeAdd a b = .ok (a + b) := by
  unfold Platform.usizeAdd Platform.wrapTo; rw [if_pos h]

theorem Platform.usizeMul_ok {P : Platform} {a b : Nat} (h : a * b ≤ P.usizeMax) : P.usizeMul a b = .ok (a * b) := by
  unfold Platform.usizeMul Platform.wrapTo; rw [if_pos h]

theorem Platform.usizeSub_ok {P : Platform} {a b : Nat} (h : b ≤ a) : P.usizeSub a b = .ok (a - b) := by
  unfold Platform.usizeSub; rw [if_pos h]

namespace SqMatrix

variable {T : Type}

/-- A zero cell of the template. -/
def zeroCell (e pad : Nat) : List Char :=
  (List.range e).map (fun charPos =>
    if charPos < pad then ' ' else if charPos = pad + 1 then '.' else '0')

theorem zeroCell_length (e pad : Nat) : (zeroCell e pad).length = e := by simp [zeroCell]

theorem zeroCell_zero (w : Nat) (hw : 1 ≤ w) : zeroCell w (w - 1) = rightAligned w ['0'] := by
  obtain ⟨k, rfl⟩ : ∃ k, w = k + 1 := ⟨w - 1, by omega⟩
  unfold zeroCell rightAligned
  rw [List.range_succ, List.map_append]
  simp only [Nat.add_sub_cancel, List.map_cons, List.map_nil, List.length_cons, List.length_nil]
  rw [if_neg (by omega), if_neg (by omega)]
  congr 1
  rw [List.eq_replicate_iff]
  refine ⟨by simp, ?_⟩
  intro x hx
  simp only [List.mem_map, List.mem_range] at hx
  obtain ⟨i, hi, rfl⟩ := hx
  rw [if_pos hi]

theorem zeroCell_dec (w d : Nat) (hw : 1 ≤ w) :
    zeroCell (w + (1 + d)) (w - 1) = rightAligned (w + (1 + d)) ('0' :: '.' :: List.replicate d '0') := by
  obtain ⟨k, rfl⟩ : ∃ k, w = k + 1 := ⟨w - 1, by omega⟩
  unfold zeroCell rightAligned
  have h1 : k + 1 + (1 + d) = k + (1 + (1 + d)) := by omega
  have h2 : k + 1 + (1 + d) - ('0' :: '.' :: List.replicate d '0').length = k := by simp; omega
  rw [h2, h1, List.range_add, List.range_add, List.range_add]
  simp only [Nat.add_sub_cancel, List.map_append, List.map_map, List.range_one, List.map_cons, List.map_nil,
    Function.comp_def]
  have e1 : (List.range k).map (fun charPos => if charPos < k then ' ' else if charPos = k + 1 then '.' else '0')
      = List.replicate k ' ' := by
    rw [List.eq_replicate_iff]
    refine ⟨by simp, ?_⟩
    intro x hx
    simp only [List.mem_map, List.mem_range] at hx
    obtain ⟨i, hi, rfl⟩ := hx
    rw [if_pos hi]
  have e2 : (List.range d).map (fun x => if k + (1 + (1 + x)) < k then ' ' else
      if k + (1 + (1 + x)) = k + 1 then '.' else '0') = List.replicate d '0' := by
    rw [List.eq_replicate_iff]
    refine ⟨by simp, ?_⟩
    intro x hx
    simp only [List.mem_map, List.mem_range] at hx
    obtain ⟨i, hi, rfl⟩ := hx
    rw [if_neg (by omega), if_neg (by omega)]
  rw [e1, e2]
  simp

theorem templateRow_eq (n e pad row : Nat) :
    templateRow n e pad row = rowText n (fun _ _ => zeroCell e pad) row := by
  unfold templateRow rowText
  congr 3
  apply List.flatMap_congr
  intro c _
  unfold templateCell zeroCell
  split <;> simp

/-! ### the loop that overwrites the template -/

/-- Cells after writing the entries of a list. -/
def putAll (text : T → List Char) (cell : Nat → Nat → List Char) (l : List (Nat × Nat × T)) : Nat → Nat → List Char :=
  l.foldl (fun cell x => putCell cell x.1 x.2.1 (text x.2.2)) cell

theorem putAll_absent (text : T → List Char) (l : List (Nat × Nat × T)) (c r : Nat)
    (h : ∀ v, (c, r, v) ∉ l) : ∀ cell, putAll text cell l c r = cell c r := by
  induction l with
  | nil => intro cell; rfl
  | cons x l ih =>
    intro cell
    unfold putAll at ih ⊢
    rw [List.foldl_cons, ih (fun v hv => h v (by simp [hv]))]
    unfold putCell
    rw [if_neg]
    rintro ⟨rfl, rfl⟩
    exact h x.2.2 (by simp)

theorem putAll_present (text : T → List Char) (l : List (Nat × Nat × T)) (c r : Nat) (v : T)
    (hn : (l.map fun x => (x.1, x.2.1)).Nodup) (h : (c, r, v) ∈ l) :
    ∀ cell, putAll text cell l c r = text v := by
  induction l with
  | nil => simp at h
  | cons x l ih =>
    intro cell
    rw [List.map_cons, List.nodup_cons] at hn
    rcases List.mem_cons.1 h with rfl | h
    · have : ∀ v', (c, r, v') ∉ l := by
        intro v' hv'
        exact hn.1 (List.mem_map.2 ⟨_, hv', rfl⟩)
      change putAll text (putCell cell c r (text v)) l c r = text v
      rw [putAll_absent text l c r this]
      simp [putCell]
    · exact ih hn.2 h _

theorem writeAll {P : Platform} {F : NumFmt T} {highest lowest : T} {e d n : Nat} {text : T → List Char}
    (hn : n ≤ P.usizeMax) (hsize : 4 * n + (e + 2) * (n * n) ≤ P.usizeMax) (l : List (Nat × Nat × T))
    (hl : ∀ x ∈ l, x.1 < n ∧ x.2.1 < n ∧ formatEntry P F highest lowest e d x.2.2 = .ok (text x.2.2) ∧
      (text x.2.2).length = e) :
    ∀ cell : Nat → Nat → List Char, (∀ c < n, ∀ r < n, (cell c r).length = e) →
    Res.foldl (writeEntry P F highest lowest e d (4 + n * (e + 2)) (e + 2))
      ((List.range n).flatMap (rowText n cell)) l =
    .ok ((List.range n).flatMap (rowText n (putAll text cell l))) := by
  induction l with
  | nil => intro cell _; rfl
  | cons x l ih =>
    intro cell hcell
    obtain ⟨c, r, v⟩ := x
    obtain ⟨hc, hr, hf, hlen⟩ := hl (c, r, v) (by simp)
    simp only at hc hr hf hlen
    obtain ⟨A, B, hA, hAB, hAB'⟩ := rows_at n e c r hc hr cell hcell
    have hpos : A.length + 2 ≤ 4 * n + (e + 2) * (n * n) := by
      have h1 := rows_length n e (by omega) cell hcell
      rw [hAB] at h1
      simp only [List.length_append] at h1
      omega
    have hstep : writeEntry P F highest lowest e d (4 + n * (e + 2)) (e + 2)
        ((List.range n).flatMap (rowText n cell)) (c, r, v) =
        .ok ((List.range n).flatMap (rowText n (putCell cell c r (text v)))) := by
      have ha1 : asUsize P r = r := Nat.mod_eq_of_lt (by omega)
      have ha2 : asUsize P c = c := Nat.mod_eq_of_lt (by omega)
      unfold writeEntry
      simp only [ha1, ha2]
      rw [Platform.usizeMul_ok (by omega), Res.bind_ok, Platform.usizeAdd_ok (by omega), Res.bind_ok,
        Platform.usizeMul_ok (by omega), Res.bind_ok, Platform.usizeAdd_ok (by omega), Res.bind_ok, hf, Res.bind_ok,
        ← hA, hAB, writeChars_append _ _ _ _ (by rw [hlen, hcell c hc r hr]), hAB']
    change (writeEntry P F highest lowest e d (4 + n * (e + 2)) (e + 2)
        ((List.range n).flatMap (rowText n cell)) (c, r, v) >>= fun b' => Res.foldl _ b' l) = _
    rw [hstep, Res.bind_ok, ih (fun y hy => hl y (by simp [hy]))]
    · rfl
    · intro c' hc' r' hr'
      unfold putCell
      split
      · exact hlen
      · exact hcell c' hc' r' hr'

/-! ### the whole function -/

/-- The number of characters of the widest extreme value. -/
def digitsOf (F : NumFmt T) (hl : T × T) : Nat := max (F.digitCount hl.1) (F.digitCount hl.2)

/-- The width of a cell. -/
def cellWidth (F : NumFmt T) (hl : T × T) (d : Nat) : Nat :=
  digitsOf F hl + (if F.hasDecimal || decide (d > 0) then 1 + d else 0)

/-- Everything before the buffer size is computed. -/
theorem toString_prefix (P : Platform) (F : NumFmt T) (o₁ o₂ : HashOrder) (m : SqMatrix T) (d : Nat)
    (hd : m.dimension ≠ 0) (hpos : 1 ≤ digitsOf F (extremes F o₁ m))
    (hfit : cellWidth F (extremes F o₁ m) d + 2 ≤ P.usizeMax) :
    m.toStringWithPrecision P F o₁ o₂ d =
    (do
      let e := cellWidth F (extremes F o₁ m) d
      let dimension ← Res.ofOption (P.usizeTryFrom m.dimension)
        (.CapacityOverflow "Matrix dimension does not fit in platform usize")
      let matrixEntryCount ← Res.ofOption (P.checkedMul dimension dimension)
        (.CapacityOverflow "Matrix string size overflowed")
      let bufferSize ← Res.ofOption
        ((P.checkedMul 4 dimension).bind fun rows =>
          ((P.checkedMul (e + 2) matrixEntryCount).bind fun x => P.checkedAdd x rows).bind fun size =>
            checkedSub size 2)
        (.CapacityOverflow "Matrix string size overflowed")
      if !P.alloc bufferSize then .err (.CapacityOverflow "Unable to allocate matrix string")
      else do
        let buffer := List.replicate bufferSize (Char.ofNat 0)
        let buffer ← writeChars buffer 0
          ((List.range m.dimension).flatMap (templateRow m.dimension e (digitsOf F (extremes F o₁ m) - 1)))
        let x ← P.usizeMul dimension (e + 2)
        let charsPerRow ← P.usizeAdd 4 x
        Res.foldl (writeEntry P F (extremes F o₁ m).1 (extremes F o₁ m).2 e d charsPerRow (e + 2))
          buffer (cells o₂ m)) := by
  unfold toStringWithPrecision
  rw [if_neg hd]
  have hmax : (if F.digitCount (extremes F o₁ m).1 > F.digitCount (extremes F o₁ m).2 then
      F.digitCount (extremes F o₁ m).1 else F.digitCount (extremes F o₁ m).2) = digitsOf F (extremes F o₁ m) := by
    unfold digitsOf; split <;> omega
  simp only [hmax]
  unfold cellWidth at hfit ⊢
  cases hdec : (F.hasDecimal || decide (d > 0)) with
  | true =>
    simp only [hdec, if_true] at hfit ⊢
    rw [Platform.usizeAdd_ok (by omega), Res.bind_ok, Platform.usizeAdd_ok (by omega), Res.bind_ok, Res.bind_ok,
      Platform.usizeAdd_ok (by omega), Res.bind_ok, Platform.usizeSub_ok (by omega), Res.bind_ok,
      Platform.usizeAdd_ok (by omega), Res.bind_ok]
    have : digitsOf F (extremes F o₁ m) + (1 + d) - (1 + (1 + d)) = digitsOf F (extremes F o₁ m) - 1 := by omega
    rw [this]
  | false =>
    simp only [hdec, Bool.false_eq_true, if_false, Nat.add_zero] at hfit ⊢
    rw [Res.bind_ok, Platform.usizeAdd_ok (by omega), Res.bind_ok, Platform.usizeSub_ok (by omega), Res.bind_ok,
      Platform.usizeAdd_ok (by omega), Res.bind_ok]

theorem toString_ok {P : Platform} {F : NumFmt T} (o₁ o₂ : HashOrder) {m : SqMatrix T} (hw : m.WF) {d : Nat}
    (hd : m.dimension ≠ 0) (hpos : 1 ≤ digitsOf F (extremes F o₁ m)) {e : Nat}
    (he : e = cellWidth F (extremes F o₁ m) d)
    (hsize : 4 * m.dimension + (e + 2) * (m.dimension * m.dimension) ≤ P.usizeMax)
    {text : T → List Char}
    (ht : ∀ c r v, m.at? c r = some v →
      formatEntry P F (extremes F o₁ m).1 (extremes F o₁ m).2 e d v = .ok (text v) ∧ (text v).length = e) :
    m.toStringWithPrecision P F o₁ o₂ d =
      if P.alloc (4 * m.dimension + (e + 2) * (m.dimension * m.dimension) - 2) then
        .ok (grid m.dimension fun c r =>
          match m.at? c r with
          | some v => text v
          | none => zeroCell e (digitsOf F (extremes F o₁ m) - 1))
      else .err (.CapacityOverflow "Unable to allocate matrix string") := by
  have hn1 : 1 ≤ m.dimension := by omega
  have hnn : m.dimension ≤ m.dimension * m.dimension := Nat.le_mul_of_pos_left _ (by omega)
  have hle1 : (e + 2) * 1 ≤ (e + 2) * (m.dimension * m.dimension) := Nat.mul_le_mul_left _ (by omega)
  have hle2 : m.dimension * m.dimension ≤ (e + 2) * (m.dimension * m.dimension) := Nat.le_mul_of_pos_left _ (by omega)
  have hle3 : m.dimension * (e + 2) ≤ (e + 2) * (m.dimension * m.dimension) := by
    rw [Nat.mul_comm]; exact Nat.mul_le_mul_left _ hnn
  rw [toString_prefix P F o₁ o₂ m d hd hpos (by omega)]
  simp only [← he]
  have h1 : P.usizeTryFrom m.dimension = some m.dimension := by unfold Platform.usizeTryFrom; rw [if_pos (by omega)]
  have h2 : P.checkedMul m.dimension m.dimension = some (m.dimension * m.dimension) := by
    unfold Platform.checkedMul; rw [if_pos (by omega)]
  have h3 : ((P.checkedMul 4 m.dimension).bind fun rows =>
          ((P.checkedMul (e + 2) (m.dimension * m.dimension)).bind fun x => P.checkedAdd x rows).bind fun size =>
            checkedSub size 2) = some (4 * m.dimension + (e + 2) * (m.dimension * m.dimension) - 2) := by
    have a1 : P.checkedMul 4 m.dimension = some (4 * m.dimension) := by
      unfold Platform.checkedMul; rw [if_pos (by omega)]
    have a2 : P.checkedMul (e + 2) (m.dimension * m.dimension) = some ((e + 2) * (m.dimension * m.dimension)) := by
      unfold Platform.checkedMul; rw [if_pos (by omega)]
    rw [a1, a2]
    simp only [Option.bind_some]
    unfold Platform.checkedAdd
    rw [if_pos (by omega)]
    simp only [Option.bind_some]
    unfold checkedSub
    rw [if_pos (by omega), Nat.add_comm]
  rw [h1]
  simp only [Res.ofOption, Res.bind_ok]
  rw [h2]
  simp only [Res.bind_ok]
  rw [h3]
  simp only [Res.bind_ok]
  cases ha : P.alloc (4 * m.dimension + (e + 2) * (m.dimension * m.dimension) - 2) with
  | false => rfl
  | true =>
    simp only [Bool.not_true, Bool.false_eq_true, if_false, if_true]
    have ht' : ∀ row, templateRow m.dimension e (digitsOf F (extremes F o₁ m) - 1) row =
      rowText m.dimension (fun _ _ => zeroCell e (digitsOf F (extremes F o₁ m) - 1)) row := templateRow_eq _ _ _
    rw [List.flatMap_congr (fun r _ => ht' r), writeChars_full, Res.bind_ok, Platform.usizeMul_ok (by omega),
      Res.bind_ok, Platform.usizeAdd_ok (by
        have : m.dimension * (e + 2) + 4 ≤ 4 * m.dimension + (e + 2) * (m.dimension * m.dimension) := by omega
        omega), Res.bind_ok]
    · rw [writeAll (text := text) (by omega) hsize]
      · rw [grid_eq _ hd]
        congr 1
        apply grid_congr
        intro c _ r _
        have hmem : ∀ v, (c, r, v) ∈ cells o₂ m ↔ m.at? c r = some v := by
          intro v
          exact ((flatO_perm o₂ m.edgesTable).mem_iff).trans mem_flat
        cases hat : m.at? c r with
        | none =>
          rw [putAll_absent]
          intro v hv
          rw [hmem, hat] at hv
          cases hv
        | some v =>
          refine putAll_present text _ c r v ?_ ((hmem v).2 hat) _
          exact (((flatO_perm o₂ m.edgesTable).map _).nodup_iff).2 (flat_keys_nodup m.edgesTable)
      · rintro ⟨c, r, v⟩ hx
        have hat : m.at? c r = some v := mem_flat.1 (((flatO_perm o₂ m.edgesTable).mem_iff).1 hx)
        have hb := hw.bound (c, r) (mem_keys.2 ⟨v, hat⟩)
        exact ⟨hb.1, hb.2, ht c r v hat⟩
      · intro c _ r _; exact zeroCell_length _ _
    · have := rows_length m.dimension e hd (fun _ _ => zeroCell e (digitsOf F (extremes F o₁ m) - 1))
        (fun _ _ _ _ => zeroCell_length _ _)
      rw [List.length_replicate]
      omega

theorem toString_tooLarge {P : Platform} {F : NumFmt T} (o₁ o₂ : HashOrder) {m : SqMatrix T} {d : Nat}
    (hd : m.dimension ≠ 0) (hpos : 1 ≤ digitsOf F (extremes F o₁ m)) {e : Nat}
    (he : e = cellWidth F (extremes F o₁ m) d) (hfit : e + 2 ≤ P.usizeMax)
    (hsize : ¬ 4 * m.dimension + (e + 2) * (m.dimension * m.dimension) ≤ P.usizeMax) :
    ∃ msg, m.toStringWithPrecision P F o₁ o₂ d = .err (.CapacityOverflow msg) := by
  rw [toString_prefix P F o₁ o₂ m d hd hpos (by omega)]
  simp only [← he]
  unfold Platform.usizeTryFrom Platform.checkedMul
  by_cases h1 : m.dimension ≤ P.usizeMax
  case neg => rw [if_neg h1]; exact ⟨_, rfl⟩
  rw [if_pos h1]
  simp only [Res.ofOption, Res.bind_ok]
  by_cases h2 : m.dimension * m.dimension ≤ P.usizeMax
  case neg => rw [if_neg h2]; exact ⟨_, rfl⟩
  rw [if_pos h2]
  simp only [Res.bind_ok]
  have : ((if 4 * m.dimension ≤ P.usizeMax then some (4 * m.dimension) else none).bind fun rows =>
      ((if (e + 2) * (m.dimension * m.dimension) ≤ P.usizeMax then some ((e + 2) * (m.dimension * m.dimension))
        else none).bind fun x => P.checkedAdd x rows).bind fun size => checkedSub size 2) = none := by
    split
    · split
      · simp only [Option.bind_some]
        unfold Platform.checkedAdd
        rw [if_neg (by omega)]
        rfl
      · rfl
    · rfl
  rw [this]
  exact ⟨_, rfl⟩

end SqMatrix
end Verif
