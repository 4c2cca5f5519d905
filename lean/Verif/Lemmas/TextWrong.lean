import Verif.Lemmas.TextTotal
import Verif.Lemmas.IntText

/-! What a character of the buffer of `to_string_with_precision` is after the entries have been written. -/

namespace Verif
open Spec

namespace SqMatrix

variable {T : Type}

theorem writeChars_get (cs : List Char) : ∀ (buffer b : List Char) (pos : Nat), writeChars buffer pos cs = .ok b → ∀ p,
    b[p]? = if pos ≤ p ∧ p < pos + cs.length then cs[p - pos]? else buffer[p]? := by
  induction cs with
  | nil =>
    intro buffer b pos h p
    cases h
    rw [if_neg (by simp)]
  | cons c cs ih =>
    intro buffer b pos h p
    unfold writeChars at h
    by_cases hlt : pos < buffer.length
    · rw [if_pos hlt] at h
      rw [ih _ _ _ h p]
      simp only [List.length_cons]
      by_cases hp : p = pos
      · subst hp
        rw [if_neg (by omega), if_pos (by omega), Nat.sub_self, List.getElem?_set_self hlt]
        rfl
      · rw [List.getElem?_set_ne (by omega)]
        by_cases hin : pos + 1 ≤ p ∧ p < pos + 1 + cs.length
        · rw [if_pos hin, if_pos (by omega), show p - pos = (p - (pos + 1)) + 1 by omega, List.getElem?_cons_succ]
        · rw [if_neg hin, if_neg (by omega)]
    · rw [if_neg hlt] at h
      cases h

theorem writeChars_length (cs : List Char) : ∀ (buffer b : List Char) (pos : Nat), writeChars buffer pos cs = .ok b →
    b.length = buffer.length := by
  induction cs with
  | nil => intro buffer b pos h; cases h; rfl
  | cons c cs ih =>
    intro buffer b pos h
    unfold writeChars at h
    split at h
    · rw [ih _ _ _ h, List.length_set]
    · cases h

theorem foldl_write_length {P : Platform} {F : NumFmt T} {highest lowest : T} {e d a b : Nat} (l : List (Nat × Nat × T)) :
    ∀ buffer s : List Char, Res.foldl (writeEntry P F highest lowest e d a b) buffer l = .ok s → s.length = buffer.length := by
  induction l with
  | nil => intro buffer s h; cases h; rfl
  | cons x l ih =>
    intro buffer s h
    have h' : (writeEntry P F highest lowest e d a b buffer x >>=
      fun b' => Res.foldl (writeEntry P F highest lowest e d a b) b' l) = .ok s := h
    obtain ⟨b₁, h1, h2⟩ := Res.bind_eq_ok.1 h'
    rw [ih _ _ h2]
    unfold writeEntry at h1
    simp only [Res.bind_eq_ok] at h1
    obtain ⟨_, _, _, _, _, _, _, _, _, _, h1⟩ := h1
    exact writeChars_length _ _ _ _ h1

/-- Where the text of an entry begins. -/
def startOf (n e : Nat) (x : Nat × Nat × T) : Nat := x.2.1 * (4 + n * (e + 2)) + 2 + (e + 2) * x.1

/-- If all entries that write to position `p` write the same character there, and one does, it is there in the end. -/
theorem foldl_write_get {P : Platform} {F : NumFmt T} {highest lowest : T} {e d n : Nat} {text : T → List Char}
    (hsize : 4 * n + (e + 2) * (n * n) ≤ P.usizeMax) (p : Nat) (ch : Char) (l : List (Nat × Nat × T))
    (hl : ∀ x ∈ l, x.1 < n ∧ x.2.1 < n ∧ formatEntry P F highest lowest e d x.2.2 = .ok (text x.2.2) ∧
      (startOf n e x ≤ p ∧ p < startOf n e x + (text x.2.2).length → (text x.2.2)[p - startOf n e x]? = some ch)) :
    ∀ buffer b : List Char,
      Res.foldl (writeEntry P F highest lowest e d (4 + n * (e + 2)) (e + 2)) buffer l = .ok b →
      (buffer[p]? = some ch ∨ ∃ x ∈ l, startOf n e x ≤ p ∧ p < startOf n e x + (text x.2.2).length) → b[p]? = some ch := by
  induction l with
  | nil =>
    intro buffer b h hp
    cases h
    rcases hp with hp | ⟨x, hx, _⟩
    · exact hp
    · cases hx
  | cons x l ih =>
    intro buffer b h hp
    obtain ⟨c, r, v⟩ := x
    obtain ⟨hc, hr, hf, hch⟩ := hl (c, r, v) (by simp)
    simp only at hc hr hf hch
    have hend := cell_end (e := e) hc hr
    have hstep : writeEntry P F highest lowest e d (4 + n * (e + 2)) (e + 2) buffer (c, r, v) =
        writeChars buffer (startOf n e (c, r, v)) (text v) := by
      have ha1 : asUsize P r = r := Nat.mod_eq_of_lt (by omega)
      have ha2 : asUsize P c = c := Nat.mod_eq_of_lt (by omega)
      unfold writeEntry startOf
      simp only [ha1, ha2]
      rw [Platform.usizeMul_ok (by omega), Res.bind_ok, Platform.usizeAdd_ok (by omega), Res.bind_ok,
        Platform.usizeMul_ok (by omega), Res.bind_ok, Platform.usizeAdd_ok (by omega), Res.bind_ok, hf, Res.bind_ok]
    have h' : (writeEntry P F highest lowest e d (4 + n * (e + 2)) (e + 2) buffer (c, r, v) >>=
      fun b' => Res.foldl (writeEntry P F highest lowest e d (4 + n * (e + 2)) (e + 2)) b' l) = .ok b := h
    rw [hstep] at h'
    cases hw : writeChars buffer (startOf n e (c, r, v)) (text v) with
    | err e => rw [hw] at h'; cases h'
    | panic => rw [hw] at h'; cases h'
    | ok b₁ =>
      rw [hw, Res.bind_ok] at h'
      refine ih (fun y hy => hl y (by simp [hy])) b₁ b h' ?_
      have hg := writeChars_get _ _ _ _ hw p
      by_cases hcov : startOf n e (c, r, v) ≤ p ∧ p < startOf n e (c, r, v) + (text v).length
      · left
        rw [hg, if_pos hcov]
        exact hch hcov
      · rw [if_neg hcov] at hg
        rcases hp with hp | ⟨x, hx, hcx⟩
        · left; rw [hg, hp]
        · rcases List.mem_cons.1 hx with rfl | hx
          · exact absurd hcx hcov
          · right; exact ⟨x, hx, hcx⟩

/-- Cells are far apart. -/
theorem startOf_apart {n e : Nat} {c r c' r' : Nat} {v v' : T} (hc : c < n) (hc' : c' < n)
    (h1 : startOf n e (c, r, v) < startOf n e (c', r', v') + (e + 2)) (h2 : startOf n e (c', r', v') < startOf n e (c, r, v) + (e + 2)) :
    c = c' ∧ r = r' := by
  unfold startOf at h1 h2
  simp only at h1 h2
  have key : ∀ {a b : Nat}, a < n → b < n → ∀ {i k : Nat}, i < k →
      i * (4 + n * (e + 2)) + 2 + (e + 2) * a + (e + 2) ≤ k * (4 + n * (e + 2)) + 2 + (e + 2) * b := by
    intro a b ha _ i k hik
    have t1 : (i + 1) * (4 + n * (e + 2)) ≤ k * (4 + n * (e + 2)) := Nat.mul_le_mul_right _ hik
    have t2 : (e + 2) * (a + 1) ≤ (e + 2) * n := Nat.mul_le_mul_left _ ha
    have t3 : (i + 1) * (4 + n * (e + 2)) = i * (4 + n * (e + 2)) + (4 + (e + 2) * n) := by ring
    have t4 : (e + 2) * (a + 1) = (e + 2) * a + (e + 2) := by ring
    omega
  rcases Nat.lt_trichotomy r r' with hr | hr | hr
  · have := key hc hc' hr; omega
  · subst hr
    refine ⟨?_, rfl⟩
    rcases Nat.lt_trichotomy c c' with h | h | h
    · have : (e + 2) * (c + 1) ≤ (e + 2) * c' := Nat.mul_le_mul_left _ h
      rw [Nat.mul_add, Nat.mul_one] at this
      omega
    · exact h
    · have : (e + 2) * (c' + 1) ≤ (e + 2) * c := Nat.mul_le_mul_left _ h
      rw [Nat.mul_add, Nat.mul_one] at this
      omega
  · have := key hc' hc hr; omega

/-- A successful call has written all entries over the template. -/
theorem toString_ok_fold {P : Platform} {F : NumFmt T} (o₁ o₂ : HashOrder) {m : SqMatrix T} {d : Nat}
    (hd : m.dimension ≠ 0) (hpos : 1 ≤ digitsOf F (extremes F o₁ m)) {e : Nat}
    (he : e = cellWidth F (extremes F o₁ m) d) (hfit : e + 2 ≤ P.usizeMax) {s : List Char}
    (hs : m.toStringWithPrecision P F o₁ o₂ d = .ok s) :
    4 * m.dimension + (e + 2) * (m.dimension * m.dimension) ≤ P.usizeMax ∧
    ∃ buffer, buffer.length + 2 = 4 * m.dimension + (e + 2) * (m.dimension * m.dimension) ∧
      Res.foldl (writeEntry P F (extremes F o₁ m).1 (extremes F o₁ m).2 e d (4 + m.dimension * (e + 2)) (e + 2))
      buffer (cells o₂ m) = .ok s := by
  by_cases hsize : 4 * m.dimension + (e + 2) * (m.dimension * m.dimension) ≤ P.usizeMax
  case neg =>
    obtain ⟨msg, h⟩ := toString_tooLarge (P := P) (F := F) o₁ o₂ hd hpos he hfit hsize
    rw [hs] at h
    cases h
  refine ⟨hsize, ?_⟩
  have hn1 : 1 ≤ m.dimension := by omega
  have hnn : m.dimension ≤ m.dimension * m.dimension := Nat.le_mul_of_pos_left _ (by omega)
  have hle1 : (e + 2) * 1 ≤ (e + 2) * (m.dimension * m.dimension) := Nat.mul_le_mul_left _ (by omega)
  have hle2 : m.dimension * m.dimension ≤ (e + 2) * (m.dimension * m.dimension) := Nat.le_mul_of_pos_left _ (by omega)
  have hle3 : m.dimension * (e + 2) ≤ (e + 2) * (m.dimension * m.dimension) := by
    rw [Nat.mul_comm]; exact Nat.mul_le_mul_left _ hnn
  rw [toString_prefix P F o₁ o₂ m d hd hpos (by omega)] at hs
  simp only [← he] at hs
  have h1 : P.usizeTryFrom m.dimension = some m.dimension := by unfold Platform.usizeTryFrom; rw [if_pos (by omega)]
  have h2 : P.checkedMul m.dimension m.dimension = some (m.dimension * m.dimension) := by
    unfold Platform.checkedMul; rw [if_pos (by omega)]
  have h3 : ((P.checkedMul 4 m.dimension).bind fun rows =>
          ((P.checkedMul (e + 2) (m.dimension * m.dimension)).bind fun x => P.checkedAdd x rows).bind fun size =>
            checkedSub size 2) = some (4 * m.dimension + (e + 2) * (m.dimension * m.dimension) - 2) := by
    have a1 : P.checkedMul 4 m.dimension = some (4 * m.dimension) := by
      unfold Platform.checkedMul; rw [if_pos (by omega)]
    have a2 : P.checkedMul (e + 2) (m.dimension * m.dimension) = some ((e + 2) * (m.dimension * m.dimension)) := by
      unfold Platform.checkedMul; rw [if_pos (by omega)]
    rw [a1, a2]
    simp only [Option.bind_some]
    unfold Platform.checkedAdd
    rw [if_pos (by omega)]
    simp only [Option.bind_some]
    unfold checkedSub
    rw [if_pos (by omega), Nat.add_comm]
  rw [h1] at hs
  simp only [Res.ofOption, Res.bind_ok] at hs
  rw [h2] at hs
  simp only [Res.bind_ok] at hs
  rw [h3] at hs
  simp only [Res.bind_ok] at hs
  have ht' : ∀ row, templateRow m.dimension e (digitsOf F (extremes F o₁ m) - 1) row =
    rowText m.dimension (fun _ _ => zeroCell e (digitsOf F (extremes F o₁ m) - 1)) row := templateRow_eq _ _ _
  have hrl := rows_length m.dimension e hd (fun _ _ => zeroCell e (digitsOf F (extremes F o₁ m) - 1))
    (fun _ _ _ _ => zeroCell_length _ _)
  cases ha : P.alloc (4 * m.dimension + (e + 2) * (m.dimension * m.dimension) - 2) with
  | false => rw [ha] at hs; cases hs
  | true =>
    rw [ha] at hs
    simp only [Bool.not_true, Bool.false_eq_true, if_false] at hs
    rw [List.flatMap_congr (fun r _ => ht' r), writeChars_full _ _ (by rw [List.length_replicate]; omega), Res.bind_ok,
      Platform.usizeMul_ok (by omega), Res.bind_ok, Platform.usizeAdd_ok (by
        have : m.dimension * (e + 2) + 4 ≤ 4 * m.dimension + (e + 2) * (m.dimension * m.dimension) := by omega
        omega), Res.bind_ok] at hs
    exact ⟨_, by omega, hs⟩

/-- A character of a right grid. -/
theorem grid_get {n e c r : Nat} (hc : c < n) (hr : r < n) {cell : Nat → Nat → List Char}
    (he : ∀ c < n, ∀ r < n, (cell c r).length = e) {k : Nat} (hk : k < e) :
    (grid n cell)[r * (4 + n * (e + 2)) + 2 + (e + 2) * c + k]? = (cell c r)[k]? := by
  rw [← grid_eq n (by omega)]
  obtain ⟨A, B, hA, hAB, -⟩ := rows_at n e c r hc hr cell he
  rw [hAB, ← hA, List.append_assoc, List.getElem?_append_right (by omega), Nat.add_sub_cancel_left,
    List.getElem?_append_left (by rw [he c hc r hr]; exact hk)]

theorem dot_notMem_numeral (z : Int) : '.' ∉ numeral z := by
  have h : ∀ n, '.' ∉ Nat.toDigits 10 n := by
    intro n hm
    have := Nat.isDigit_of_mem_toDigits (by norm_num) (by norm_num) hm
    exact absurd this (by decide)
  unfold numeral
  split
  · intro hm
    rcases List.mem_cons.1 hm with hm | hm
    · exact absurd hm (by decide)
    · exact h _ hm
  · exact h _

variable [LinearOrder T]

/-- With decimals, and a negative entry whose numeral is not exactly one character longer than the one of the largest
entry, no text is the right grid. -/
theorem intText_wrong {P : Platform} {F : NumFmt T} {toInt : T → Int} (hF : IsIntFmt F toInt) (hdec : F.hasDecimal = false)
    (o₁ o₂ : HashOrder) {m : SqMatrix T} (hw : m.WF) (hb : ∀ c r v, m.at? c r = some v → F.minV ≤ v ∧ v ≤ F.maxV)
    {d : Nat} (hd1 : 1 ≤ d) (hfm : F.digitCount (extremes F o₁ m).1 + 1 ≤ P.fmtMax)
    (hu : cellWidth F (extremes F o₁ m) d + 2 ≤ P.usizeMax)
    (hneg : toInt (extremes F o₁ m).2 < 0) (hst : ∃ c r v, m.at? c r = some v)
    (hlen : F.digitCount (extremes F o₁ m).2 ≠ F.digitCount (extremes F o₁ m).1 + 1) {s : List Char}
    (hs : m.toStringWithPrecision P F o₁ o₂ d = .ok s) :
    ¬ IsGridOf m.dimension (fun c r => numeral (toInt (m.getEntry F.toNumeric c r)) ++ zeros d) s := by
  obtain ⟨hbetween, hatt, _⟩ := extremes_spec hF.lt hF.gt m hb o₁
  obtain ⟨⟨c, r, hhi⟩, -⟩ := hatt hst
  have hbd := hw.bound (c, r) (mem_keys.2 ⟨_, hhi⟩)
  simp only at hbd
  have hdim : m.dimension ≠ 0 := by omega
  have hlens : ∀ c r v, m.at? c r = some v → (numeral (toInt v)).length ≤ digitsOf F (extremes F o₁ m) := by
    intro c r v h
    obtain ⟨h1, h2⟩ := hbetween c r v h
    unfold digitsOf
    rw [hF.digitCount, hF.digitCount]
    exact numeral_length_between ((hF.le_iff _ _).1 h1) ((hF.le_iff _ _).1 h2)
  have hpos : 1 ≤ digitsOf F (extremes F o₁ m) := by
    unfold digitsOf
    rw [hF.digitCount]
    exact (numeral_length_pos _).trans (le_max_left _ _)
  have hcw : cellWidth F (extremes F o₁ m) d = digitsOf F (extremes F o₁ m) + (1 + d) := by
    unfold cellWidth
    rw [hdec, Bool.false_or, if_pos (by simp; omega)]
  obtain ⟨hsize, buffer, hbl, hfold⟩ := toString_ok_fold (P := P) (F := F) o₁ o₂ hdim hpos rfl hu hs
  generalize hE : cellWidth F (extremes F o₁ m) d = e at *
  generalize hJ : digitsOf F (extremes F o₁ m) = j at *
  generalize hW : F.digitCount (extremes F o₁ m).1 + 1 = W at *
  have hWj : W ≠ j ∧ W ≤ j + 1 := by
    unfold digitsOf at hJ
    constructor
    · intro h
      subst h
      rcases Nat.le_total (F.digitCount (extremes F o₁ m).1) (F.digitCount (extremes F o₁ m).2) with hle | hle
      · rw [max_eq_right hle] at hJ; omega
      · rw [max_eq_left hle] at hJ; omega
    · have := le_max_left (F.digitCount (extremes F o₁ m).1) (F.digitCount (extremes F o₁ m).2)
      omega
  have hW1 : 1 ≤ W := by omega
  have hnle : m.dimension ≤ P.usizeMax := by
    have hnn : m.dimension ≤ m.dimension * m.dimension := Nat.le_mul_of_pos_left _ (by omega)
    have : m.dimension * m.dimension ≤ (e + 2) * (m.dimension * m.dimension) := Nat.le_mul_of_pos_left _ (by omega)
    omega
  have hlt : F.lt (extremes F o₁ m).2 F.zero = true := by
    rw [hF.lt, decide_eq_true_iff, hF.lt_iff, hF.zero]; exact hneg
  have hchar : s[startOf m.dimension e (c, r, (extremes F o₁ m).1) + W]? = some '.' := by
    refine foldl_write_get (P := P) (F := F) (text := fun v => rightAligned W (numeral (toInt v)) ++ ['.'] ++ List.replicate d '0')
      hsize _ '.' (cells o₂ m) ?_ buffer s hfold (.inr ⟨(c, r, (extremes F o₁ m).1), ?_, ?_⟩)
    · rintro ⟨c', r', v⟩ hx
      have hat : m.at? c' r' = some v := mem_flat.1 (((flatO_perm o₂ m.edgesTable).mem_iff).1 hx)
      have hb' := hw.bound (c', r') (mem_keys.2 ⟨v, hat⟩)
      have hl' := hlens _ _ _ hat
      refine ⟨hb'.1, hb'.2, ?_, ?_⟩
      · unfold formatEntry
        rw [hdec, if_pos (by simp; omega), hlt]
        simp only [if_true]
        rw [Platform.usizeAdd_ok (by omega), Res.bind_ok, hW, if_neg (by omega), hF.fmtW]
      · rintro ⟨k1, k2⟩
        simp only [List.length_append, List.length_replicate, List.length_cons, List.length_nil] at k2
        have hra : (rightAligned W (numeral (toInt v))).length ≤ j + 1 := by
          unfold rightAligned
          simp only [List.length_append, List.length_replicate]
          omega
        have hap := startOf_apart (e := e) (c := c) (c' := c') (v := (extremes F o₁ m).1) (v' := v) (r := r) (r' := r') hbd.1 hb'.1 (by omega) (by omega)
        obtain ⟨rfl, rfl⟩ := hap
        rw [hhi] at hat
        cases hat
        have hlen' : (rightAligned W (numeral (toInt (extremes F o₁ m).1))).length = W :=
          rightAligned_length (by have := hF.digitCount (extremes F o₁ m).1; omega)
        dsimp only
        rw [Nat.add_sub_cancel_left, List.append_assoc, List.getElem?_append_right (by omega), hlen', Nat.sub_self]
        rfl
    · exact ((flatO_perm o₂ m.edgesTable).mem_iff).2 (mem_flat.2 hhi)
    · have hlen' : (rightAligned W (numeral (toInt (extremes F o₁ m).1))).length = W :=
        rightAligned_length (by have := hF.digitCount (extremes F o₁ m).1; omega)
      simp only [List.length_append, List.length_replicate, List.length_cons, List.length_nil, hlen']
      omega
  rintro ⟨w, hfit, hg⟩
  have hgl := grid_length m.dimension w hdim (fun c r => rightAligned w (numeral (toInt (m.getEntry F.toNumeric c r)) ++ zeros d))
    (fun c hc r hr => rightAligned_length (hfit c hc r hr))
  rw [← hg, foldl_write_length _ _ _ hfold, hbl] at hgl
  have hpos' : 0 < m.dimension * m.dimension := Nat.mul_pos (by omega) (by omega)
  have hew : e + 2 = w + 2 := Nat.eq_of_mul_eq_mul_right hpos' (by omega)
  obtain rfl : w = e := by omega
  rw [hg] at hchar
  unfold startOf at hchar
  simp only at hchar
  rw [grid_get hbd.1 hbd.2 (fun c hc r hr => rightAligned_length (hfit c hc r hr)) (by omega), getEntry_eq, hhi,
    show w = j + (zeros d).length by unfold zeros; rw [if_neg (by omega)]; simp; omega, ← rightAligned_append] at hchar
  have hdc := hF.digitCount (extremes F o₁ m).1
  have hln := hlens _ _ _ hhi
  have hrl : (rightAligned j (numeral (toInt (extremes F o₁ m).1))).length = j := rightAligned_length hln
  simp only [Option.getD_some] at hchar
  unfold zeros at hchar
  rw [if_neg (by omega)] at hchar
  rcases Nat.lt_or_ge W j with hlt' | hge
  · rw [List.getElem?_append_left (by omega)] at hchar
    have hm := List.mem_of_getElem? hchar
    unfold rightAligned at hm
    rcases List.mem_append.1 hm with hm | hm
    · exact absurd (List.eq_of_mem_replicate hm) (by decide)
    · exact dot_notMem_numeral _ hm
  · obtain rfl : W = j + 1 := by omega
    rw [List.getElem?_append_right (by omega), hrl, show j + 1 - j = 0 + 1 by omega, List.getElem?_cons_succ] at hchar
    exact absurd (List.eq_of_mem_replicate (List.mem_of_getElem? hchar)) (by decide)

end SqMatrix
end Verif
