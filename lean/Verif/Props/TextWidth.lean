import Verif.Props.FloatText
import Verif.Props.F32
import Verif.Props.Strings
import Verif.Lemmas.TextWrong

/-!
# C57, C68, C84: exactly when the printed matrix is right
-/

namespace Verif.Props
open Verif Spec

/-- Two right grids of the same texts have different sizes, unless their cells are equally wide. -/
theorem isGridOf_length {n : Nat} (hn : n ≠ 0) {text : Nat → Nat → List Char} {s : List Char} (h : IsGridOf n text s) :
    ∃ w, (∀ c < n, ∀ r < n, (text c r).length ≤ w) ∧ s.length + 2 = 4 * n + (w + 2) * (n * n) ∧
      s = grid n fun c r => rightAligned w (text c r) := by
  obtain ⟨w, h1, rfl⟩ := h
  exact ⟨w, h1, grid_length n w hn _ fun c hc r hr => rightAligned_length (h1 c hc r hr), rfl⟩

theorem asI128_small {q : ℚ} (h : |q| < 10 ^ 38) : F64.asI128 (.fin q) = integralPart q := by
  obtain ⟨h1, h2⟩ := abs_lt.1 h
  have a1 : -(10 : Int) ^ 38 ≤ ⌊q⌋ := by rw [Int.le_floor]; push_cast; exact h1.le
  have a2 : ⌈q⌉ ≤ (10 : Int) ^ 38 := by rw [Int.ceil_le]; push_cast; exact h2.le
  have a3 : ⌊q⌋ ≤ ⌈q⌉ := Int.floor_le_ceil q
  unfold F64.asI128 integralPart
  simp only
  split <;> omega

/-- The number of integral characters of a cell is the length of the longest integral part. -/
theorem digitsOf_widest {m : SqMatrix F64} (hwf : m.WF) (hne : m.entryCount ≠ 0)
    (hval : ∀ c r, ∃ q, m.getEntry f64Numeric c r = .fin q ∧ |q| < 10 ^ 38) {j : Nat}
    (hle : ∀ c r q, m.getEntry f64Numeric c r = .fin q → (numeral (integralPart q)).length ≤ j)
    (hat : ∃ c r q, m.getEntry f64Numeric c r = .fin q ∧ (numeral (integralPart q)).length = j) (o : HashOrder) :
    SqMatrix.digitsOf f64Fmt (SqMatrix.extremes f64Fmt o m) = j := by
  have hget : ∀ c r q, m.at? c r = some (.fin q) → m.getEntry f64Numeric c r = .fin q := by
    intro c r q h; rw [SqMatrix.getEntry_eq, h]; rfl
  have hst : ∀ c r v, m.at? c r = some v → ∃ q, v = .fin q ∧ |q| < 10 ^ 38 := by
    intro c r v hv
    obtain ⟨q, hq, h0⟩ := hval c r
    rw [SqMatrix.getEntry_eq, hv] at hq
    exact ⟨q, hq, h0⟩
  have hfm : (10 : ℚ) ^ 38 ≤ f64Max := by
    unfold f64Max
    calc (10 : ℚ) ^ 38 ≤ 1 * 2 ^ 127 := by norm_num
      _ ≤ _ := mul_le_mul (by norm_num) (pow_le_pow_right₀ (by norm_num) (by norm_num)) (by positivity) (by norm_num)
  have hex : ∃ c r v, m.at? c r = some v := by
    rw [hwf.count] at hne
    obtain ⟨p, hp⟩ := Finset.card_pos.1 (Nat.pos_of_ne_zero hne)
    obtain ⟨v, hv⟩ := SqMatrix.mem_keys.1 hp
    exact ⟨_, _, v, hv⟩
  obtain ⟨hi, lo, he, ⟨c1, r1, h1⟩, ⟨c2, r2, h2⟩, hbetw⟩ := (SqMatrix.extremes_fin (fun c r v hv => by
    obtain ⟨q, rfl, h1⟩ := hst c r v hv
    exact ⟨q, rfl, by linarith⟩) o).1 hex
  have b1 : |hi| < 10 ^ 38 := by obtain ⟨q, e, h⟩ := hst _ _ _ h1; cases e; exact h
  have b2 : |lo| < 10 ^ 38 := by obtain ⟨q, e, h⟩ := hst _ _ _ h2; cases e; exact h
  have hdc : ∀ q : ℚ, |q| < 10 ^ 38 → f64Fmt.digitCount (.fin q) = (numeral (integralPart q)).length := by
    intro q hq
    change (intChars (F64.asI128 (.fin q))).length = _
    rw [asI128_small hq, intChars_eq]
  rw [he]
  unfold SqMatrix.digitsOf
  simp only
  rw [hdc _ b1, hdc _ b2]
  apply le_antisymm
  · exact max_le (hle _ _ _ (hget _ _ _ h1)) (hle _ _ _ (hget _ _ _ h2))
  · obtain ⟨c, r, q, hq, rfl⟩ := hat
    rw [SqMatrix.getEntry_eq] at hq
    cases hm : m.at? c r with
    | none =>
      rw [hm] at hq
      have : F64.lit 0 = .fin q := hq
      rw [F64.lit_zero] at this
      cases this
      have : numeral (integralPart 0) = ['0'] := by unfold integralPart; simp [numeral_zero]
      rw [this]
      exact (numeral_length_pos _).trans (le_max_left _ _)
    | some v =>
      rw [hm] at hq
      simp only [Option.getD_some] at hq
      subst hq
      obtain ⟨k1, k2⟩ := hbetw _ _ _ hm
      obtain ⟨q', e, hq'⟩ := hst _ _ _ hm
      cases e
      rw [max_comm]
      have m1 := F64.asI128_fin_mono k1
      have m2 := F64.asI128_fin_mono k2
      rw [asI128_small hq', asI128_small b2] at m1
      rw [asI128_small hq', asI128_small b1] at m2
      rw [max_comm]
      exact numeral_length_between m1 m2

/-- The statement of `C68_exact` for any well-formed matrix. -/
theorem floatText_exact (P : Platform) {m : SqMatrix F64} (hwf : m.WF) (hne : m.entryCount ≠ 0) (d j : Nat) (hd : 1 ≤ d)
    (hval : ∀ c r, ∃ q, m.getEntry f64Numeric c r = .fin q ∧ |q| < 10 ^ 38)
    (hle : ∀ c r q, m.getEntry f64Numeric c r = .fin q → (numeral (integralPart q)).length ≤ j)
    (hat : ∃ c r q, m.getEntry f64Numeric c r = .fin q ∧ (numeral (integralPart q)).length = j)
    (hf : j + 1 + d ≤ P.fmtMax) (hu : j + 3 + d ≤ P.usizeMax) :
    ∃ text : Nat → Nat → List Char,
      (∀ c r, ∃ q, m.getEntry f64Numeric c r = .fin q ∧ IsDecimal d q (text c r)) ∧
      ∀ o₁ o₂, ((∀ c r, (text c r).length ≤ j + 1 + d) →
          ShowsText P m.dimension (j + 1 + d) text (m.toStringWithPrecision P f64Fmt o₁ o₂ d)) ∧
        ∀ s, m.toStringWithPrecision P f64Fmt o₁ o₂ d = .ok s →
          s.length + 2 = 4 * m.dimension + (j + 3 + d) * (m.dimension * m.dimension) ∧
          (IsGridOf m.dimension text s ↔ ∀ c r, (text c r).length ≤ j + 1 + d) := by
  have hdim : m.dimension ≠ 0 := by
    intro h0
    rw [hwf.count] at hne
    obtain ⟨p, hp⟩ := Finset.card_pos.1 (Nat.pos_of_ne_zero hne)
    have := hwf.bound p hp
    omega
  have hj1 : 1 ≤ j := by
    obtain ⟨c, r, q, _, h⟩ := hat
    rw [← h]
    exact numeral_length_pos _
  have hdig := fun o => digitsOf_widest hwf hne hval hle hat o
  have hfit := fun o₁ o₂ => SqMatrix.f64Text (P := P) o₁ o₂ hwf d hd (hdig o₁) hj1 (by omega)
  refine ⟨fun c r => f64Chars (m.getEntry f64Numeric c r) d, ?_, fun o₁ o₂ => ?_⟩
  · intro c r
    obtain ⟨q, hq, _⟩ := hval c r
    refine ⟨q, hq, ?_⟩
    beta_reduce
    rw [hq]
    exact isDecimal_f64Chars d hd q
  have hall : (∀ c r, (f64Chars (m.getEntry f64Numeric c r) d).length ≤ j + 1 + d) →
      ShowsText P m.dimension (j + 1 + d) (fun c r => f64Chars (m.getEntry f64Numeric c r) d)
        (m.toStringWithPrecision P f64Fmt o₁ o₂ d) := by
    intro h
    rw [Nat.add_assoc]
    refine hfit o₁ o₂ fun c r v hv => ?_
    have := h c r
    rw [SqMatrix.getEntry_eq, hv] at this
    have : (f64Chars v d).length ≤ j + 1 + d := this
    omega
  refine ⟨hall, fun s hs => ?_⟩
  have hmul : 4 * 1 ≤ 4 * m.dimension := by omega
  have hlen : s.length + 2 = 4 * m.dimension + (j + 3 + d) * (m.dimension * m.dimension) := by
    rcases SqMatrix.f64Text_total_at (P := P) (w := j + (1 + d)) o₁ o₂ hwf d (fun c r v hv => by
        obtain ⟨q, hq, h0⟩ := hval c r
        rw [SqMatrix.getEntry_eq, hv] at hq
        have : v = .fin q := hq
        subst this
        exact lt_trans h0 (by norm_num)) (by rw [hdig o₁]) (by omega) (by omega) with ⟨s', h1, h2⟩ | ⟨msg, h1, _⟩
    · rw [hs] at h1
      cases h1
      rw [h2, show j + (1 + d) + 2 = j + 3 + d by omega]
      omega
    · rw [hs] at h1
      cases h1
  refine ⟨hlen, ?_, fun h => ?_⟩
  · intro hg
    obtain ⟨w, h1, h2, -⟩ := isGridOf_length hdim hg
    have hpos : 0 < m.dimension * m.dimension := Nat.mul_pos (by omega) (by omega)
    have hw : w + 2 = j + 3 + d := Nat.eq_of_mul_eq_mul_right hpos (by omega)
    intro c r
    beta_reduce
    by_cases hb : c < m.dimension ∧ r < m.dimension
    · have := h1 c hb.1 r hb.2
      beta_reduce at this
      omega
    · have hnone : m.at? c r = none := by
        cases hm : m.at? c r with
        | none => rfl
        | some v => exact absurd (hwf.bound (c, r) (SqMatrix.mem_keys.2 ⟨v, hm⟩)) hb
      rw [SqMatrix.getEntry_eq, hnone]
      change (f64Chars (F64.lit 0) d).length ≤ _
      rw [F64.lit_zero, f64Chars_zero _ hd]
      simp
      omega
  · have hS := hall h
    refine ⟨j + 1 + d, fun c _ r _ => h c r, ?_⟩
    by_cases hsz : 4 * m.dimension + (j + 1 + d + 2) * (m.dimension * m.dimension) ≤ P.usizeMax
    · cases ha : P.alloc (4 * m.dimension + (j + 1 + d + 2) * (m.dimension * m.dimension) - 2) with
      | true =>
        have := hS.shows hdim hsz ha
        rw [hs] at this
        cases this
        rfl
      | false =>
        obtain ⟨msg, hm⟩ := hS.noMemory hdim hsz ha
        rw [hs] at hm
        cases hm
    · obtain ⟨msg, hm⟩ := hS.tooLarge hdim (by omega) (by omega)
      rw [hs] at hm
      cases hm

/-- **C68**, the exact rule.  A cell of a matrix of finite doubles below `10^38` has room for the longest integral part of an entry
(with its sign), a dot and `d` decimals.  The text is right exactly if every correctly rounded number fits; the numbers that do not fit
are those below zero whose integral part is 0 (`-0.5`) and those that rounding makes longer (`9.99`). -/
theorem C68_exact (P₀ P : Platform) (h : List (NumOp F64)) (m : SqMatrix F64)
    (hm : runNum f64Numeric P₀ h = .ok m) (hne : m.entryCount ≠ 0) (d j : Nat) (hd : 1 ≤ d)
    (hval : ∀ c r, ∃ q, m.getEntry f64Numeric c r = .fin q ∧ |q| < 10 ^ 38)
    (hle : ∀ c r q, m.getEntry f64Numeric c r = .fin q → (numeral (integralPart q)).length ≤ j)
    (hat : ∃ c r q, m.getEntry f64Numeric c r = .fin q ∧ (numeral (integralPart q)).length = j)
    (hf : j + 1 + d ≤ P.fmtMax) (hu : j + 3 + d ≤ P.usizeMax) :
    ∃ text : Nat → Nat → List Char,
      (∀ c r, ∃ q, m.getEntry f64Numeric c r = .fin q ∧ IsDecimal d q (text c r)) ∧
      ∀ o₁ o₂, ((∀ c r, (text c r).length ≤ j + 1 + d) →
          ShowsText P m.dimension (j + 1 + d) text (m.toStringWithPrecision P f64Fmt o₁ o₂ d)) ∧
        ∀ s, m.toStringWithPrecision P f64Fmt o₁ o₂ d = .ok s →
          s.length + 2 = 4 * m.dimension + (j + 3 + d) * (m.dimension * m.dimension) ∧
          (IsGridOf m.dimension text s ↔ ∀ c r, (text c r).length ≤ j + 1 + d) := by
  obtain ⟨hwf, _⟩ := values_inv (I := fun _ => True) h (fun _ _ _ _ => trivial) trivial (fun _ _ _ _ => trivial) hm
  exact floatText_exact P hwf hne d j hd hval hle hat hf hu

/-- C68: with the longest integral part `-12` all numbers fit; `-0.5` alone does not fit beside the integral part `0`, nor does
`9.96` with one decimal. -/
example : okAnd (runNum f64Numeric exP [.set (.fin (5 / 2)) 0 0, .set (.fin (-49 / 4)) 1 0]) (fun m =>
    okAnd (m.toStringWithPrecision exP f64Fmt HashOrder.id HashOrder.id 1) (fun s =>
      s == "[   2.5, -12.2 ]\r\n[   0.0,   0.0 ]".toList)) = true := by
  decide +kernel
example : okAnd (runNum f64Numeric exP [.set (.fin (-1 / 2)) 0 0, .set (.fin 1) 1 1]) (fun m =>
    okAnd (m.toStringWithPrecision exP f64Fmt HashOrder.id HashOrder.id 1) (fun s =>
      s == "[ -0.5 0.0 ]\r\n[ 0.0, 1.0 ]".toList)) = true := by
  decide +kernel
example : okAnd (runNum f64Numeric exP [.set (.fin (255 / 256 * 10)) 1 0]) (fun m =>
    okAnd (m.toStringWithPrecision exP f64Fmt HashOrder.id HashOrder.id 1) (fun s =>
      s == "[ 0.0, 10.0]\r\n[ 0.0, 0.0 ]".toList)) = true := by
  decide +kernel

/-- **C84**, the exact rule, as for doubles. -/
theorem C84_exact (P₀ P : Platform) (h : List (NumOp F64)) (hs : F32Sets h) (m : SqMatrix F64)
    (hm : runNum f32Numeric P₀ h = .ok m) (hne : m.entryCount ≠ 0) (d j : Nat) (hd : 1 ≤ d)
    (hval : ∀ c r, ∃ q, m.getEntry f32Numeric c r = .fin q ∧ |q| < 10 ^ 38)
    (hle : ∀ c r q, m.getEntry f32Numeric c r = .fin q → (numeral (integralPart q)).length ≤ j)
    (hat : ∃ c r q, m.getEntry f32Numeric c r = .fin q ∧ (numeral (integralPart q)).length = j)
    (hf : j + 1 + d ≤ P.fmtMax) (hu : j + 3 + d ≤ P.usizeMax) :
    ∃ text : Nat → Nat → List Char,
      (∀ c r, ∃ q, m.getEntry f32Numeric c r = .fin q ∧ IsDecimal d q (text c r)) ∧
      ∀ o₁ o₂, ((∀ c r, (text c r).length ≤ j + 1 + d) →
          ShowsText P m.dimension (j + 1 + d) text (m.toStringWithPrecision P f32Fmt o₁ o₂ d)) ∧
        ∀ s, m.toStringWithPrecision P f32Fmt o₁ o₂ d = .ok s →
          s.length + 2 = 4 * m.dimension + (j + 3 + d) * (m.dimension * m.dimension) ∧
          (IsGridOf m.dimension text s ↔ ∀ c r, (text c r).length ≤ j + 1 + d) := by
  obtain ⟨hwf, hv⟩ := f32_inv hs hm
  simp only [f32_getEntry] at hval hle hat ⊢
  simp only [SqMatrix.toString_f32 P _ _ hv d]
  exact floatText_exact P hwf hne d j hd hval hle hat hf hu

/-- C84: with the longest integral part `-12` all numbers fit; `-0.5` alone does not fit beside the integral part `0`, nor does
`9.96` with one decimal. -/
example : okAnd (runNum f32Numeric exP [.set (.fin (5 / 2)) 0 0, .set (.fin (-49 / 4)) 1 0]) (fun m =>
    okAnd (m.toStringWithPrecision exP f32Fmt HashOrder.id HashOrder.id 1) (fun s =>
      s == "[   2.5, -12.2 ]\r\n[   0.0,   0.0 ]".toList)) = true := by
  decide +kernel
example : okAnd (runNum f32Numeric exP [.set (.fin (-1 / 2)) 0 0, .set (.fin 1) 1 1]) (fun m =>
    okAnd (m.toStringWithPrecision exP f32Fmt HashOrder.id HashOrder.id 1) (fun s =>
      s == "[ -0.5 0.0 ]\r\n[ 0.0, 1.0 ]".toList)) = true := by
  decide +kernel
example : okAnd (runNum f32Numeric exP [.set (.fin (255 / 256 * 10)) 1 0]) (fun m =>
    okAnd (m.toStringWithPrecision exP f32Fmt HashOrder.id HashOrder.id 1) (fun s =>
      s == "[ 0.0, 10.0]\r\n[ 0.0, 0.0 ]".toList)) = true := by
  decide +kernel

/-- **C57**, the exact rule.  Whatever signed integers a matrix holds (`lo` the least stored entry, `hi` the greatest), a text that
`to_string_with_precision` returns is the grid of the entries exactly if no decimals are asked for, or no entry is negative, or the
numeral of `lo` is exactly one character longer than the numeral of `hi`. -/
theorem C57_exact (max : Nat) (hmax : 1 ≤ max) (P₀ P : Platform) (h : List (NumOp Int))
    (hset : ∀ x c r, NumOp.set x c r ∈ h → InRange max x) (m : SqMatrix Int)
    (hm : runNum (sintFmt max false).toNumeric P₀ h = .ok m) (d : Nat)
    (hf : (numeral (-(max : Int) - 1)).length + 1 ≤ P.fmtMax)
    (hu : (numeral (-(max : Int) - 1)).length + 3 + d ≤ P.usizeMax) (lo hi : Int)
    (hlo : ∃ o c r, (lo, c, r) ∈ m.items o) (hhi : ∃ o c r, (hi, c, r) ∈ m.items o)
    (hbet : ∀ o x c r, (x, c, r) ∈ m.items o → lo ≤ x ∧ x ≤ hi) (o₁ o₂ : HashOrder) (s : List Char)
    (hs : m.toStringWithPrecision P (sintFmt max false) o₁ o₂ d = .ok s) :
    IsGridOf m.dimension (fun c r => numeral (m.getEntry (sintFmt max false).toNumeric c r) ++ zeros d) s ↔
      d = 0 ∨ 0 ≤ lo ∨ (numeral lo).length = (numeral hi).length + 1 := by
  obtain ⟨hw, hb⟩ := sint_typed hmax hset hm
  have hI := sintFmt_isInt max false
  obtain ⟨h1, h2, -⟩ := SqMatrix.extremes_spec hI.lt hI.gt m hb o₁
  obtain ⟨ol, cl, rl, hlo⟩ := hlo
  obtain ⟨oh, ch, rh, hhi⟩ := hhi
  rw [SqMatrix.mem_items hw] at hlo hhi
  obtain ⟨⟨c1, r1, e1⟩, ⟨c2, r2, e2⟩⟩ := h2 ⟨_, _, _, hlo⟩
  have hlo' : (SqMatrix.extremes (sintFmt max false) o₁ m).2 = lo :=
    le_antisymm (h1 _ _ _ hlo).1 (hbet o₁ _ c2 r2 ((SqMatrix.mem_items hw o₁).2 e2)).1
  have hhi' : (SqMatrix.extremes (sintFmt max false) o₁ m).1 = hi :=
    le_antisymm (hbet o₁ _ c1 r1 ((SqMatrix.mem_items hw o₁).2 e1)).2 (h1 _ _ _ hhi).2
  have hdg := sint_digits_le (hasDec := false) hb o₁
  have hcw : SqMatrix.cellWidth (sintFmt max false) (SqMatrix.extremes (sintFmt max false) o₁ m) d ≤
      SqMatrix.digitsOf (sintFmt max false) (SqMatrix.extremes (sintFmt max false) o₁ m) + (1 + d) := by
    unfold SqMatrix.cellWidth
    split <;> omega
  constructor
  · intro hg
    by_contra hno
    rw [not_or, not_or] at hno
    obtain ⟨hd, hneg, hlen⟩ := hno
    refine SqMatrix.intText_wrong hI rfl o₁ o₂ hw hb (by omega) ?_ (by omega) ?_ ⟨_, _, _, hlo⟩ ?_ hs hg
    · unfold SqMatrix.digitsOf at hdg
      have := (le_max_left _ _).trans hdg
      omega
    · rw [hlo']; omega
    · rw [hI.digitCount, hI.digitCount, hlo', hhi']; exact hlen
  · intro hcase
    have hS := SqMatrix.intText (P := P) hI rfl o₁ o₂ hw hb d (by omega) (by
      rw [hI.digitCount, hI.digitCount, hlo', hhi']; exact hcase)
    have hbd := hw.bound (cl, rl) (SqMatrix.mem_keys.2 ⟨_, hlo⟩)
    simp only at hbd
    have hdim : m.dimension ≠ 0 := by omega
    generalize SqMatrix.cellWidth (sintFmt max false) (SqMatrix.extremes (sintFmt max false) o₁ m) d = w at hS hcw
    refine ⟨w, fun c hc r hr => hS.fits c r, ?_⟩
    by_cases hsz : 4 * m.dimension + (w + 2) * (m.dimension * m.dimension) ≤ P.usizeMax
    · cases ha : P.alloc (4 * m.dimension + (w + 2) * (m.dimension * m.dimension) - 2) with
      | true =>
        have := hS.shows hdim hsz ha
        rw [hs] at this
        cases this
        rfl
      | false =>
        obtain ⟨msg, hm⟩ := hS.noMemory hdim hsz ha
        rw [hs] at hm
        cases hm
    · obtain ⟨msg, hm⟩ := hS.tooLarge hdim (by omega) (by omega)
      rw [hs] at hm
      cases hm

/-- C57 with decimals: one character longer is right, equally long and two longer are both wrong. -/
example : okAnd (runNum i64Fmt.toNumeric exP [.set (-10) 0 1, .set 80 0 0]) (fun m =>
    okAnd (m.toStringWithPrecision exP i64Fmt HashOrder.id HashOrder.id 1) (fun s =>
      s == grid 2 fun c r => rightAligned 5 (numeral (m.getEntry i64Fmt.toNumeric c r) ++ zeros 1))) = true := by
  decide +kernel
example : okAnd (runNum i64Fmt.toNumeric exP [.set (-1) 0 1, .set 80 0 0]) (fun m =>
    okAnd (m.toStringWithPrecision exP i64Fmt HashOrder.id HashOrder.id 1) (fun s =>
      s == "[  80.0  0.0 ]\r\n[  -1.0  0.0 ]".toList)) = true := by
  decide +kernel
example : okAnd (runNum i64Fmt.toNumeric exP [.set (-100) 0 1, .set 80 0 0]) (fun m =>
    okAnd (m.toStringWithPrecision exP i64Fmt HashOrder.id HashOrder.id 1) (fun s =>
      s == "[  80.00,    0.0 ]\r\n[ -100.0,    0.0 ]".toList)) = true := by
  decide +kernel

end Verif.Props
