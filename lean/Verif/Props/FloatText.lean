import Mathlib.Algebra.Order.Archimedean.Basic
import Verif.Lemmas.F64Wide
import Verif.Props.Pooling
import Verif.Props.Strings

/-! # C67–C69: text of `f64` matrices -/

namespace Verif.Props
open Spec

/-! ## C67 -/

theorem showsText_no_panic {P : Platform} {n w : Nat} {text : Nat → Nat → List Char} {res : Res (List Char)}
    (h : ShowsText P n w text res) (hw : w + 2 ≤ P.usizeMax) : res ≠ .panic := by
  by_cases hn : n = 0
  · rw [h.empty hn]; simp
  · by_cases hsz : 4 * n + (w + 2) * (n * n) ≤ P.usizeMax
    · cases hal : P.alloc (4 * n + (w + 2) * (n * n) - 2) with
      | true => rw [h.shows hn hsz hal]; simp
      | false => obtain ⟨msg, e⟩ := h.noMemory hn hsz hal; rw [e]; simp
    · obtain ⟨msg, e⟩ := h.tooLarge hn hw (by omega); rw [e]; simp

theorem one_le_f64Max : (1 : ℚ) ≤ f64Max := by
  unfold f64Max
  have : (1 : ℚ) ≤ 2 ^ 971 := one_le_pow₀ (by norm_num)
  have h2 : (1 : ℚ) ≤ 2 ^ 53 - 1 := by norm_num
  calc (1 : ℚ) = 1 * 1 := by norm_num
    _ ≤ _ := mul_le_mul h2 this (by norm_num) (by norm_num)

theorem digits_unit {q : ℚ} (h0 : 0 ≤ q) (h1 : q ≤ 1) : f64Fmt.digitCount (.fin q) = 1 := by
  rw [digitCount_fin h0 (lt_of_le_of_lt h1 (by norm_num))]
  have hf : ⌊q⌋ ≤ 1 := by
    have := Int.floor_mono h1
    simpa using this
  apply le_antisymm _ Nat.length_toDigits_pos
  exact (Nat.length_toDigits_le_iff (by norm_num) (by norm_num)).2 (by omega)

theorem asI128_max : F64.asI128 (.fin f64Max) = 2 ^ 127 - 1 := by
  have hp : (0 : ℚ) ≤ f64Max := le_trans (by norm_num) one_le_f64Max
  unfold F64.asI128
  simp only
  rw [if_neg (not_lt.2 hp)]
  have : f64Max = (((2 ^ 53 - 1) * 2 ^ 971 : ℤ) : ℚ) := by
    unfold f64Max; rw [Int.cast_mul, Int.cast_pow]; norm_num
  rw [this, Int.floor_intCast]
  decide +kernel

/-- The matrix of a graph without edges has no column table at all. -/
theorem pool_empty_table {g : Graph} (hg : GReach g) (h0 : g.edgeCount = 0) {P : Platform} {o : HashOrder} {b : Nat}
    {m : SqMatrix F64} (hm : g.findAvgPoolMatrix P o b = .ok m) : m.edgesTable.entries.length = 0 := by
  have hi : g.adjacencyMatrix.items o = [] := by
    rw [← List.length_eq_zero_iff, AdjMatrix.items_length hg.ok.wf]; exact h0
  unfold Graph.findAvgPoolMatrix at hm
  by_cases hn : g.vertexCount = 0
  · rw [if_pos hn] at hm; cases hm; rfl
  · rw [if_neg hn] at hm
    simp only [hi, Graph.countBlocks, Res.foldl] at hm
    rw [Res.bind_ok, Res.bind_eq_ok] at hm
    obtain ⟨sq, _, hm⟩ := hm
    cases hm
    rw [SqMatrix.setMinimumDimension_eq]
    rfl

/-- With no decimals a number between 0 and 1 is shown as the nearest of 0 and 1 (0 for one half). -/
theorem f64Chars_unit {q : ℚ} (h0 : 0 ≤ q) (h1 : q ≤ 1) : f64Chars (.fin q) 0 = if q ≤ 1 / 2 then ['0'] else ['1'] := by
  have hr : F64.roundEven q = if q ≤ 1 / 2 then 0 else 1 := by
    by_cases h : q = 1
    · subst h; rw [if_neg (by norm_num)]; exact_mod_cast F64.roundEven_int 1
    · have hf : ⌊q⌋ = 0 := by rw [Int.floor_eq_zero_iff]; exact ⟨h0, lt_of_le_of_ne h1 h⟩
      unfold F64.roundEven
      simp only [hf]
      push_cast
      rw [sub_zero]
      rcases lt_trichotomy q (1 / 2) with h | h | h
      · rw [if_pos h, if_pos h.le]
      · subst h; norm_num
      · rw [if_neg (by linarith), if_pos h, if_neg (by linarith)]
  unfold f64Chars
  simp only
  rw [if_neg (not_lt.2 h0), abs_of_nonneg h0, pow_zero, mul_one, hr]
  split <;> decide

/-- Text of a pooled matrix, any number of decimals. -/
theorem pooled_shows {g : Graph} (hg : GReach g) (P : Platform) (o : HashOrder) (b : Nat)
    (hb : effBlock g.vertexCount b < 2 ^ 32) (d : Nat) (hf : d + 40 ≤ P.fmtMax) :
    ∃ m, g.findAvgPoolMatrix P o b = .ok m ∧
      (∀ c r v, m.at? c r = some v → ∃ q, v = .fin q ∧ 0 ≤ q ∧ q ≤ 1) ∧
      (∀ c r v, m.at? c r = some v → v ≠ .fin 0) ∧
      ∀ o₁ o₂, ShowsText P m.dimension (if g.edgeCount = 0 then d + 40 else d + 2)
        (fun c r => match m.at? c r with | some v => f64Chars v d | none => '0' :: '.' :: List.replicate d '0')
        (m.toStringWithPrecision P f64Fmt o₁ o₂ d) := by
  obtain ⟨m, hm, hdim, hmem, hne, _, _, hin, hsum⟩ := C38_pooling_covers hg P o o b hb
  have hwf : m.WF := (Graph.pool_any hg.ok hm).1
  have hval : ∀ c r v, m.at? c r = some v → ∃ q, v = .fin q ∧ 0 ≤ q ∧ q ≤ 1 := by
    by_cases hn : g.vertexCount = 0
    · unfold Graph.findAvgPoolMatrix at hm
      rw [if_pos hn] at hm
      cases hm
      intro c r v h
      rw [SqMatrix.new_at] at h; cases h
    · rw [← clamp_eff hn] at hb
      obtain ⟨m', hm', _, _, hat⟩ := Graph.pool_ok hg.ok P o b hn hb
      rw [hm] at hm'
      cases hm'
      have hpos := Graph.clamp_pos (b := b) hn
      intro c r v h
      rw [hat] at h
      split at h
      · cases h
      · cases h
        have h1 : 1 ≤ Graph.clampBlockDimension g.vertexCount b * Graph.clampBlockDimension g.vertexCount b :=
          Nat.mul_pos hpos hpos
        exact ⟨_, rfl, F64.poolQ_nonneg h1 (Graph.sq_le_U64 hb) _,
          F64.poolQ_le_one h1 (Graph.sq_le_U64 hb) (Graph.blockCount_le _ _ _ _)⟩
  have hnz : ∀ c r v, m.at? c r = some v → v ≠ .fin 0 := by
    intro c r v h
    have hpos : 0 < blockCount g.doesEdgeExist (effBlock g.vertexCount b) c r := by
      rw [← hmem]
      exact ⟨v, (SqMatrix.mem_items hwf o).2 h⟩
    have := (hne c r).2 hpos
    rw [SqMatrix.getEntry_eq, h] at this
    exact this
  have hlen : ∀ c r v, m.at? c r = some v → (f64Chars v d).length ≤ 1 + (1 + d) := by
    intro c r v h
    obtain ⟨q, rfl, h0, h1⟩ := hval c r v h
    by_cases hd : 1 ≤ d
    swap
    · obtain rfl : d = 0 := by omega
      rw [f64Chars_unit h0 h1]
      split <;> decide
    apply f64Chars_length_le hd (le_refl _) h0
    have : 1 / (2 * 10 ^ d : ℚ) ≤ 1 := by
      rw [div_le_one (by positivity)]
      have : (1 : ℚ) ≤ 10 ^ d := one_le_pow₀ (by norm_num)
      linarith
    linarith
  have hb' : ∀ c r v, m.at? c r = some v → ∃ q, v = .fin q ∧ |q| ≤ f64Max := by
    intro c r v h
    obtain ⟨q, rfl, h0, h1⟩ := hval c r v h
    exact ⟨q, rfl, by rw [abs_of_nonneg h0]; exact h1.trans one_le_f64Max⟩
  have hshow : ∀ o₁ o₂, ShowsText P m.dimension (if g.edgeCount = 0 then d + 40 else d + 2)
      (fun c r => match m.at? c r with | some v => f64Chars v d | none => '0' :: '.' :: List.replicate d '0')
      (m.toStringWithPrecision P f64Fmt o₁ o₂ d) := by
    intro o₁ o₂
    obtain ⟨he1, he2⟩ := SqMatrix.extremes_fin hb' o₁
    by_cases h0 : g.edgeCount = 0
    · rw [if_pos h0, show d + 40 = 39 + (1 + d) by omega]
      have htab := pool_empty_table hg h0 hm
      have hnone : ∀ c r, m.at? c r = none := by
        intro c r
        have : m.edgesTable.entries = [] := List.length_eq_zero_iff.1 htab
        simp [SqMatrix.at?, get2, HMap.get?, this, HMap.lookup]
      apply SqMatrix.f64Text₀ o₁ o₂ hwf d
      · rw [he2 hnone, if_pos htab]
        unfold SqMatrix.digitsOf
        simp only
        rw [digits_unit (le_refl _) (by norm_num)]
        change max 1 (intChars (F64.asI128 (.fin f64Max))).length = 39
        rw [asI128_max]
        decide +kernel
      · omega
      · omega
      · intro c r v h; rw [hnone] at h; cases h
    · rw [if_neg h0, show d + 2 = 1 + (1 + d) by omega]
      have hst : ∃ c r v, m.at? c r = some v := by
        by_contra hcon
        apply h0
        rw [← hsum]
        apply Finset.sum_eq_zero
        intro p _
        by_contra hp
        obtain ⟨v, hv⟩ := (hmem p.1 p.2).2 (Nat.pos_of_ne_zero hp)
        have := (hne p.1 p.2).2 (Nat.pos_of_ne_zero hp)
        rw [SqMatrix.getEntry_eq] at this
        cases hat : m.at? p.1 p.2 with
        | none => rw [hat] at this; exact this F64.lit_zero
        | some v => exact hcon ⟨_, _, v, hat⟩
      obtain ⟨hi, lo, hex, ⟨c1, r1, h1⟩, ⟨c2, r2, h2⟩, _⟩ := he1 hst
      apply SqMatrix.f64Text₀ o₁ o₂ hwf d
      · rw [hex]
        obtain ⟨q1, e1, a1, b1⟩ := hval _ _ _ h1
        obtain ⟨q2, e2, a2, b2⟩ := hval _ _ _ h2
        cases e1
        cases e2
        unfold SqMatrix.digitsOf
        simp only
        rw [digits_unit a1 b1, digits_unit a2 b2]; rfl
      · omega
      · omega
      · exact hlen
  exact ⟨m, hm, hval, hnz, hshow⟩

/-- **C67.** Text of a pooled matrix (block dimension below `2^32`) with at least one decimal: every entry is a number
between 0 and 1 and is shown with exactly `d` decimals, correctly rounded, right-aligned in cells `d + 2` wide
(`d + 40` if the graph has no edge: an oddity of the code); or a capacity error; no panic.  (The bound on `fmtMax`, the
largest precision `format!` accepts, is 65535 in recent versions of Rust.) -/
theorem C67_pooled_text {g : Graph} (hg : GReach g) (P : Platform) (o : HashOrder) (b : Nat)
    (hb : effBlock g.vertexCount b < 2 ^ 32) (d : Nat) (hd : 1 ≤ d) (hf : d + 40 ≤ P.fmtMax) :
    ∃ m, g.findAvgPoolMatrix P o b = .ok m ∧
    ∃ text : Nat → Nat → List Char,
      (∀ c r, ∃ q, m.getEntry f64Numeric c r = .fin q ∧ 0 ≤ q ∧ q ≤ 1 ∧ IsDecimal d q (text c r)) ∧
      ∀ o₁ o₂, ShowsText P m.dimension (if g.edgeCount = 0 then d + 40 else d + 2) text
          (m.toStringWithPrecision P f64Fmt o₁ o₂ d) ∧
        (d + 42 ≤ P.usizeMax → m.toStringWithPrecision P f64Fmt o₁ o₂ d ≠ .panic) := by
  obtain ⟨m, hm, hval, _, hshow'⟩ := pooled_shows hg P o b hb d hf
  have hget : ∀ c r, ∃ q, m.getEntry f64Numeric c r = .fin q ∧ 0 ≤ q ∧ q ≤ 1 := by
    intro c r
    rw [SqMatrix.getEntry_eq]
    cases hat : m.at? c r with
    | none => exact ⟨0, F64.lit_zero, le_refl _, by norm_num⟩
    | some v => exact hval c r v hat
  have hshow : ∀ o₁ o₂, ShowsText P m.dimension (if g.edgeCount = 0 then d + 40 else d + 2)
      (fun c r => f64Chars (m.getEntry f64Numeric c r) d) (m.toStringWithPrecision P f64Fmt o₁ o₂ d) := by
    intro o₁ o₂
    have : (fun c r => f64Chars (m.getEntry f64Numeric c r) d) =
        (fun c r => match m.at? c r with | some v => f64Chars v d | none => '0' :: '.' :: List.replicate d '0') := by
      funext c r
      rw [SqMatrix.getEntry_eq]
      cases hat : m.at? c r with
      | none =>
        simp only [Option.getD_none]
        change f64Chars (F64.lit 0) d = _
        rw [F64.lit_zero, f64Chars_zero _ hd]
      | some v => rfl
    rw [this]
    exact hshow' o₁ o₂
  refine ⟨m, hm, _, ?_, fun o₁ o₂ => ⟨hshow o₁ o₂, ?_⟩⟩
  · intro c r
    obtain ⟨q, hq, h0, h1⟩ := hget c r
    refine ⟨q, hq, h0, h1, ?_⟩
    rw [hq]
    exact isDecimal_f64Chars d hd q
  · intro hu
    refine showsText_no_panic (hshow o₁ o₂) ?_
    split <;> omega

/-- C67 on a concrete graph, and the width of 42 characters on a graph without edges. -/
example : GReach exD ∧ effBlock exD.vertexCount 3 < 2 ^ 32 ∧
    okAnd (exD.findAvgPoolMatrix exP .id 3) (fun m =>
      okAnd (m.toStringWithPrecision exP f64Fmt HashOrder.id HashOrder.id 2) (fun s =>
        s == "[ 0.11, 0.11 ]\r\n[ 0.00, 0.00 ]".toList)) ∧
    okAnd ((Graph.newDirected.addVertex 0 none).findAvgPoolMatrix exP .id 1) (fun m =>
      okAnd (m.toText exP f64Fmt HashOrder.id HashOrder.id) (fun s => s.length == 46)) :=
  ⟨exD_reach, by decide, by decide +kernel, by decide +kernel⟩

/-! ## C70 -/

/-- **C70 (full statement).** With no decimals every entry of a pooled matrix is shown as the nearest whole number, in equally
wide cells, whenever a text is returned. -/
def C70_full : Prop :=
  ∀ (g : Graph), GReach g → ∀ (P : Platform) (o o₁ o₂ : HashOrder) (b : Nat) (m : SqMatrix F64) (s : List Char),
    effBlock g.vertexCount b < 2 ^ 32 → g.findAvgPoolMatrix P o b = .ok m →
    m.toStringWithPrecision P f64Fmt o₁ o₂ 0 = .ok s → ∃ w, ∃ text : Nat → Nat → List Char,
      (∀ c r, ∃ q, ∃ k : Nat, m.getEntry f64Numeric c r = .fin q ∧ |(k : ℚ) - q| ≤ 1 / 2 ∧ text c r = Nat.toDigits 10 k) ∧
      s = grid m.dimension fun c r => rightAligned w (text c r)

theorem grid_one (cell : Nat → Nat → List Char) : grid 1 cell = ['[', ' '] ++ cell 0 0 ++ [' ', ']'] := by
  simp [grid]

/-- The full statement is false: an entry that is 0 is shown as `0.`, with a decimal point. -/
theorem C70_full_false : ¬ C70_full := by
  intro hC
  have hok : okAnd ((Graph.newDirected.addVertex 0 none).findAvgPoolMatrix exP .id 1) (fun m =>
      okAnd (m.toStringWithPrecision exP f64Fmt HashOrder.id HashOrder.id 0) (fun s => s.contains '.') &&
        m.dimension == 1) = true := by decide +kernel
  obtain ⟨m, hm, hp⟩ := okAnd_elim hok
  simp only [Bool.and_eq_true, beq_iff_eq] at hp
  obtain ⟨hp, hdim⟩ := hp
  obtain ⟨s, hs, he⟩ := okAnd_elim hp
  obtain ⟨w, text, ht, hg⟩ := hC _ (.addVertex _ _ .newDirected) exP _ _ _ 1 m s (by decide) hm hs
  obtain ⟨q, k, _, _, hk⟩ := ht 0 0
  rw [hdim, grid_one, hk] at hg
  rw [hg] at he
  simp only [rightAligned, List.contains_eq_mem, List.mem_append, decide_eq_true_eq, List.mem_cons, List.mem_replicate,
    List.not_mem_nil, or_false] at he
  rcases he with (h | h | h) | h
  · rcases h with h | h <;> exact absurd h (by decide)
  · exact absurd h.2 (by decide)
  · have := Nat.isDigit_of_mem_toDigits (by norm_num) (by norm_num) h
    exact absurd this (by decide)
  · rcases h with h | h <;> exact absurd h (by decide)

/-- **C70 (partial: false as stated above, see `C70_full_false`).** With no decimals the entries that are not 0 are shown as
the nearest of 0 and 1, those that are 0 as `0.`; all in cells 2 wide (40 if the graph has no edge); or a
capacity error; no panic. -/
theorem C70_whole_numbers_partial {g : Graph} (hg : GReach g) (P : Platform) (o : HashOrder) (b : Nat)
    (hb : effBlock g.vertexCount b < 2 ^ 32) (hf : 40 ≤ P.fmtMax) :
    ∃ m, g.findAvgPoolMatrix P o b = .ok m ∧
    ∃ text : Nat → Nat → List Char,
      (∀ c r, ∃ q, m.getEntry f64Numeric c r = .fin q ∧ 0 ≤ q ∧ q ≤ 1 ∧
        text c r = if q = 0 then ['0', '.'] else if q ≤ 1 / 2 then ['0'] else ['1']) ∧
      ∀ o₁ o₂, ShowsText P m.dimension (if g.edgeCount = 0 then 40 else 2) text
          (m.toStringWithPrecision P f64Fmt o₁ o₂ 0) ∧
        (42 ≤ P.usizeMax → m.toStringWithPrecision P f64Fmt o₁ o₂ 0 ≠ .panic) := by
  obtain ⟨m, hm, hval, hnz, hshow⟩ := pooled_shows hg P o b hb 0 (by omega)
  simp only [Nat.zero_add] at hshow
  refine ⟨m, hm, _, ?_, fun o₁ o₂ => ⟨hshow o₁ o₂, fun hu => showsText_no_panic (hshow o₁ o₂) (by split <;> omega)⟩⟩
  intro c r
  rw [SqMatrix.getEntry_eq]
  cases hat : m.at? c r with
  | none => exact ⟨0, F64.lit_zero, le_refl _, by norm_num, rfl⟩
  | some v =>
    obtain ⟨q, rfl, h0, h1⟩ := hval c r v hat
    refine ⟨q, rfl, h0, h1, ?_⟩
    have hq : q ≠ 0 := fun e => hnz c r _ hat (by rw [e])
    simp only
    rw [if_neg hq, f64Chars_unit h0 h1]

/-- C70 on a concrete graph. -/
example : GReach exD ∧ effBlock exD.vertexCount 3 < 2 ^ 32 ∧ okAnd (exD.findAvgPoolMatrix exP .id 3) (fun m =>
      okAnd (m.toStringWithPrecision exP f64Fmt HashOrder.id HashOrder.id 0) (fun s =>
        s == "[  0,  0 ]\r\n[ 0., 0. ]".toList)) := ⟨exD_reach, by decide, by decide +kernel⟩

/-! ## C68 -/

/-- Every value stored by the history is a finite double. -/
def FiniteSets (h : List (NumOp F64)) : Prop := ∀ x c r, NumOp.set x c r ∈ h → ∃ q, x = .fin q ∧ |q| ≤ f64Max

/-- **C68** as one would expect it: with at least one decimal, the text of a matrix of finite doubles is a grid of
correctly rounded numbers in wide enough cells. -/
def C68_full : Prop :=
  ∀ (P : Platform) (h : List (NumOp F64)) (m : SqMatrix F64) (d : Nat) (o₁ o₂ : HashOrder) (s : List Char),
    FiniteSets h → runNum f64Numeric P h = .ok m → 1 ≤ d → m.dimension ≠ 0 →
    m.toStringWithPrecision P f64Fmt o₁ o₂ d = .ok s →
    ∃ (w : Nat) (text : Nat → Nat → List Char), (∀ c r, (text c r).length ≤ w ∧ ∃ q, m.getEntry f64Numeric c r = .fin q ∧ IsDecimal d q (text c r)) ∧
      s = grid m.dimension fun c r => rightAligned w (text c r)

/-- The witness: `-0.5` in a 1×1 matrix prints `[ -0.50]`, eating the space before the bracket. -/
theorem C68_full_false : ¬ C68_full := by
  intro hC
  have hok : okAnd (runNum f64Numeric exP [.set (.fin (-1 / 2)) 0 0]) (fun m =>
      okAnd (m.toStringWithPrecision exP f64Fmt HashOrder.id HashOrder.id 2) (fun s =>
        s == "[ -0.50]".toList) && m.dimension == 1) = true := by decide +kernel
  obtain ⟨m, hm, hp⟩ := okAnd_elim hok
  simp only [Bool.and_eq_true, beq_iff_eq] at hp
  obtain ⟨hp, hdim⟩ := hp
  obtain ⟨s, hs, he⟩ := okAnd_elim hp
  simp only [beq_iff_eq] at he
  obtain ⟨w, text, _, hg⟩ := hC exP _ m 2 _ _ s
    (by
      intro x c r hx
      simp only [List.mem_singleton, NumOp.set.injEq] at hx
      refine ⟨_, hx.1, ?_⟩
      have := one_le_f64Max
      rw [abs_le]; constructor <;> linarith)
    hm (by norm_num) (by omega) hs
  rw [hdim, grid_one, he] at hg
  have h1 : ("[ -0.50]".toList).reverse = [']', '0', '5', '.', '0', '-', ' ', '['] := by decide
  have := congrArg List.reverse hg
  rw [h1] at this
  simp at this

/-- With unlimited memory, printing a matrix of finite doubles does not panic. -/
def C68_no_panic_full : Prop :=
  ∀ (h : List (NumOp F64)) (m : SqMatrix F64) (d : Nat) (o₁ o₂ : HashOrder),
    FiniteSets h → runNum f64Numeric exP h = .ok m → 1 ≤ d → m.dimension ≤ 1 →
    m.toStringWithPrecision exP f64Fmt o₁ o₂ d ≠ .panic

/-- False: `2^150` has more than the 39 digits to which `as i128` saturates, and is written past the end of the buffer. -/
theorem C68_no_panic_full_false : ¬ C68_no_panic_full := by
  intro hC
  have hok : okAnd (runNum f64Numeric exP [.set (.fin (2 ^ 150)) 0 0]) (fun m =>
      decide (m.toStringWithPrecision exP f64Fmt HashOrder.id HashOrder.id 2 = .panic) && m.dimension == 1) = true := by
    decide +kernel
  obtain ⟨m, hm, hp⟩ := okAnd_elim hok
  simp only [Bool.and_eq_true, beq_iff_eq, decide_eq_true_eq] at hp
  refine hC _ m 2 _ _ ?_ hm (by norm_num) (by omega) hp.1
  intro x c r hx
  simp only [List.mem_singleton, NumOp.set.injEq] at hx
  refine ⟨_, hx.1, ?_⟩
  rw [abs_of_nonneg (by positivity)]
  unfold f64Max
  calc (2 : ℚ) ^ 150 = 1 * 2 ^ 150 := by norm_num
    _ ≤ _ := mul_le_mul (by norm_num) (pow_le_pow_right₀ (by norm_num) (by norm_num)) (by positivity) (by norm_num)

/-- The statement of C68 for any well-formed matrix. -/
theorem floatText (P : Platform) (m : SqMatrix F64) (hwf : m.WF) (hne : m.entryCount ≠ 0) (d j : Nat) (hd : 1 ≤ d) (hj1 : 1 ≤ j) (hj : j ≤ 38)
    (hval : ∀ c r, ∃ q, m.getEntry f64Numeric c r = .fin q ∧ 0 ≤ q ∧ q + 1 / (2 * 10 ^ d) < 10 ^ j)
    (hmax : j = 1 ∨ ∃ c r q, m.getEntry f64Numeric c r = .fin q ∧ 10 ^ (j - 1) ≤ q) (hf : j + 1 + d ≤ P.fmtMax) :
    ∃ text : Nat → Nat → List Char,
      (∀ c r, ∃ q, m.getEntry f64Numeric c r = .fin q ∧ IsDecimal d q (text c r)) ∧
      ∀ o₁ o₂, ShowsText P m.dimension (j + 1 + d) text (m.toStringWithPrecision P f64Fmt o₁ o₂ d) ∧
        (j + 3 + d ≤ P.usizeMax → m.toStringWithPrecision P f64Fmt o₁ o₂ d ≠ .panic) := by
  have hp : (0 : ℚ) < 1 / (2 * 10 ^ d) := by positivity
  have hst : ∀ c r v, m.at? c r = some v → ∃ q, v = .fin q ∧ 0 ≤ q ∧ q + 1 / (2 * 10 ^ d) < 10 ^ j := by
    intro c r v hv
    obtain ⟨q, hq, h0⟩ := hval c r
    rw [SqMatrix.getEntry_eq, hv] at hq
    exact ⟨q, hq, h0⟩
  have h38 : (10 : ℚ) ^ j ≤ 10 ^ 38 := pow_le_pow_right₀ (by norm_num) hj
  have hfm : (10 : ℚ) ^ 38 ≤ f64Max := by
    unfold f64Max
    calc (10 : ℚ) ^ 38 ≤ 1 * 2 ^ 127 := by norm_num
      _ ≤ _ := mul_le_mul (by norm_num) (pow_le_pow_right₀ (by norm_num) (by norm_num)) (by positivity) (by norm_num)
  have hex : ∃ c r v, m.at? c r = some v := by
    rw [hwf.count] at hne
    obtain ⟨p, hp⟩ := Finset.card_pos.1 (Nat.pos_of_ne_zero hne)
    obtain ⟨v, hv⟩ := SqMatrix.mem_keys.1 hp
    exact ⟨_, _, v, hv⟩
  have hshow : ∀ o₁ o₂, ShowsText P m.dimension (j + (1 + d)) (fun c r => f64Chars (m.getEntry f64Numeric c r) d)
      (m.toStringWithPrecision P f64Fmt o₁ o₂ d) := by
    intro o₁ o₂
    obtain ⟨hi, lo, he, ⟨c1, r1, h1⟩, ⟨c2, r2, h2⟩, hbetw⟩ := (SqMatrix.extremes_fin (fun c r v hv => by
      obtain ⟨q, rfl, h0, h1⟩ := hst c r v hv
      exact ⟨q, rfl, by rw [abs_of_nonneg h0]; linarith⟩) o₁).1 hex
    obtain ⟨q1, e1, a1, b1⟩ := hst _ _ _ h1
    obtain ⟨q2, e2, a2, b2⟩ := hst _ _ _ h2
    cases e1
    cases e2
    have dig : ∀ q : ℚ, 0 ≤ q → q < 10 ^ j → f64Fmt.digitCount (.fin q) ≤ j := by
      intro q h0 h1
      rw [digitCount_fin h0 (lt_of_lt_of_le h1 h38)]
      apply (Nat.length_toDigits_le_iff (by norm_num) hj1).2
      have : ⌊q⌋ < 10 ^ j := by rw [Int.floor_lt]; exact_mod_cast h1
      have h3 := Int.floor_nonneg.2 h0
      rw [Int.toNat_lt' (by positivity)]
      exact_mod_cast this
    apply SqMatrix.f64Text o₁ o₂ hwf d hd
    · rw [he]
      unfold SqMatrix.digitsOf
      simp only
      have t1 := dig hi a1 (by linarith)
      have t2 := dig lo a2 (by linarith)
      have t3 : j ≤ f64Fmt.digitCount (.fin hi) := by
        rw [digitCount_fin a1 (lt_of_lt_of_le (by linarith) h38)]
        rcases hmax with rfl | ⟨c, r, q, hq, hge⟩
        · exact Nat.length_toDigits_pos
        · by_contra hlt
          have hj2 : 0 < j - 1 := by
            have := Nat.length_toDigits_pos (b := 10) (n := ⌊hi⌋.toNat)
            omega
          have h3 := (Nat.length_toDigits_le_iff (b := 10) (n := ⌊hi⌋.toNat) (k := j - 1) (by norm_num) hj2).1
            (by omega)
          have hle : q ≤ hi := by
            rw [SqMatrix.getEntry_eq] at hq
            cases hat : m.at? c r with
            | none =>
              rw [hat] at hq
              have : F64.lit 0 = .fin q := hq
              rw [F64.lit_zero] at this
              cases this
              exact a1
            | some v =>
              rw [hat] at hq
              simp only [Option.getD_some] at hq
              subst hq
              exact (hbetw _ _ _ hat).2
          have h4 : ((10 ^ (j - 1) : ℕ) : ℤ) ≤ ⌊hi⌋ := by
            rw [Int.le_floor]
            push_cast
            exact hge.trans hle
          omega
      omega
    · exact hj1
    · omega
    · intro c r v hv
      obtain ⟨q, rfl, h0, h1⟩ := hst c r v hv
      exact f64Chars_length_le hd hj1 h0 h1
  refine ⟨fun c r => f64Chars (m.getEntry f64Numeric c r) d, ?_, fun o₁ o₂ => ⟨?_, fun hu => ?_⟩⟩
  · intro c r
    obtain ⟨q, hq, _⟩ := hval c r
    refine ⟨q, hq, ?_⟩
    beta_reduce
    rw [hq]
    exact isDecimal_f64Chars d hd q
  · rw [Nat.add_assoc]; exact hshow o₁ o₂
  · exact showsText_no_panic (hshow o₁ o₂) (by omega)

/-- **C68, the part that holds** (`C68_full` is false): non-negative entries, at least one of them stored, whose rounding
to `d ≥ 1` decimals does not produce more integral digits than the largest entry has (`j`, at most 38). -/
theorem C68_float_text_partial (P₀ P : Platform) (h : List (NumOp F64)) (m : SqMatrix F64)
    (hm : runNum f64Numeric P₀ h = .ok m) (hne : m.entryCount ≠ 0) (d j : Nat) (hd : 1 ≤ d) (hj1 : 1 ≤ j) (hj : j ≤ 38)
    (hval : ∀ c r, ∃ q, m.getEntry f64Numeric c r = .fin q ∧ 0 ≤ q ∧ q + 1 / (2 * 10 ^ d) < 10 ^ j)
    (hmax : j = 1 ∨ ∃ c r q, m.getEntry f64Numeric c r = .fin q ∧ 10 ^ (j - 1) ≤ q) (hf : j + 1 + d ≤ P.fmtMax) :
    ∃ text : Nat → Nat → List Char,
      (∀ c r, ∃ q, m.getEntry f64Numeric c r = .fin q ∧ IsDecimal d q (text c r)) ∧
      ∀ o₁ o₂, ShowsText P m.dimension (j + 1 + d) text (m.toStringWithPrecision P f64Fmt o₁ o₂ d) ∧
        (j + 3 + d ≤ P.usizeMax → m.toStringWithPrecision P f64Fmt o₁ o₂ d ≠ .panic) := by
  obtain ⟨hwf, _⟩ := values_inv (I := fun _ => True) h (fun _ _ _ _ => trivial) trivial (fun _ _ _ _ => trivial) hm
  exact floatText P m hwf hne d j hd hj1 hj hval hmax hf

/-- **C68, absence of panics, the part that holds** (`C68_no_panic_full` is false): if no finite entry has more than 39
integral digits (NaN, infinities and negative numbers allowed), printing with any precision either succeeds, with a text
of the computed size, or reports that this size is not representable or cannot be allocated. -/
theorem C68_no_panic_partial (P₀ P : Platform) (h : List (NumOp F64)) (m : SqMatrix F64)
    (hm : runNum f64Numeric P₀ h = .ok m) (d : Nat)
    (hval : ∀ c r q, m.getEntry f64Numeric c r = .fin q → |q| < 10 ^ 39)
    (hf : 41 + d ≤ P.fmtMax) (hu : 43 + d ≤ P.usizeMax) (o₁ o₂ : HashOrder) :
    ∃ w, 2 + d ≤ w ∧ w ≤ 41 + d ∧
      ((∃ s, m.toStringWithPrecision P f64Fmt o₁ o₂ d = .ok s ∧
        s.length = 4 * m.dimension + (w + 2) * (m.dimension * m.dimension) - 2) ∨
      (∃ msg, m.toStringWithPrecision P f64Fmt o₁ o₂ d = .err (.CapacityOverflow msg) ∧
        (P.usizeMax < 4 * m.dimension + (w + 2) * (m.dimension * m.dimension) ∨
        P.alloc (4 * m.dimension + (w + 2) * (m.dimension * m.dimension) - 2) = false))) := by
  obtain ⟨hwf, _⟩ := values_inv (I := fun _ => True) h (fun _ _ _ _ => trivial) trivial (fun _ _ _ _ => trivial) hm
  refine SqMatrix.f64Text_total o₁ o₂ hwf d ?_ hf hu
  intro c r v hv
  rcases v with _ | _ | q
  · trivial
  · trivial
  · refine hval c r q ?_
    rw [SqMatrix.getEntry_eq, hv]
    rfl

/-- `C68_no_panic_partial` applies to a matrix holding NaN, `-inf` and `-0.5`. -/
example : okAnd (runNum f64Numeric exP [.set .nan 0 0, .set (.inf true) 1 0, .set (.fin (-1 / 2)) 1 1])
    (fun m => okAnd (m.toStringWithPrecision exP f64Fmt HashOrder.id HashOrder.id 1)
      (fun s => s.length == 4 * 2 + (42 + 2) * 4 - 2)) = true := by
  decide +kernel

/-- C68 on the matrix of the documentation. -/
example : okAnd (runNum f64Numeric exP [.set (F64.lit (13 / 10)) 0 0, .set (.fin 1) 1 2,
      .set (F64.lit (847724 / 1000000)) 2 1, .set (F64.lit (107 / 10)) 1 0])
    (fun m => okAnd (m.toText exP f64Fmt HashOrder.id HashOrder.id)
      (fun s => s == "[  1.30, 10.70,  0.00 ]\r\n[  0.00,  0.00,  0.85 ]\r\n[  0.00,  1.00,  0.00 ]".toList)) = true := by
  decide +kernel

/-! ## C69 -/

/-- **C69** as one would expect it: `to_string` of a pooled matrix does not panic. -/
def C69_full : Prop :=
  ∀ (g : Graph), GReach g → ∀ (P : Platform) (o o₁ o₂ : HashOrder) (b : Nat) (m : SqMatrix F64),
    42 ≤ P.fmtMax → 65535 ≤ P.usizeMax → g.findAvgPoolMatrix P o b = .ok m → m.toText P f64Fmt o₁ o₂ ≠ .panic

/-- False: one vertex with a large number is enough, as `Display` turns the capacity error into a panic. -/
theorem C69_full_false : ¬ C69_full := by
  intro hC
  have hok : okAnd ((Graph.newDirected.addVertex (2 ^ 40) none).findAvgPoolMatrix exP HashOrder.id 1)
      (fun m => decide (m.toText exP f64Fmt HashOrder.id HashOrder.id = .panic)) = true := by decide +kernel
  obtain ⟨m, hm, hp⟩ := okAnd_elim hok
  exact hC _ (.addVertex _ _ .newDirected) exP .id _ _ 1 m (by decide) (by decide) hm (of_decide_eq_true hp)

/-- **C69, the part that holds** (`C69_full` is false): `to_string` of a pooled matrix (block dimension below `2^32`) returns
the two-decimal text if its size is representable and can be allocated, and panics exactly otherwise. -/
theorem C69_to_string_partial {g : Graph} (hg : GReach g) (P : Platform) (o o₁ o₂ : HashOrder) (b : Nat)
    (hb : effBlock g.vertexCount b < 2 ^ 32) (hf : 42 ≤ P.fmtMax) (hu : 65535 ≤ P.usizeMax) :
    ∃ m, g.findAvgPoolMatrix P o b = .ok m ∧
      let n := m.dimension
      let size := 4 * n + ((if g.edgeCount = 0 then 42 else 4) + 2) * (n * n)
      (n = 0 → m.toText P f64Fmt o₁ o₂ = .ok []) ∧
      (n ≠ 0 → size ≤ P.usizeMax → P.alloc (size - 2) = true →
        ∃ s, m.toText P f64Fmt o₁ o₂ = .ok s ∧ m.toStringWithPrecision P f64Fmt o₁ o₂ 2 = .ok s ∧ s.length = size - 2) ∧
      (n ≠ 0 → (P.usizeMax < size ∨ P.alloc (size - 2) = false) → m.toText P f64Fmt o₁ o₂ = .panic) := by
  obtain ⟨m, hm, text, _, h2⟩ := C67_pooled_text hg P o b hb 2 (by norm_num) (by omega)
  refine ⟨m, hm, ?_⟩
  have hs := (h2 o₁ o₂).1
  have hww : (if g.edgeCount = 0 then 2 + 40 else 2 + 2) = if g.edgeCount = 0 then 42 else 4 := rfl
  rw [hww] at hs
  have hw : (if g.edgeCount = 0 then 42 else 4) ≤ 42 := by split <;> omega
  generalize (if g.edgeCount = 0 then 42 else 4) = w at *
  generalize hnn : m.dimension = n at *
  intro n' size
  change (n = 0 → _) ∧ (n ≠ 0 → _) ∧ (n ≠ 0 → _)
  have hsize : size = 4 * n + (w + 2) * (n * n) := rfl
  refine ⟨?_, ?_, ?_⟩
  · intro hn
    unfold SqMatrix.toText
    change (match m.toStringWithPrecision P f64Fmt o₁ o₂ 2 with | .ok s => _ | .err _ => _ | .panic => _) = _
    rw [hs.empty hn]
  · intro hn hsz hal
    have := hs.shows hn hsz hal
    refine ⟨_, ?_, this, ?_⟩
    · unfold SqMatrix.toText
      change (match m.toStringWithPrecision P f64Fmt o₁ o₂ 2 with | .ok s => _ | .err _ => _ | .panic => _) = _
      rw [this]
    · have hl := grid_length n w hn (fun c r => rightAligned w (text c r))
        (fun c _ r _ => rightAligned_length (hs.fits c r))
      omega
  · intro hn hor
    unfold SqMatrix.toText
    change (match m.toStringWithPrecision P f64Fmt o₁ o₂ 2 with | .ok s => _ | .err _ => _ | .panic => _) = _
    have : ∃ msg, m.toStringWithPrecision P f64Fmt o₁ o₂ 2 = .err (.CapacityOverflow msg) := by
      by_cases hsz : size ≤ P.usizeMax
      · rcases hor with h | h
        · omega
        · exact hs.noMemory hn hsz h
      · exact hs.tooLarge hn (by omega) (by omega)
    obtain ⟨msg, e⟩ := this
    rw [e]

/-- C69 on a concrete graph. -/
example : GReach exD ∧ effBlock exD.vertexCount 3 < 2 ^ 32 ∧ 42 ≤ exP.fmtMax ∧ 65535 ≤ exP.usizeMax ∧
    okAnd (exD.findAvgPoolMatrix exP .id 3) (fun m => okAnd (m.toText exP f64Fmt HashOrder.id HashOrder.id)
      (fun s => s.length == 30)) := ⟨exD_reach, by decide, by decide, by decide, by decide +kernel⟩

end Verif.Props
