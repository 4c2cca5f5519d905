import Verif.Lemmas.IntText
import Verif.Props.Matrices
import Verif.Props.CCodec

/-!
# Text of matrices and graphs: C49–C51, C56, C57
-/

namespace Verif.Props
open Verif Spec

/-! ## C49 -/

theorem tryToString_ok {m : AdjMatrix} {P : Platform} (hn : m.dimension ≠ 0)
    (hsize : 4 * m.dimension + 3 * (m.dimension * m.dimension) ≤ P.usizeMax) :
    m.tryToString P =
      if P.alloc (4 * m.dimension + 3 * (m.dimension * m.dimension) - 2) then
        .ok (grid m.dimension fun c r => if m.getEntry c r = 0 then ['0'] else ['1'])
      else .err (.CapacityOverflow "Unable to allocate matrix string") := by
  have hnn : m.dimension * 1 ≤ m.dimension * m.dimension := Nat.mul_le_mul_left _ (by omega)
  unfold AdjMatrix.tryToString
  rw [if_neg hn]
  have h1 : P.usizeTryFrom m.dimension = some m.dimension := by unfold Platform.usizeTryFrom; rw [if_pos (by omega)]
  have h2 : P.checkedMul m.dimension m.dimension = some (m.dimension * m.dimension) := by
    unfold Platform.checkedMul; rw [if_pos (by omega)]
  have h3 : ((P.checkedMul 4 m.dimension).bind fun rows =>
        ((P.checkedMul 3 (m.dimension * m.dimension)).bind fun x => P.checkedAdd x rows).bind fun size =>
          checkedSub size 2) = some (4 * m.dimension + 3 * (m.dimension * m.dimension) - 2) := by
    have a1 : P.checkedMul 4 m.dimension = some (4 * m.dimension) := by
      unfold Platform.checkedMul; rw [if_pos (by omega)]
    have a2 : P.checkedMul 3 (m.dimension * m.dimension) = some (3 * (m.dimension * m.dimension)) := by
      unfold Platform.checkedMul; rw [if_pos (by omega)]
    rw [a1, a2]
    simp only [Option.bind_some]
    unfold Platform.checkedAdd
    rw [if_pos (by omega)]
    simp only [Option.bind_some]
    unfold checkedSub
    rw [if_pos (by omega), Nat.add_comm]
  rw [h1]
  simp only [Res.ofOption, Res.bind_ok]
  rw [h2]
  simp only [Res.bind_ok]
  rw [h3]
  simp only [Res.bind_ok]
  have : (List.range m.dimension).flatMap m.rowChars =
      grid m.dimension fun c r => if m.getEntry c r = 0 then ['0'] else ['1'] := by
    rw [← grid_eq _ hn]; rfl
  rw [this]

theorem tryToString_tooLarge {m : AdjMatrix} {P : Platform} (hn : m.dimension ≠ 0)
    (hsize : P.usizeMax < 4 * m.dimension + 3 * (m.dimension * m.dimension)) :
    ∃ msg, m.tryToString P = .err (.CapacityOverflow msg) := by
  unfold AdjMatrix.tryToString
  rw [if_neg hn]
  unfold Platform.usizeTryFrom Platform.checkedMul
  by_cases h1 : m.dimension ≤ P.usizeMax
  case neg => rw [if_neg h1]; exact ⟨_, rfl⟩
  rw [if_pos h1]
  simp only [Res.ofOption, Res.bind_ok]
  by_cases h2 : m.dimension * m.dimension ≤ P.usizeMax
  case neg => rw [if_neg h2]; exact ⟨_, rfl⟩
  rw [if_pos h2]
  simp only [Res.bind_ok]
  have : ((if 4 * m.dimension ≤ P.usizeMax then some (4 * m.dimension) else none).bind fun rows =>
      ((if 3 * (m.dimension * m.dimension) ≤ P.usizeMax then some (3 * (m.dimension * m.dimension))
        else none).bind fun x => P.checkedAdd x rows).bind fun size => checkedSub size 2) = none := by
    split
    · split
      · simp only [Option.bind_some]
        unfold Platform.checkedAdd
        rw [if_neg (by omega)]
        rfl
      · rfl
    · rfl
  rw [this]
  exact ⟨_, rfl⟩

/-- The text of a graph with `n` vertices and edges `edge`. -/
def graphText (n : Nat) (edge : Nat → Nat → Bool) : List Char :=
  grid n fun u v => if edge u v then ['1'] else ['0']

/-- **C49.** `matrix_string` of a graph: the grid of zeros and ones, with exactly the reserved number of
characters; it never panics, and fails exactly when that size is not representable or not available. -/
theorem C49_matrix_string (g : Graph) (P : Platform) :
    (g.vertexCount = 0 → g.matrixString P = .ok []) ∧
    (g.vertexCount ≠ 0 →
      let size := 4 * g.vertexCount + 3 * (g.vertexCount * g.vertexCount) - 2
      (size + 2 ≤ P.usizeMax → P.alloc size = true →
        g.matrixString P = .ok (graphText g.vertexCount g.doesEdgeExist)) ∧
      (P.usizeMax < size + 2 ∨ P.alloc size = false → ∃ msg, g.matrixString P = .err (.CapacityOverflow msg)) ∧
      (graphText g.vertexCount g.doesEdgeExist).length = size) := by
  have hcell : ∀ u v, (if g.adjacencyMatrix.getEntry u v = 0 then ['0'] else ['1']) =
      (if g.doesEdgeExist u v then ['1'] else ['0']) := by
    intro u v
    unfold Graph.doesEdgeExist
    by_cases h : g.adjacencyMatrix.getEntry u v = 0 <;> simp [h]
  refine ⟨?_, ?_⟩
  · intro h
    unfold Graph.matrixString AdjMatrix.tryToString
    rw [if_pos (show g.adjacencyMatrix.dimension = 0 from h)]
  · intro hn
    have hn' : g.adjacencyMatrix.dimension ≠ 0 := hn
    have hlen : (graphText g.vertexCount g.doesEdgeExist).length + 2 =
        4 * g.vertexCount + (1 + 2) * (g.vertexCount * g.vertexCount) :=
      grid_length _ 1 hn _ (by intro c _ r _; split <;> rfl)
    have hs : ∀ (_ : 4 * g.vertexCount + 3 * (g.vertexCount * g.vertexCount) - 2 + 2 ≤ P.usizeMax),
        g.matrixString P =
        if P.alloc (4 * g.vertexCount + 3 * (g.vertexCount * g.vertexCount) - 2) then
          .ok (graphText g.vertexCount g.doesEdgeExist)
        else .err (.CapacityOverflow "Unable to allocate matrix string") := by
      intro hsz
      unfold Graph.matrixString
      rw [tryToString_ok hn' (by unfold Graph.vertexCount at hsz; omega)]
      have : (grid g.adjacencyMatrix.dimension fun c r =>
          if g.adjacencyMatrix.getEntry c r = 0 then ['0'] else ['1']) =
          graphText g.vertexCount g.doesEdgeExist := by
        unfold graphText
        exact grid_congr _ (fun c _ r _ => hcell c r)
      rw [this]
      rfl
    refine ⟨?_, ?_, by omega⟩
    · intro hsz hal
      rw [hs hsz, if_pos hal]
    · intro h
      by_cases hsz : 4 * g.vertexCount + 3 * (g.vertexCount * g.vertexCount) - 2 + 2 ≤ P.usizeMax
      · rcases h with h | h
        · omega
        · rw [hs hsz, h]; exact ⟨_, rfl⟩
      · exact tryToString_tooLarge hn' (by unfold Graph.vertexCount at hsz; omega)

/-- C49 on a concrete graph. -/
example : okAnd (((Graph.newDirected.addEdge 0 1).addEdge 1 1).matrixString exP)
    (fun s => s == "[ 0, 0 ]\r\n[ 1, 1 ]".toList) = true := by decide +kernel

/-! ## C50 -/

theorem matrixString_inv {g : Graph} {P : Platform} {s : List Char} (h : g.matrixString P = .ok s) :
    (g.vertexCount = 0 ∧ s = []) ∨ (g.vertexCount ≠ 0 ∧ s = graphText g.vertexCount g.doesEdgeExist ∧
      s.length + 2 = 4 * g.vertexCount + 3 * (g.vertexCount * g.vertexCount)) := by
  obtain ⟨h0, h1⟩ := C49_matrix_string g P
  by_cases hn : g.vertexCount = 0
  · left
    rw [h0 hn] at h
    cases h
    exact ⟨hn, rfl⟩
  · right
    obtain ⟨a, b, c⟩ := h1 hn
    by_cases hok : 4 * g.vertexCount + 3 * (g.vertexCount * g.vertexCount) - 2 + 2 ≤ P.usizeMax ∧
        P.alloc (4 * g.vertexCount + 3 * (g.vertexCount * g.vertexCount) - 2) = true
    · rw [a hok.1 hok.2] at h
      cases h
      exact ⟨hn, rfl, by omega⟩
    · have : P.usizeMax < 4 * g.vertexCount + 3 * (g.vertexCount * g.vertexCount) - 2 + 2 ∨
          P.alloc (4 * g.vertexCount + 3 * (g.vertexCount * g.vertexCount) - 2) = false := by
        rcases Nat.lt_or_ge P.usizeMax (4 * g.vertexCount + 3 * (g.vertexCount * g.vertexCount) - 2 + 2) with h | h
        · exact Or.inl h
        · right
          cases hal : P.alloc (4 * g.vertexCount + 3 * (g.vertexCount * g.vertexCount) - 2) with
          | false => rfl
          | true => exact absurd ⟨h, hal⟩ hok
      obtain ⟨msg, hm⟩ := b this
      rw [hm] at h
      cases h

/-- **C50.** Equal texts come from graphs with the same vertices and the same edges (printed possibly on different
platforms). -/
theorem C50_matrix_string_injective {g g' : Graph} (hg : GReach g) (hg' : GReach g') (P P' : Platform) (s : List Char)
    (h : g.matrixString P = .ok s) (h' : g'.matrixString P' = .ok s) :
    g.vertexCount = g'.vertexCount ∧ (∀ u v, g.doesEdgeExist u v = g'.doesEdgeExist u v) ∧
      g.edgeCount = g'.edgeCount := by
  have hout : ∀ {g : Graph}, GReach g → ∀ u v, ¬ (u < g.vertexCount ∧ v < g.vertexCount) →
      g.doesEdgeExist u v = false := by
    intro g hg u v hb
    rw [Bool.eq_false_iff]
    intro he
    exact hb (hg.ok.wf.bound _ (Graph.doesEdgeExist_iff.1 he))
  have key : g.vertexCount = g'.vertexCount ∧ ∀ u v, g.doesEdgeExist u v = g'.doesEdgeExist u v := by
    rcases matrixString_inv h with ⟨hn, hs⟩ | ⟨hn, hs, hl⟩ <;> rcases matrixString_inv h' with ⟨hn', hs'⟩ | ⟨hn', hs', hl'⟩
    · refine ⟨by omega, fun u v => ?_⟩
      rw [hout hg u v (by omega), hout hg' u v (by omega)]
    · rw [hs] at hl'
      simp only [List.length_nil] at hl'
      omega
    · rw [hs'] at hl
      simp only [List.length_nil] at hl
      omega
    · have hnn : g.vertexCount = g'.vertexCount := by
        rcases Nat.lt_trichotomy g.vertexCount g'.vertexCount with hlt | heq | hgt
        · have := Nat.mul_le_mul (Nat.le_of_lt hlt) (Nat.le_of_lt hlt); omega
        · exact heq
        · have := Nat.mul_le_mul (Nat.le_of_lt hgt) (Nat.le_of_lt hgt); omega
      refine ⟨hnn, fun u v => ?_⟩
      by_cases hb : u < g.vertexCount ∧ v < g.vertexCount
      · have hgrid : graphText g.vertexCount g.doesEdgeExist = graphText g.vertexCount g'.doesEdgeExist := by
          rw [← hs, hnn, ← hs']
        have := grid_inj g.vertexCount 1 hn (by intro c _ r _; split <;> rfl) (by intro c _ r _; split <;> rfl)
          hgrid u hb.1 v hb.2
        revert this
        cases g.doesEdgeExist u v <;> cases g'.doesEdgeExist u v <;> decide
      · rw [hout hg u v hb, hout hg' u v (by omega)]
  refine ⟨key.1, key.2, ?_⟩
  have hp : g.pairs = g'.pairs := by
    ext ⟨u, v⟩
    rw [← Graph.doesEdgeExist_iff, ← Graph.doesEdgeExist_iff, key.2]
  change g.adjacencyMatrix.entryCount = g'.adjacencyMatrix.entryCount
  rw [hg.ok.wf.count, hg'.ok.wf.count]
  exact congrArg Finset.card hp

example : okAnd ((Graph.newDirected.addEdge 0 1).matrixString exP) (fun _ => true) = true := by decide +kernel

/-! ## C51 -/

theorem toDigits_u64_length {x : Nat} (h : x ≤ U64_MAX) : (Nat.toDigits 10 x).length ≤ 20 := by
  rw [Nat.length_toDigits_le_iff (by norm_num) (by norm_num)]
  unfold U64_MAX at h
  norm_num
  omega

theorem uint_digits_le {max : Nat} {m : SqMatrix Nat} (hb : ∀ c r v, m.at? c r = some v → v ≤ max) (o : HashOrder) :
    SqMatrix.digitsOf (uintFmt max) (SqMatrix.extremes (uintFmt max) o m) ≤ (numeral max).length := by
  have hb' : ∀ c r v, m.at? c r = some v → (uintFmt max).minV ≤ v ∧ v ≤ (uintFmt max).maxV :=
    fun c r v h => ⟨Nat.zero_le _, hb c r v h⟩
  obtain ⟨h1, h2, h3⟩ := SqMatrix.extremes_spec (uintFmt_isInt max).lt (uintFmt_isInt max).gt m hb' o
  have hbound : (SqMatrix.extremes (uintFmt max) o m).1 ≤ max ∧ (SqMatrix.extremes (uintFmt max) o m).2 ≤ max := by
    by_cases h : ∃ c r v, m.at? c r = some v
    · obtain ⟨⟨c1, r1, e1⟩, ⟨c2, r2, e2⟩⟩ := h2 h
      exact ⟨hb _ _ _ e1, hb _ _ _ e2⟩
    · have hnone : ∀ c r, m.at? c r = none := by
        intro c r
        cases hat : m.at? c r with
        | none => rfl
        | some v => exact absurd ⟨c, r, v, hat⟩ h
      rw [h3 hnone]
      exact ⟨by simp only; split <;> exact Nat.zero_le _, Nat.le_refl _⟩
  unfold SqMatrix.digitsOf
  rw [(uintFmt_isInt max).digitCount, (uintFmt_isInt max).digitCount]
  exact Nat.max_le.2 ⟨numeral_length_mono (by omega) (by exact_mod_cast hbound.1),
    numeral_length_mono (by omega) (by exact_mod_cast hbound.2)⟩

/-- The width of the cells of an unsigned matrix. -/
def uintWidth (max : Nat) (m : SqMatrix Nat) (d : Nat) : Nat :=
  SqMatrix.cellWidth (uintFmt max) (SqMatrix.extremes (uintFmt max) HashOrder.id m) d

theorem uint_text {max : Nat} {m : SqMatrix Nat} (hw : m.WF) (hb : ∀ c r v, m.at? c r = some v → v ≤ max)
    (P : Platform) (hP : (numeral max).length ≤ P.fmtMax) (d : Nat) (o₁ o₂ : HashOrder) :
    ShowsGrid P m.dimension d (uintWidth max m d) (fun c r => ((m.getEntry (uintFmt max).toNumeric c r : Nat) : Int))
      (m.toStringWithPrecision P (uintFmt max) o₁ o₂ d) := by
  have hb' : ∀ c r v, m.at? c r = some v → (uintFmt max).minV ≤ v ∧ v ≤ (uintFmt max).maxV :=
    fun c r v h => ⟨Nat.zero_le _, hb c r v h⟩
  have := SqMatrix.intText (P := P) (uintFmt_isInt max) rfl o₁ o₂ hw hb' d ((uint_digits_le hb o₁).trans hP)
    (Or.inr (Or.inl (by omega)))
  rwa [SqMatrix.extremes_indep (uintFmt_isInt max).lt (uintFmt_isInt max).gt m hb' o₁ HashOrder.id] at this

theorem uintWidth_eq (max : Nat) (m : SqMatrix Nat) (d : Nat) :
    uintWidth max m d = SqMatrix.digitsOf (uintFmt max) (SqMatrix.extremes (uintFmt max) HashOrder.id m) +
      (zeros d).length := by
  unfold uintWidth SqMatrix.cellWidth
  rw [zeros_length]; rfl

/-- The width is that of some shown number, if anything is stored. -/
theorem uintWidth_attained {max : Nat} {m : SqMatrix Nat} (hb : ∀ c r v, m.at? c r = some v → v ≤ max) (d : Nat)
    (h : ∃ c r v, m.at? c r = some v) :
    ∃ c r, uintWidth max m d = (numeral ((m.getEntry (uintFmt max).toNumeric c r : Nat) : Int) ++ zeros d).length := by
  have hb' : ∀ c r v, m.at? c r = some v → (uintFmt max).minV ≤ v ∧ v ≤ (uintFmt max).maxV :=
    fun c r v h => ⟨Nat.zero_le _, hb c r v h⟩
  obtain ⟨_, h2, _⟩ := SqMatrix.extremes_spec (uintFmt_isInt max).lt (uintFmt_isInt max).gt m hb' HashOrder.id
  obtain ⟨⟨c1, r1, e1⟩, ⟨c2, r2, e2⟩⟩ := h2 h
  rw [uintWidth_eq]
  unfold SqMatrix.digitsOf
  rw [(uintFmt_isInt max).digitCount, (uintFmt_isInt max).digitCount]
  rcases Nat.le_total (numeral ((SqMatrix.extremes (uintFmt max) HashOrder.id m).2 : Int)).length
    (numeral ((SqMatrix.extremes (uintFmt max) HashOrder.id m).1 : Int)).length with hle | hle
  · refine ⟨c1, r1, ?_⟩
    rw [SqMatrix.getEntry_eq, e1, List.length_append, Nat.max_eq_left hle]; rfl
  · refine ⟨c2, r2, ?_⟩
    rw [SqMatrix.getEntry_eq, e2, List.length_append, Nat.max_eq_right hle]; rfl

/-- Without stored entries, the width is that of the type's greatest number. -/
theorem uintWidth_nothing {max : Nat} {m : SqMatrix Nat} (hb : ∀ c r v, m.at? c r = some v → v ≤ max) (d : Nat)
    (hnone : ∀ c r, m.at? c r = none) :
    uintWidth max m d = (numeral (max : Int)).length + (zeros d).length := by
  have hb' : ∀ c r v, m.at? c r = some v → (uintFmt max).minV ≤ v ∧ v ≤ (uintFmt max).maxV :=
    fun c r v h => ⟨Nat.zero_le _, hb c r v h⟩
  obtain ⟨_, _, h3⟩ := SqMatrix.extremes_spec (uintFmt_isInt max).lt (uintFmt_isInt max).gt m hb' HashOrder.id
  rw [uintWidth_eq, h3 hnone]
  congr 1
  unfold SqMatrix.digitsOf
  rw [(uintFmt_isInt max).digitCount, (uintFmt_isInt max).digitCount]
  apply Nat.max_eq_right
  apply numeral_length_mono (by omega)
  simp only
  split
  · change ((0 : Nat) : Int) ≤ (max : Int); omega
  · change ((0 : Nat) : Int) ≤ (max : Int); omega

/-- **C51.** `matrix_string` of a compressed graph: there is one cell width (at most 20) such that in every hash
order the result is the grid of the stored blocks as right-aligned decimal numbers, or a capacity error; it never
panics.  If some block is non-zero the width is the length of the longest number, else 20.
(`16 ≤ usize` bits and `format!` widths up to 20 are guaranteed by Rust.) -/
theorem C51_compressed_matrix_string {c : CGraph} (hc : CReach c) (P : Platform) (hP : 65535 ≤ P.usizeMax)
    (hf : 20 ≤ P.fmtMax) :
    ∃ w ≤ 20, (((∃ i j, c.getCompressedMatrixEntry i j ≠ 0) →
        ∃ i j, w = (Nat.toDigits 10 (c.getCompressedMatrixEntry i j)).length) ∧
        ((∀ i j, c.getCompressedMatrixEntry i j = 0) → w = 20)) ∧
      ∀ o₁ o₂, c.matrixString P o₁ o₂ ≠ .panic ∧
        ShowsGrid P (max 1 ((c.vertexCount + 7) / 8)) 0 w (fun i j => ((c.getCompressedMatrixEntry i j : Nat) : Int))
          (c.matrixString P o₁ o₂) := by
  have hok := hc.ok
  have hb : ∀ i j v, c.adjacencyMatrix.at? i j = some v → v ≤ U64_MAX := by
    intro i j v h
    have := (hok.word i j v h).2
    unfold U64_MAX; omega
  have h20 : (numeral U64_MAX).length ≤ 20 := by
    rw [numeral_natCast]; exact toDigits_u64_length (Nat.le_refl _)
  have hw20 : uintWidth U64_MAX c.adjacencyMatrix 0 ≤ 20 := by
    rw [uintWidth_eq]
    have := uint_digits_le hb HashOrder.id
    simp only [zeros, if_true, List.length_nil]
    omega
  refine ⟨uintWidth U64_MAX c.adjacencyMatrix 0, hw20, ⟨?_, ?_⟩, ?_⟩
  · rintro ⟨i, j, hne⟩
    have hst : ∃ i j v, c.adjacencyMatrix.at? i j = some v := by
      refine ⟨i, j, ?_⟩
      unfold CGraph.getCompressedMatrixEntry at hne
      rw [SqMatrix.getEntry_eq] at hne
      cases hat : c.adjacencyMatrix.at? i j with
      | none => rw [hat] at hne; exact absurd rfl hne
      | some v => exact ⟨v, rfl⟩
    obtain ⟨i, j, h⟩ := uintWidth_attained hb 0 hst
    refine ⟨i, j, ?_⟩
    rw [h, numeral_natCast]
    simp only [zeros, if_true, List.append_nil]
    rfl
  · intro hz
    rw [uintWidth_nothing hb 0]
    · decide +kernel
    · intro i j
      cases hat : c.adjacencyMatrix.at? i j with
      | none => rfl
      | some v =>
        have h0 := hz i j
        unfold CGraph.getCompressedMatrixEntry at h0
        rw [SqMatrix.getEntry_eq, hat] at h0
        exact absurd h0 (hok.word i j v hat).1
  · intro o₁ o₂
    have hs := uint_text hok.wf hb P (h20.trans hf) 0 o₁ o₂
    have hdim : c.adjacencyMatrix.dimension = max 1 ((c.vertexCount + 7) / 8) := by
      rw [hok.dim]
      unfold compressedMatrixDimension COMPRESSION_BLOCK_DIMENSION
      simp only
      split <;> omega
    rw [hdim] at hs
    refine ⟨?_, hs⟩
    change c.adjacencyMatrix.toStringWithPrecision P (uintFmt U64_MAX) o₁ o₂ 0 ≠ .panic
    by_cases hn : max 1 ((c.vertexCount + 7) / 8) = 0
    · rw [hs.empty hn]; simp
    · by_cases hsz : 4 * (max 1 ((c.vertexCount + 7) / 8)) + (uintWidth U64_MAX c.adjacencyMatrix 0 + 2) *
          ((max 1 ((c.vertexCount + 7) / 8)) * (max 1 ((c.vertexCount + 7) / 8))) ≤ P.usizeMax
      · cases hal : P.alloc (4 * (max 1 ((c.vertexCount + 7) / 8)) + (uintWidth U64_MAX c.adjacencyMatrix 0 + 2) *
          ((max 1 ((c.vertexCount + 7) / 8)) * (max 1 ((c.vertexCount + 7) / 8))) - 2) with
        | true => rw [hs.shows hn hsz hal]; simp
        | false =>
          obtain ⟨msg, h⟩ := hs.noMemory hn hsz hal
          rw [h]; simp
      · obtain ⟨msg, h⟩ := hs.tooLarge hn (by omega) (by omega)
        rw [h]; simp

/-- C51 on a concrete compressed graph. -/
example : okAnd (exC.compress exP HashOrder.id HashOrder.id 1) (fun c =>
    okAnd (c.matrixString exP HashOrder.id HashOrder.id) (fun s => s.length != 0)) = true := by
  decide +kernel

/-! ## C56 -/

theorem values_inv {T : Type} {N : Numeric T} {P : Platform} {I : T → Prop} (h : List (NumOp T))
    (hset : ∀ x c r, NumOp.set x c r ∈ h → I x) (h1 : I N.one)
    (hadd : ∀ x y, I x → N.addOne P x = .ok y → I y) {m : SqMatrix T} (hm : runNum N P h = .ok m) :
    m.WF ∧ ∀ c r x, m.at? c r = some x → I x := by
  unfold runNum at hm
  refine Res.foldl_inv (I := fun m => m.WF ∧ ∀ c r x, m.at? c r = some x → I x) h ?_
    ⟨SqMatrix.WF.new, fun c r x hx => by simp [SqMatrix.new_at] at hx⟩ hm
  rintro m op m' hop ⟨hw, hv⟩ hcall
  cases op with
  | set e c r =>
    simp only [NumOp.call, Res.ok.injEq] at hcall
    subst hcall
    refine ⟨hw.setEntry N e c r, ?_⟩
    intro c' r' x hx
    by_cases hb : c < U64_MAX ∧ r < U64_MAX
    · cases he : N.eq e N.zero with
      | true =>
        rw [SqMatrix.setEntry_zero hb.1 hb.2 he] at hx
        exact hv c' r' x hx
      | false =>
        rw [SqMatrix.setEntry_at hb.1 hb.2 he] at hx
        split at hx
        · simp only [Option.some.injEq] at hx; rw [← hx]; exact hset e c r hop
        · exact hv c' r' x hx
    · rw [SqMatrix.setEntry_overflow hb] at hx
      exact hv c' r' x hx
  | zero c r =>
    simp only [NumOp.call, Res.ok.injEq] at hcall
    subst hcall
    refine ⟨hw.zeroEntry c r, ?_⟩
    intro c' r' x hx
    rw [SqMatrix.zeroEntry_at] at hx
    split at hx
    · cases hx
    · exact hv c' r' x hx
  | increment c r =>
    simp only [NumOp.call] at hcall
    refine ⟨hw.incrementEntry hcall, ?_⟩
    intro c' r' x hx
    by_cases hb : c < U64_MAX ∧ r < U64_MAX
    · obtain ⟨y, hy, hat, _, _⟩ := SqMatrix.incrementEntry_ok hb.1 hb.2 hcall
      rw [hat] at hx
      split at hx
      · simp only [Option.some.injEq] at hx
        subst hx
        cases hold : m.at? c r with
        | none =>
          rw [hold] at hy
          simp only [SqMatrix.incValue, Res.ok.injEq] at hy
          rw [← hy]; exact h1
        | some z =>
          rw [hold] at hy
          exact hadd z y (hv c r z hold) hy
      · exact hv c' r' x hx
    · rw [SqMatrix.incrementEntry_overflow hb] at hcall
      cases hcall
      exact hv c' r' x hx

theorem uint_typed {max : Nat} (hmax : 1 ≤ max) {P : Platform} {h : List (NumOp Nat)}
    (hset : ∀ x c r, NumOp.set x c r ∈ h → x ≤ max) {m : SqMatrix Nat}
    (hm : runNum (uintFmt max).toNumeric P h = .ok m) : m.WF ∧ ∀ c r x, m.at? c r = some x → x ≤ max := by
  refine values_inv h hset hmax ?_ hm
  intro x y _ hxy
  simp only [uintFmt, Platform.wrapTo] at hxy
  split at hxy
  · cases hxy; assumption
  · cases hp : P.profile with
    | debug => rw [hp] at hxy; cases hxy
    | release =>
      rw [hp] at hxy
      simp only [Res.ok.injEq] at hxy
      have := Nat.mod_lt (x + 1) (Nat.succ_pos max)
      simp only [Nat.succ_eq_add_one] at this
      omega

/-- **C56.** Any matrix of an unsigned type (maximum `max`) built by any history, printed with any number `d` of
decimals: one cell width, in every hash order the grid of right-aligned values followed by `.` and `d` zeros (if
`d > 0`), or a capacity error; no panic as long as one cell (plus separator) is representable.  The width is that
of the longest shown number if anything is stored, else that of the largest value of the type.
(The hypothesis on `fmtMax` holds for every Rust integer type: at most 39 characters.) -/
theorem C56_unsigned_text (max : Nat) (hmax : 1 ≤ max) (P₀ P : Platform) (h : List (NumOp Nat))
    (hset : ∀ x c r, NumOp.set x c r ∈ h → x ≤ max) (m : SqMatrix Nat)
    (hm : runNum (uintFmt max).toNumeric P₀ h = .ok m) (hf : (Nat.toDigits 10 max).length ≤ P.fmtMax) (d : Nat) :
    ∃ w, (m.entryCount ≠ 0 → ∃ c r, w = (numeral ((m.getEntry (uintFmt max).toNumeric c r : Nat) : Int) ++ zeros d).length) ∧
      (m.entryCount = 0 → w = (Nat.toDigits 10 max).length + (zeros d).length) ∧
      ∀ o₁ o₂,
        ShowsGrid P m.dimension d w (fun c r => ((m.getEntry (uintFmt max).toNumeric c r : Nat) : Int))
          (m.toStringWithPrecision P (uintFmt max) o₁ o₂ d) ∧
        (w + 2 ≤ P.usizeMax → m.toStringWithPrecision P (uintFmt max) o₁ o₂ d ≠ .panic) := by
  obtain ⟨hw, hb⟩ := uint_typed hmax hset hm
  have hf' : (numeral max).length ≤ P.fmtMax := by rw [numeral_natCast]; exact hf
  refine ⟨uintWidth max m d, ?_, ?_, fun o₁ o₂ => ⟨uint_text hw hb P hf' d o₁ o₂, ?_⟩⟩
  · intro hne
    apply uintWidth_attained hb
    rw [hw.count] at hne
    obtain ⟨p, hp⟩ := Finset.card_pos.1 (Nat.pos_of_ne_zero hne)
    obtain ⟨v, hv⟩ := SqMatrix.mem_keys.1 hp
    exact ⟨_, _, v, hv⟩
  · intro h0
    rw [hw.count, Finset.card_eq_zero] at h0
    have hnone : ∀ c r, m.at? c r = none := by
      intro c r
      rw [← SqMatrix.notMem_keys (p := (c, r)), h0]
      simp
    rw [uintWidth_nothing hb d hnone, numeral_natCast]
  · intro hfit
    have hs := uint_text hw hb P hf' d o₁ o₂
    by_cases hn : m.dimension = 0
    · rw [hs.empty hn]; simp
    · by_cases hsz : 4 * m.dimension + (uintWidth max m d + 2) * (m.dimension * m.dimension) ≤ P.usizeMax
      · cases hal : P.alloc (4 * m.dimension + (uintWidth max m d + 2) * (m.dimension * m.dimension) - 2) with
        | true => rw [hs.shows hn hsz hal]; simp
        | false =>
          obtain ⟨msg, h⟩ := hs.noMemory hn hsz hal
          rw [h]; simp
      · obtain ⟨msg, h⟩ := hs.tooLarge hn hfit (by omega)
        rw [h]; simp

/-- C56 on a concrete matrix. -/
example : okAnd (runNum (uintFmt 255).toNumeric exP [.set 7 1 0, .set 120 0 1])
    (fun m => okAnd (m.toStringWithPrecision exP (uintFmt 255) HashOrder.id HashOrder.id 2)
      (fun s => s == "[   0.00,   7.00 ]\r\n[ 120.00,   0.00 ]".toList)) = true := by decide +kernel

example : (Nat.toDigits 10 255).length ≤ exP.fmtMax := by decide +kernel

/-! ## C57 -/

/-- The type `i64`. -/
abbrev i64Fmt : NumFmt Int := sintFmt (2 ^ 63 - 1) false

/-- A value of the signed type with maximum `max`. -/
def InRange (max : Nat) (x : Int) : Prop := -(max : Int) - 1 ≤ x ∧ x ≤ max

/-- **C57** as one would expect it: whatever `i64` matrix is printed with whatever precision, a successful result is
a grid of right-aligned numbers in wide enough cells. -/
def C57_full : Prop :=
  ∀ (P : Platform) (h : List (NumOp Int)) (m : SqMatrix Int) (d : Nat) (o₁ o₂ : HashOrder) (s : List Char),
    (∀ x c r, NumOp.set x c r ∈ h → InRange (2 ^ 63 - 1) x) →
    runNum i64Fmt.toNumeric P h = .ok m → m.toStringWithPrecision P i64Fmt o₁ o₂ d = .ok s → m.dimension ≠ 0 →
    ∃ w, (∀ c r, (numeral (m.getEntry i64Fmt.toNumeric c r) ++ zeros d).length ≤ w) ∧
      s = grid m.dimension fun c r => rightAligned w (numeral (m.getEntry i64Fmt.toNumeric c r) ++ zeros d)

/-- The witness: `-100` and `5` with one decimal print a cell `5.0.0`. -/
theorem C57_full_false : ¬ C57_full := by
  intro h
  have hok : okAnd (runNum i64Fmt.toNumeric exP [.set (-100) 0 0, .set 5 1 1]) (fun m =>
      okAnd (m.toStringWithPrecision exP i64Fmt HashOrder.id HashOrder.id 1) (fun s =>
        s == "[ -100.0,    0.0 ]\r\n[    0.0,  5.0.0 ]".toList) && m.dimension == 2 &&
      (grid 2 fun c r => rightAligned 6 (numeral (m.getEntry i64Fmt.toNumeric c r) ++ zeros 1)) !=
        "[ -100.0,    0.0 ]\r\n[    0.0,  5.0.0 ]".toList) = true := by decide +kernel
  obtain ⟨m, hm, hp⟩ := okAnd_elim hok
  simp only [Bool.and_eq_true, beq_iff_eq, bne_iff_ne] at hp
  obtain ⟨⟨h1, h2⟩, h3⟩ := hp
  obtain ⟨s, hs, hse⟩ := okAnd_elim h1
  rw [beq_iff_eq] at hse
  obtain ⟨w, hfit, hw⟩ := h exP _ m 1 HashOrder.id HashOrder.id s (by
    intro x c r hx
    simp only [List.mem_cons, NumOp.set.injEq, List.not_mem_nil, or_false] at hx
    unfold InRange
    rcases hx with hx | hx <;> omega) hm hs (by omega)
  have hlen := grid_length m.dimension w (by omega)
    (fun c r => rightAligned w (numeral (m.getEntry i64Fmt.toNumeric c r) ++ zeros 1))
    (fun c _ r _ => rightAligned_length (hfit c r))
  rw [← hw, hse, h2] at hlen
  have hl : "[ -100.0,    0.0 ]\r\n[    0.0,  5.0.0 ]".toList.length = 38 := by decide +kernel
  rw [hl] at hlen
  have : w = 6 := by omega
  subst this
  rw [h2, hse] at hw
  exact h3 hw.symm

theorem sint_typed {max : Nat} (hmax : 1 ≤ max) {hasDec : Bool} {P : Platform} {h : List (NumOp Int)}
    (hset : ∀ x c r, NumOp.set x c r ∈ h → InRange max x) {m : SqMatrix Int}
    (hm : runNum (sintFmt max hasDec).toNumeric P h = .ok m) :
    m.WF ∧ ∀ c r x, m.at? c r = some x → InRange max x := by
  refine values_inv h hset (by unfold InRange; simp only [sintFmt]; omega) ?_ hm
  intro x y hx hxy
  unfold InRange at *
  simp only [sintFmt] at hxy
  split at hxy
  · cases hxy; omega
  · cases hp : P.profile with
    | debug => rw [hp] at hxy; cases hxy
    | release =>
      rw [hp] at hxy
      simp only [Res.ok.injEq] at hxy
      omega

theorem sint_digits_le {max : Nat} {hasDec : Bool} {m : SqMatrix Int}
    (hb : ∀ c r v, m.at? c r = some v → InRange max v) (o : HashOrder) :
    SqMatrix.digitsOf (sintFmt max hasDec) (SqMatrix.extremes (sintFmt max hasDec) o m) ≤
      (numeral (-(max : Int) - 1)).length := by
  obtain ⟨h1, h2, h3⟩ := SqMatrix.extremes_spec (sintFmt_isInt max hasDec).lt (sintFmt_isInt max hasDec).gt m hb o
  have hbound : InRange max (SqMatrix.extremes (sintFmt max hasDec) o m).1 ∧
      InRange max (SqMatrix.extremes (sintFmt max hasDec) o m).2 := by
    by_cases h : ∃ c r v, m.at? c r = some v
    · obtain ⟨⟨c1, r1, e1⟩, ⟨c2, r2, e2⟩⟩ := h2 h
      exact ⟨hb _ _ _ e1, hb _ _ _ e2⟩
    · have hnone : ∀ c r, m.at? c r = none := by
        intro c r
        cases hat : m.at? c r with
        | none => rfl
        | some v => exact absurd ⟨c, r, v, hat⟩ h
      rw [h3 hnone]
      constructor
      · simp only [sintFmt]; unfold InRange; split <;> omega
      · simp only [sintFmt]; unfold InRange; omega
  have hle : ∀ x, InRange max x → (numeral x).length ≤ (numeral (-(max : Int) - 1)).length := by
    intro x hx
    unfold InRange at hx
    by_cases h0 : 0 ≤ x
    · unfold numeral
      rw [if_neg (by omega), if_pos (by omega)]
      have := toDigits_length_mono (a := x.natAbs) (b := (-(max : Int) - 1).natAbs) (by omega)
      simp only [List.length_cons]; omega
    · exact numeral_length_antitone (by omega) hx.1
  unfold SqMatrix.digitsOf
  rw [(sintFmt_isInt max hasDec).digitCount, (sintFmt_isInt max hasDec).digitCount]
  exact Nat.max_le.2 ⟨hle _ hbound.1, hle _ hbound.2⟩

/-- `w` is the width of a cell for numbers with `k` characters after the integer part: the longest stored number
decides; without stored entries the type's greatest or least number does (the latter if an emptied column remains). -/
structure WidthOf (max : Nat) (m : SqMatrix Int) (k w : Nat) : Prop where
  fits : ∀ o x c r, (x, c, r) ∈ m.items o → (numeral x).length + k ≤ w
  attained : m.entryCount ≠ 0 → ∃ o x c r, (x, c, r) ∈ m.items o ∧ w = (numeral x).length + k
  nothing : m.entryCount = 0 →
    w = (numeral (max : Int)).length + k ∨ w = (numeral (-(max : Int) - 1)).length + k

theorem sint_width {max : Nat} {hasDec : Bool} {m : SqMatrix Int} (hw : m.WF)
    (hb : ∀ c r v, m.at? c r = some v → InRange max v) (o : HashOrder) (d : Nat) :
    WidthOf max m (if hasDec || d > 0 then 1 + d else 0)
      (SqMatrix.cellWidth (sintFmt max hasDec) (SqMatrix.extremes (sintFmt max hasDec) o m) d) := by
  have hI := sintFmt_isInt max hasDec
  obtain ⟨h1, h2, h3⟩ := SqMatrix.extremes_spec hI.lt hI.gt m hb o
  have hcw : SqMatrix.cellWidth (sintFmt max hasDec) (SqMatrix.extremes (sintFmt max hasDec) o m) d =
      SqMatrix.digitsOf (sintFmt max hasDec) (SqMatrix.extremes (sintFmt max hasDec) o m) +
        (if hasDec || d > 0 then 1 + d else 0) := rfl
  rw [hcw]
  have hdig : SqMatrix.digitsOf (sintFmt max hasDec) (SqMatrix.extremes (sintFmt max hasDec) o m) =
      Max.max (numeral (SqMatrix.extremes (sintFmt max hasDec) o m).1).length
        (numeral (SqMatrix.extremes (sintFmt max hasDec) o m).2).length := by
    unfold SqMatrix.digitsOf
    rw [hI.digitCount, hI.digitCount]
  refine ⟨?_, ?_, ?_⟩
  · intro o' x c r hx
    rw [SqMatrix.mem_items hw] at hx
    obtain ⟨ha, hb⟩ := h1 c r x hx
    have := numeral_length_between ha hb
    rw [hdig]
    have h : (numeral x).length ≤ Max.max (numeral (SqMatrix.extremes (sintFmt max hasDec) o m).1).length
        (numeral (SqMatrix.extremes (sintFmt max hasDec) o m).2).length := this
    omega
  · intro hne
    rw [hw.count] at hne
    obtain ⟨p, hp⟩ := Finset.card_pos.1 (Nat.pos_of_ne_zero hne)
    obtain ⟨v, hv⟩ := SqMatrix.mem_keys.1 hp
    obtain ⟨⟨c1, r1, e1⟩, ⟨c2, r2, e2⟩⟩ := h2 ⟨_, _, v, hv⟩
    rw [hdig]
    rcases Nat.le_total (numeral (SqMatrix.extremes (sintFmt max hasDec) o m).1).length
      (numeral (SqMatrix.extremes (sintFmt max hasDec) o m).2).length with hle | hle
    · exact ⟨o, _, c2, r2, (SqMatrix.mem_items hw o).2 e2, by rw [Nat.max_eq_right hle]⟩
    · exact ⟨o, _, c1, r1, (SqMatrix.mem_items hw o).2 e1, by rw [Nat.max_eq_left hle]⟩
  · intro h0
    rw [hw.count, Finset.card_eq_zero] at h0
    have hnone : ∀ c r, m.at? c r = none := by
      intro c r
      rw [← SqMatrix.notMem_keys (p := (c, r)), h0]
      simp
    rw [hdig, h3 hnone]
    simp only [sintFmt]
    split
    · left
      rw [Nat.max_eq_right (numeral_length_mono (le_refl _) (by omega))]
    · rcases Nat.le_total (numeral (-(max : Int) - 1)).length (numeral (max : Int)).length with hle | hle
      · left; rw [Nat.max_eq_right hle]
      · right; rw [Nat.max_eq_left hle]

/-- **C57**, the part that holds: for a signed type with maximum `max` (`i8`…`i64`) and any history, the printed text
is the right grid (or a capacity error, never a panic if one cell is representable)
* for `d = 0`, always;
* for `d > 0`, if no stored entry is negative, or if the longest negative number (with its sign) is exactly one
  character longer than the largest number `hi`.
The cells are as wide as the longest stored number requires, no wider.
Missing: all other combinations with negative entries and `d > 0`, where the code corrupts the grid
(`C57_full_false`). -/
theorem C57_signed_text_partial (max : Nat) (hmax : 1 ≤ max) (P₀ P : Platform) (h : List (NumOp Int))
    (hset : ∀ x c r, NumOp.set x c r ∈ h → InRange max x) (m : SqMatrix Int)
    (hm : runNum (sintFmt max false).toNumeric P₀ h = .ok m)
    (hf : (numeral (-(max : Int) - 1)).length ≤ P.fmtMax) (d : Nat)
    (hcase : d = 0 ∨ (∀ c r, 0 ≤ m.getEntry (sintFmt max false).toNumeric c r) ∨
      ∃ lo hi, (∃ o c r, (lo, c, r) ∈ m.items o) ∧ (∃ o c r, (hi, c, r) ∈ m.items o) ∧
        (∀ o x c r, (x, c, r) ∈ m.items o → lo ≤ x ∧ x ≤ hi) ∧ (numeral lo).length = (numeral hi).length + 1) :
    ∃ w, WidthOf max m (zeros d).length w ∧ ∀ o₁ o₂,
      ShowsGrid P m.dimension d w (fun c r => m.getEntry (sintFmt max false).toNumeric c r)
        (m.toStringWithPrecision P (sintFmt max false) o₁ o₂ d) ∧
      (w + 2 ≤ P.usizeMax → m.toStringWithPrecision P (sintFmt max false) o₁ o₂ d ≠ .panic) := by
  obtain ⟨hw, hb⟩ := sint_typed hmax hset hm
  have hI := sintFmt_isInt max false
  have hshow : ∀ o₁ o₂, ShowsGrid P m.dimension d
      (SqMatrix.cellWidth (sintFmt max false) (SqMatrix.extremes (sintFmt max false) HashOrder.id m) d)
      (fun c r => m.getEntry (sintFmt max false).toNumeric c r)
      (m.toStringWithPrecision P (sintFmt max false) o₁ o₂ d) := by
    intro o₁ o₂
    have := SqMatrix.intText (P := P) hI rfl o₁ o₂ hw hb d ((sint_digits_le hb o₁).trans hf) ?_
    · rwa [SqMatrix.extremes_indep hI.lt hI.gt m hb o₁ HashOrder.id] at this
    · obtain ⟨h1, h2, h3⟩ := SqMatrix.extremes_spec hI.lt hI.gt m hb o₁
      rcases hcase with h | h | ⟨lo, hi, ⟨ol, cl, rl, hlo⟩, ⟨oh, ch, rh, hhi⟩, hbet, hlen⟩
      · exact Or.inl h
      · right; left
        by_cases hst : ∃ c r v, m.at? c r = some v
        · obtain ⟨_, ⟨c2, r2, e2⟩⟩ := h2 hst
          have := h c2 r2
          rw [SqMatrix.getEntry_eq, e2] at this
          exact this
        · have hnone : ∀ c r, m.at? c r = none := by
            intro c r
            cases hat : m.at? c r with
            | none => rfl
            | some v => exact absurd ⟨c, r, v, hat⟩ hst
          rw [h3 hnone]
          simp only [sintFmt]; omega
      · right; right
        rw [SqMatrix.mem_items hw] at hlo hhi
        obtain ⟨⟨c1, r1, e1⟩, ⟨c2, r2, e2⟩⟩ := h2 ⟨_, _, _, hlo⟩
        have hlo' : (SqMatrix.extremes (sintFmt max false) o₁ m).2 = lo :=
          le_antisymm (h1 _ _ _ hlo).1 (hbet o₁ _ c2 r2 ((SqMatrix.mem_items hw o₁).2 e2)).1
        have hhi' : (SqMatrix.extremes (sintFmt max false) o₁ m).1 = hi :=
          le_antisymm (hbet o₁ _ c1 r1 ((SqMatrix.mem_items hw o₁).2 e1)).2 (h1 _ _ _ hhi).2
        rw [hI.digitCount, hI.digitCount, hlo', hhi']
        exact hlen
  have hwidth := sint_width (hasDec := false) hw hb HashOrder.id d
  rw [Bool.false_or, ← zeros_length d] at hwidth
  refine ⟨_, hwidth, fun o₁ o₂ => ⟨hshow o₁ o₂, ?_⟩⟩
  intro hfit
  have hs := hshow o₁ o₂
  generalize SqMatrix.cellWidth (sintFmt max false) (SqMatrix.extremes (sintFmt max false) HashOrder.id m) d = w at hs hfit
  by_cases hn : m.dimension = 0
  · rw [hs.empty hn]; simp
  · by_cases hsz : 4 * m.dimension + (w + 2) * (m.dimension * m.dimension) ≤ P.usizeMax
    · cases hal : P.alloc (4 * m.dimension + (w + 2) * (m.dimension * m.dimension) - 2) with
      | true => rw [hs.shows hn hsz hal]; simp
      | false =>
        obtain ⟨msg, h⟩ := hs.noMemory hn hsz hal
        rw [h]; simp
    · obtain ⟨msg, h⟩ := hs.tooLarge hn hfit (by omega)
      rw [h]; simp

/-- C57 on the matrix of the repository's own test, and with decimals where the lengths match. -/
example : okAnd (runNum i64Fmt.toNumeric exP [.set (-100) 1 1, .set 8 2 1]) (fun m =>
    okAnd (m.toStringWithPrecision exP i64Fmt HashOrder.id HashOrder.id 0) (fun s =>
      s == "[    0,    0,    0 ]\r\n[    0, -100,    8 ]\r\n[    0,    0,    0 ]".toList)) = true := by
  decide +kernel
example : okAnd (runNum i64Fmt.toNumeric exP [.set (-10) 0 1, .set 80 0 0]) (fun m =>
    okAnd (m.toStringWithPrecision exP i64Fmt HashOrder.id HashOrder.id 1) (fun s =>
      s == "[  80.0,   0.0 ]\r\n[ -10.0,   0.0 ]".toList)) = true := by
  decide +kernel
example : (numeral (-10)).length = (numeral 80).length + 1 := by decide

/-! ### `i128`

`i128::has_decimal()` returns `true` in the source, so zeros are printed like floats and values like integers. -/

/-- The type `i128`. -/
abbrev i128Fmt : NumFmt Int := sintFmt (2 ^ 127 - 1) true

/-- The expected property for `i128`. -/
def C57_i128_full : Prop :=
  ∀ (P : Platform) (h : List (NumOp Int)) (m : SqMatrix Int) (d : Nat) (o₁ o₂ : HashOrder) (s : List Char),
    (∀ x c r, NumOp.set x c r ∈ h → InRange (2 ^ 127 - 1) x) →
    runNum i128Fmt.toNumeric P h = .ok m → m.toStringWithPrecision P i128Fmt o₁ o₂ d = .ok s → m.dimension ≠ 0 →
    ∃ w, (∀ c r, (numeral (m.getEntry i128Fmt.toNumeric c r) ++ zeros d).length ≤ w) ∧
      s = grid m.dimension fun c r => rightAligned w (numeral (m.getEntry i128Fmt.toNumeric c r) ++ zeros d)

/-- The witness: a single `5`, printed without decimals, is surrounded by cells `0.`. -/
theorem C57_i128_full_false : ¬ C57_i128_full := by
  intro h
  have hok : okAnd (runNum i128Fmt.toNumeric exP [.set 5 1 1]) (fun m =>
      okAnd (m.toStringWithPrecision exP i128Fmt HashOrder.id HashOrder.id 0) (fun s =>
        s == "[ 0., 0. ]\r\n[ 0.,  5 ]".toList) && m.dimension == 2 &&
      (grid 2 fun c r => rightAligned 2 (numeral (m.getEntry i128Fmt.toNumeric c r) ++ zeros 0)) !=
        "[ 0., 0. ]\r\n[ 0.,  5 ]".toList) = true := by decide +kernel
  obtain ⟨m, hm, hp⟩ := okAnd_elim hok
  simp only [Bool.and_eq_true, beq_iff_eq, bne_iff_ne] at hp
  obtain ⟨⟨h1, h2⟩, h3⟩ := hp
  obtain ⟨s, hs, hse⟩ := okAnd_elim h1
  rw [beq_iff_eq] at hse
  obtain ⟨w, hfit, hw⟩ := h exP _ m 0 HashOrder.id HashOrder.id s (by
    intro x c r hx
    simp only [List.mem_cons, NumOp.set.injEq, List.not_mem_nil, or_false] at hx
    unfold InRange
    omega) hm hs (by omega)
  have hlen := grid_length m.dimension w (by omega)
    (fun c r => rightAligned w (numeral (m.getEntry i128Fmt.toNumeric c r) ++ zeros 0))
    (fun c _ r _ => rightAligned_length (hfit c r))
  rw [← hw, hse, h2] at hlen
  have hl : "[ 0., 0. ]\r\n[ 0.,  5 ]".toList.length = 22 := by decide +kernel
  rw [hl] at hlen
  have : w = 2 := by omega
  subst this
  rw [h2, hse] at hw
  exact h3 hw.symm

/-- **C57** for `i128` (`max = 2^127 - 1`), what the code does: stored entries are printed without decimals whatever
the precision, coordinates without an entry as `0.` followed by `d` zeros, all right-aligned in equally wide cells (the
longest stored number and `1 + d` more). If the text does not fit in `usize` or cannot be allocated, the result is
`CapacityOverflow`, never a panic.
Missing: the same notation for both kinds of cells (`C57_i128_full_false`). -/
theorem C57_i128_text_partial (max : Nat) (hmax : 1 ≤ max) (P₀ P : Platform) (h : List (NumOp Int))
    (hset : ∀ x c r, NumOp.set x c r ∈ h → InRange max x) (m : SqMatrix Int)
    (hm : runNum (sintFmt max true).toNumeric P₀ h = .ok m) (d : Nat)
    (hf : (numeral (-(max : Int) - 1)).length + (1 + d) ≤ P.fmtMax) :
    ∃ (w : Nat) (text : Nat → Nat → List Char), WidthOf max m (1 + d) w ∧
      (∀ o x c r, (x, c, r) ∈ m.items o → text c r = numeral x) ∧
      (∀ c r, (∀ o x, (x, c, r) ∉ m.items o) → text c r = '0' :: '.' :: List.replicate d '0') ∧
      ∀ o₁ o₂, ShowsText P m.dimension w text (m.toStringWithPrecision P (sintFmt max true) o₁ o₂ d) ∧
        (w + 2 ≤ P.usizeMax → m.toStringWithPrecision P (sintFmt max true) o₁ o₂ d ≠ .panic) := by
  obtain ⟨hw, hb⟩ := sint_typed hmax hset hm
  have hI := sintFmt_isInt max true
  have hwidth := sint_width (hasDec := true) hw hb HashOrder.id d
  simp only [Bool.true_or, if_true] at hwidth
  refine ⟨SqMatrix.cellWidth (sintFmt max true) (SqMatrix.extremes (sintFmt max true) HashOrder.id m) d,
    fun c r => match m.at? c r with
      | some v => numeral v
      | none => '0' :: '.' :: List.replicate d '0', hwidth, ?_, ?_, ?_⟩
  · intro o x c r hx
    rw [SqMatrix.mem_items hw] at hx
    simp only [hx]
  · intro c r hx
    have hnone : m.at? c r = none := by
      cases hat : m.at? c r with
      | none => rfl
      | some v => exact absurd ((SqMatrix.mem_items hw HashOrder.id).2 hat) (hx HashOrder.id v)
    simp only [hnone]
  intro o₁ o₂
  have hind := SqMatrix.extremes_indep hI.lt hI.gt m hb o₁ HashOrder.id
  obtain ⟨h1, _, _⟩ := SqMatrix.extremes_spec hI.lt hI.gt m hb o₁
  have hdl := sint_digits_le (hasDec := true) hb o₁
  rw [← hind] at hwidth ⊢
  have hcw : SqMatrix.cellWidth (sintFmt max true) (SqMatrix.extremes (sintFmt max true) o₁ m) d =
      SqMatrix.digitsOf (sintFmt max true) (SqMatrix.extremes (sintFmt max true) o₁ m) + (1 + d) := rfl
  have hpos : 1 ≤ SqMatrix.digitsOf (sintFmt max true) (SqMatrix.extremes (sintFmt max true) o₁ m) := by
    unfold SqMatrix.digitsOf
    rw [hI.digitCount]
    exact (numeral_length_pos _).trans (le_max_left _ _)
  have hmain : m.dimension ≠ 0 → 4 * m.dimension + (SqMatrix.cellWidth (sintFmt max true)
        (SqMatrix.extremes (sintFmt max true) o₁ m) d + 2) * (m.dimension * m.dimension) ≤ P.usizeMax →
      m.toStringWithPrecision P (sintFmt max true) o₁ o₂ d =
      if P.alloc (4 * m.dimension + (SqMatrix.cellWidth (sintFmt max true)
          (SqMatrix.extremes (sintFmt max true) o₁ m) d + 2) * (m.dimension * m.dimension) - 2) then
        .ok (grid m.dimension fun c r => rightAligned (SqMatrix.cellWidth (sintFmt max true)
          (SqMatrix.extremes (sintFmt max true) o₁ m) d) (match m.at? c r with
            | some v => numeral v
            | none => '0' :: '.' :: List.replicate d '0'))
      else .err (.CapacityOverflow "Unable to allocate matrix string") := by
    intro hn hsize
    rw [SqMatrix.toString_ok (P := P) (F := sintFmt max true) o₁ o₂ hw (d := d) hn hpos rfl hsize
      (text := fun v => rightAligned (SqMatrix.cellWidth (sintFmt max true)
        (SqMatrix.extremes (sintFmt max true) o₁ m) d) (numeral v))]
    · congr 2
      apply grid_congr
      intro c _ r _
      cases m.at? c r with
      | some v => rfl
      | none =>
        simp only
        rw [hcw, SqMatrix.zeroCell_dec _ _ hpos]
    · intro c r v hat
      have hv := hwidth.fits o₁ v c r ((SqMatrix.mem_items hw o₁).2 hat)
      refine ⟨?_, rightAligned_length (by omega)⟩
      have hdec : (sintFmt max true).hasDecimal = true := rfl
      unfold SqMatrix.formatEntry
      rw [hdec]
      simp only [Bool.not_true, Bool.false_and, Bool.false_eq_true, if_false]
      rw [if_neg (by rw [hcw]; omega), hI.fmt]
  have htext : ShowsText P m.dimension (SqMatrix.cellWidth (sintFmt max true)
      (SqMatrix.extremes (sintFmt max true) o₁ m) d) (fun c r => match m.at? c r with
        | some v => numeral v
        | none => '0' :: '.' :: List.replicate d '0')
      (m.toStringWithPrecision P (sintFmt max true) o₁ o₂ d) := by
    refine ⟨?_, ?_, ?_, ?_, ?_⟩
    · intro c r
      cases hat : m.at? c r with
      | some v =>
        have := hwidth.fits o₁ v c r ((SqMatrix.mem_items hw o₁).2 hat)
        simp only
        omega
      | none => simp only [List.length_cons, List.length_replicate]; omega
    · intro hn
      unfold SqMatrix.toStringWithPrecision
      simp [hn]
    · intro hn hsize hal
      rw [hmain hn hsize, if_pos hal]
    · intro hn hsize hal
      exact ⟨_, by rw [hmain hn hsize, if_neg (by simp [hal])]⟩
    · intro hn hfit hsize
      exact SqMatrix.toString_tooLarge o₁ o₂ hn hpos rfl hfit (by omega)
  refine ⟨htext, ?_⟩
  intro hfit
  by_cases hn : m.dimension = 0
  · rw [htext.empty hn]; simp
  · by_cases hsz : 4 * m.dimension + (SqMatrix.cellWidth (sintFmt max true)
        (SqMatrix.extremes (sintFmt max true) o₁ m) d + 2) * (m.dimension * m.dimension) ≤ P.usizeMax
    · rw [hmain hn hsz]
      split <;> simp
    · obtain ⟨msg, h⟩ := htext.tooLarge hn hfit (by omega)
      rw [h]; simp

/-- The hypotheses of the partial `i128` statement are met, with this text. -/
example : okAnd (runNum i128Fmt.toNumeric exP [.set (-12) 1 1]) (fun m =>
    okAnd (m.toStringWithPrecision exP i128Fmt HashOrder.id HashOrder.id 2) (fun s =>
      s == "[   0.00,   0.00 ]\r\n[   0.00,    -12 ]".toList)) = true := by
  decide +kernel

end Verif.Props
