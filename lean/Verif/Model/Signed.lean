import Verif.Model.F32
import Verif.Model.Pool

/-!
# Model of floating-point entries with signed zeros

`Model/F64.lean` does not distinguish `-0.0` from `0.0`.  Here the two are kept apart, for everything in
`/repo/graphrox-rs/src` that computes with, compares, stores or prints floating-point numbers.  C116 proves that the
results are those of the simpler model.
-/

namespace Verif

/-- `f64` (or `f32`): `-0.0`, or one of the values of the simpler model, where `fin 0` now is `0.0`. std type. -/
inductive S64 where
  | negZero
  | val (x : F64)
  deriving DecidableEq

namespace S64

/-- The value without the sign of zeros. -/
def toF64 : S64 → F64
  | negZero => .fin 0
  | val x => x

/-- The sign bit. IEEE-754; that of NaN is never used. -/
def sign : S64 → Bool
  | negZero => true
  | val .nan => false
  | val (.inf neg) => neg
  | val (.fin q) => decide (q < 0)

/-- The result `x` of an operation, with sign bit `neg` if it is a zero. -/
def withSign (neg : Bool) (x : F64) : S64 := if x = .fin 0 ∧ neg = true then negZero else val x

/-- `a + b`, where `plus` rounds as the type does. IEEE-754: an exact zero is negative only if both terms are. -/
def add (plus : F64 → F64 → F64) (a b : S64) : S64 :=
  match a.toF64, b.toF64 with
  | .fin p, .fin q =>
    withSign (if p + q = 0 then a.sign && b.sign else decide (p + q < 0)) (plus (.fin p) (.fin q))
  | x, y => val (plus x y)

/-- `-a`. IEEE-754. -/
def neg : S64 → S64
  | negZero => val (.fin 0)
  | val x => if x = .fin 0 then negZero else val (F64.neg x)

/-- `a - b`. IEEE-754. -/
def sub (a b : S64) : S64 := add F64.add a (neg b)

/-- `a * b`. IEEE-754. -/
def mul (a b : S64) : S64 := withSign (a.sign != b.sign) (F64.mul a.toF64 b.toF64)

/-- `a / b`. IEEE-754. -/
def div (a b : S64) : S64 :=
  match F64.div a.toF64 b.toF64 with
  | .inf _ => val (.inf (a.sign != b.sign))
  | x => withSign (a.sign != b.sign) x

/-- `a <= b`. IEEE-754: zeros are equal. -/
def le (a b : S64) : Bool := F64.le a.toF64 b.toF64

/-- `a < b`. IEEE-754. -/
def lt (a b : S64) : Bool := F64.lt a.toF64 b.toF64

/-- `format!("{:.prec}", x)`. std semantics: the sign bit is printed, also for zero (Rust 1.53 and later). -/
def chars (x : S64) (prec : Nat) : List Char :=
  match x with
  | negZero => '-' :: fixedChars prec 0
  | val x => f64Chars x prec

end S64

/-- `impl Numeric for f64`, storing part. `util/mod.rs:453-488`. -/
def s64Numeric : Numeric S64 where
  zero := .val (F64.lit 0)
  one := .val (F64.lit 1)
  eq a b := F64.eq a.toF64 b.toF64
  addOne _ x := .ok (S64.add F64.add x (.val (F64.lit 1)))

/-- `impl Numeric for f64`. `util/mod.rs:453-488`. -/
def s64Fmt : NumFmt S64 where
  toNumeric := s64Numeric
  maxV := .val f64Fmt.maxV
  minV := .val f64Fmt.minV
  hasDecimal := true
  lt := S64.lt
  gt a b := S64.lt b a
  digitCount x := (intChars x.toF64.asI128).length
  fmt x width prec := padLeft width (x.chars prec)
  fmtW x width := padLeft width (x.chars 0)

/-- `impl Numeric for f32`, storing part. `util/mod.rs:416-451`. -/
def s32Numeric : Numeric S64 where
  zero := .val (F32.rnd 0)
  one := .val (F32.rnd 1)
  eq a b := F64.eq a.toF64 b.toF64
  addOne _ x := .ok (S64.add F32.add x (.val (F32.rnd 1)))

/-- `impl Numeric for f32`. `util/mod.rs:416-451`. -/
def s32Fmt : NumFmt S64 where
  toNumeric := s32Numeric
  maxV := .val f32Fmt.maxV
  minV := .val f32Fmt.minV
  hasDecimal := true
  lt := S64.lt
  gt a b := S64.lt b a
  digitCount x := (intChars x.toF64.asI128).length
  fmt x width prec := padLeft width (x.chars prec)
  fmtW x width := padLeft width (x.chars 0)

/-- `multiply_entries_by`. `csr_square_matrix.rs:322-328`. -/
def SqMatrix.multiplyEntriesByS (m : SqMatrix S64) (multiplier : S64) : SqMatrix S64 :=
  { m with edgesTable := m.edgesTable.mapValues (fun t => t.mapValues (fun e => S64.mul e multiplier)) }

/-- `clamp_threshold`. `util/mod.rs:14-22`. -/
def clampThresholdS (threshold : S64) : S64 :=
  if S64.lt (.val (F64.lit 1)) threshold then .val (F64.lit 1)
  else if S64.le threshold (.val (F64.lit 0)) then S64.div (.val (F64.lit 1)) (.val (F64.ofNat (10 ^ 18)))
  else threshold

namespace Graph

/-- The counting loop. `standard.rs:464-468`. -/
def countBlocksS (P : Platform) (blockDimension : Nat) (items : List (Nat × Nat)) : Res (SqMatrix S64) :=
  Res.foldl (fun m (e : Nat × Nat) =>
    m.incrementEntry s64Numeric P (e.1 / blockDimension) (e.2 / blockDimension)) SqMatrix.new items

/-- `find_avg_pool_matrix`. `standard.rs:441-476`. -/
def findAvgPoolMatrixS (P : Platform) (o : HashOrder) (g : Graph) (blockDimension : Nat) : Res (SqMatrix S64) :=
  if g.vertexCount = 0 then .ok SqMatrix.new
  else do
    let blockDimension := clampBlockDimension g.vertexCount blockDimension
    let blocksPerRow := blocksPerRow g.vertexCount blockDimension
    let occurrenceMatrix ← countBlocksS P blockDimension (g.adjacencyMatrix.items o)
    let square ← P.u64Mul blockDimension blockDimension
    let blockMultiplier := S64.div (.val (F64.lit 1)) (.val (F64.ofNat square))
    let avgPoolMatrix := occurrenceMatrix.setMinimumDimension blocksPerRow
    .ok (avgPoolMatrix.multiplyEntriesByS blockMultiplier)

/-- `approximate`. `standard.rs:536-575`. -/
def approximateS (P : Platform) (o₁ o₂ : HashOrder) (g : Graph) (blockDimension : Nat) (threshold : S64) :
    Res Graph :=
  if blockDimension ≤ 1 ∨ g.vertexCount ≤ 1 then .ok g
  else do
    let threshold := clampThresholdS threshold
    let blockDimension := if blockDimension > g.vertexCount then g.vertexCount else blockDimension
    let blocksPerRow := blocksPerRow g.vertexCount blockDimension
    let avgPoolMatrix ← g.findAvgPoolMatrixS P o₁ blockDimension
    let approxGraph := if g.isUndirected then newUndirected else newDirected
    let approxGraph := approxGraph.addVertex (blocksPerRow - 1) none
    .ok ((avgPoolMatrix.items o₂).foldl
      (fun ag (x : S64 × Nat × Nat) => if S64.le threshold x.1 then ag.addEdge x.2.1 x.2.2 else ag)
      approxGraph)

/-- The threshold of `compress`. `standard.rs:629`. -/
def compressThresholdS (level : Nat) : S64 :=
  S64.sub (S64.div (.val (F64.ofNat level)) (.val (F64.lit 64))) (.val (F64.lit (1 / 100000)))

/-- Body of the loop over the pooled matrix. `standard.rs:636-663`. -/
def compressBlockS (P : Platform) (g : Graph) (threshold : S64) (builder : CGraph) (x : S64 × Nat × Nat) :
    Res CGraph :=
  if S64.le threshold x.1 then do
    let rowBase ← P.u64Mul x.2.2 COMPRESSION_BLOCK_DIMENSION
    let colBase ← P.u64Mul x.2.1 COMPRESSION_BLOCK_DIMENSION
    let s ← Res.foldl (compressBit P g colBase rowBase) ⟨0, 0, 1⟩ blockPositions
    .ok (builder.builderAdd s.entry x.2.1 x.2.2 (some s.nodes))
  else .ok builder

/-- `compress`. `standard.rs:624-667`. -/
def compressS (P : Platform) (o₁ o₂ : HashOrder) (g : Graph) (compressionLevel : Nat) : Res CGraph := do
  let compressionLevel := clampCompressionLevel compressionLevel
  let threshold := compressThresholdS compressionLevel
  let builder := CGraph.builderNew g.isUndirected g.vertexCount compressionLevel
  let avgPoolMatrix ← g.findAvgPoolMatrixS P o₁ COMPRESSION_BLOCK_DIMENSION
  Res.foldl (compressBlockS P g threshold) builder (avgPoolMatrix.items o₂)

end Graph
end Verif
