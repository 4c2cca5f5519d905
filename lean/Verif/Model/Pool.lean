import Verif.Model.Graph
import Verif.Model.SqMatrix
import Verif.Model.Compressed

/-!
# Model of pooling, approximation and compression (`/repo/graphrox-rs/src/graph/standard.rs:441-667`)
-/

namespace Verif
namespace Graph

/-- `blocks_per_row`. `standard.rs:454-460` and `549-555`. -/
def blocksPerRow (vertexCount blockDimension : Nat) : Nat :=
  let n := vertexCount / blockDimension
  if vertexCount % blockDimension ≠ 0 then n + 1 else n

/-- The counting loop. `standard.rs:464-468`. -/
def countBlocks (P : Platform) (blockDimension : Nat) (items : List (Nat × Nat)) : Res (SqMatrix F64) :=
  Res.foldl (fun m (e : Nat × Nat) =>
    m.incrementEntry f64Numeric P (e.1 / blockDimension) (e.2 / blockDimension)) SqMatrix.new items

/-- The clamping of the block dimension. `standard.rs:446-452`. -/
def clampBlockDimension (vertexCount blockDimension : Nat) : Nat :=
  if blockDimension < 1 then 1
  else if blockDimension > vertexCount then vertexCount
  else blockDimension

/-- `find_avg_pool_matrix`. `standard.rs:441-476`. -/
def findAvgPoolMatrix (P : Platform) (o : HashOrder) (g : Graph) (blockDimension : Nat) :
    Res (SqMatrix F64) :=
  if g.vertexCount = 0 then .ok SqMatrix.new
  else do
    let blockDimension := clampBlockDimension g.vertexCount blockDimension
    let blocksPerRow := blocksPerRow g.vertexCount blockDimension
    let occurrenceMatrix ← countBlocks P blockDimension (g.adjacencyMatrix.items o)
    let square ← P.u64Mul blockDimension blockDimension
    let blockMultiplier := F64.div (F64.lit 1) (F64.ofNat square)
    let avgPoolMatrix := occurrenceMatrix.setMinimumDimension blocksPerRow
    .ok (avgPoolMatrix.multiplyEntriesBy blockMultiplier)

/-- `approximate`. `standard.rs:536-575`.  `o₁`: order of the adjacency matrix inside pooling,
`o₂`: order of the pooled matrix. -/
def approximate (P : Platform) (o₁ o₂ : HashOrder) (g : Graph) (blockDimension : Nat) (threshold : F64) :
    Res Graph :=
  if blockDimension ≤ 1 ∨ g.vertexCount ≤ 1 then .ok g
  else do
    let threshold := clampThreshold threshold
    let blockDimension := if blockDimension > g.vertexCount then g.vertexCount else blockDimension
    let blocksPerRow := blocksPerRow g.vertexCount blockDimension
    let avgPoolMatrix ← g.findAvgPoolMatrix P o₁ blockDimension
    let approxGraph := if g.isUndirected then newUndirected else newDirected
    let approxGraph := approxGraph.addVertex (blocksPerRow - 1) none
    .ok ((avgPoolMatrix.items o₂).foldl
      (fun ag (x : F64 × Nat × Nat) => if F64.le threshold x.1 then ag.addEdge x.2.1 x.2.2 else ag)
      approxGraph)

/-- State of the bit loop of `compress`: `compressed_entry`, `nodes_in_entry`,
`pos_in_compressed_entry`. `standard.rs:637-643`. -/
structure BitState where
  entry : Nat
  nodes : Nat
  pos : Nat

/-- Body of the two nested loops. `standard.rs:646-653`. -/
def compressBit (P : Platform) (g : Graph) (colBase rowBase : Nat) (s : BitState) (rc : Nat × Nat) :
    Res BitState := do
  let c ← P.u64Add colBase rc.2
  let r ← P.u64Add rowBase rc.1
  let s := if g.doesEdgeExist c r then { s with entry := s.entry ||| s.pos, nodes := s.nodes + 1 } else s
  .ok (if s.pos ≠ 0x8000000000000000 then { s with pos := (s.pos <<< 1) % (U64_MAX + 1) } else s)

/-- Iteration space of `for row in 0..8 { for col in 0..8 { … } }` as `(row, col)`.
`standard.rs:644-645`. -/
def blockPositions : List (Nat × Nat) :=
  (List.range COMPRESSION_BLOCK_DIMENSION).flatMap fun row =>
    (List.range COMPRESSION_BLOCK_DIMENSION).map fun col => (row, col)

/-- Body of the loop over the pooled matrix. `standard.rs:636-663`. -/
def compressBlock (P : Platform) (g : Graph) (threshold : F64) (builder : CGraph) (x : F64 × Nat × Nat) :
    Res CGraph :=
  if F64.le threshold x.1 then do
    let rowBase ← P.u64Mul x.2.2 COMPRESSION_BLOCK_DIMENSION
    let colBase ← P.u64Mul x.2.1 COMPRESSION_BLOCK_DIMENSION
    let s ← Res.foldl (compressBit P g colBase rowBase) ⟨0, 0, 1⟩ blockPositions
    .ok (builder.builderAdd s.entry x.2.1 x.2.2 (some s.nodes))
  else .ok builder

/-- The threshold of `compress`. `standard.rs:629`. -/
def compressThreshold (level : Nat) : F64 :=
  F64.sub (F64.div (F64.ofNat level) (F64.lit 64)) (F64.lit (1 / 100000))

/-- `compress`. `standard.rs:624-667`. -/
def compress (P : Platform) (o₁ o₂ : HashOrder) (g : Graph) (compressionLevel : Nat) : Res CGraph := do
  let compressionLevel := clampCompressionLevel compressionLevel
  let threshold := compressThreshold compressionLevel
  let builder := CGraph.builderNew g.isUndirected g.vertexCount compressionLevel
  let avgPoolMatrix ← g.findAvgPoolMatrix P o₁ COMPRESSION_BLOCK_DIMENSION
  Res.foldl (compressBlock P g threshold) builder (avgPoolMatrix.items o₂)

end Graph
end Verif
