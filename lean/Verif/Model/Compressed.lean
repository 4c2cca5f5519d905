import Verif.Model.Graph
import Verif.Model.SqMatrix

/-!
# Model of `CompressedGraph` and `CompressedGraphBuilder` (`/repo/graphrox-rs/src/graph/compressed.rs`)
-/

namespace Verif

/-- `impl Numeric for u64`. `util/mod.rs:157-192`. -/
def u64Fmt : NumFmt Nat := uintFmt U64_MAX

/-- `CompressedGraph`. `compressed.rs:51-57`. -/
structure CGraph where
  edgeCount : Nat
  vertexCount : Nat
  adjacencyMatrix : SqMatrix Nat
  isUndirected : Bool
  compressionLevel : Nat

/-- `u64::count_ones`. std semantics. -/
def popCount (x : Nat) : Nat := ((List.range 64).filter (fun i => x.testBit i)).length

/-- `compressed_matrix_dimension`. `compressed.rs:411-417`. -/
def compressedMatrixDimension (vertexCount : Nat) : Nat :=
  let dimension := vertexCount / COMPRESSION_BLOCK_DIMENSION
  if vertexCount % COMPRESSION_BLOCK_DIMENSION ≠ 0 ∨ dimension = 0 then dimension + 1 else dimension

namespace CGraph

/-! ## Builder: a builder is its graph (`compressed.rs:495-497`) -/

/-- `CompressedGraphBuilder::new`. `compressed.rs:515-540`. -/
def builderNew (isUndirected : Bool) (vertexCount compressionLevel : Nat) : CGraph :=
  let columnCount := vertexCount / COMPRESSION_BLOCK_DIMENSION
  let columnCount :=
    if vertexCount % COMPRESSION_BLOCK_DIMENSION = 0 ∧ columnCount ≠ 0 then columnCount - 1
    else columnCount
  { edgeCount := 0
    vertexCount := vertexCount
    adjacencyMatrix := SqMatrix.new.setEntry u64Fmt.toNumeric 0 columnCount 0
    isUndirected := isUndirected
    compressionLevel := clampCompressionLevel compressionLevel }

/-- `add_compressed_matrix_entry`. `compressed.rs:592-607`; `find_hamming_weight` is `compressed.rs:644-647`. -/
def builderAdd (g : CGraph) (entry col row : Nat) (hammingWeight : Option Nat) : CGraph :=
  let additionalEdges := match hammingWeight with
    | some w => w
    | none => popCount entry
  { g with
    edgeCount := saturatingAdd g.edgeCount additionalEdges
    adjacencyMatrix := g.adjacencyMatrix.setEntry u64Fmt.toNumeric entry col row }

/-! ## Queries -/

/-- `get_compressed_matrix_entry`. `compressed.rs:162-164`. -/
def getCompressedMatrixEntry (g : CGraph) (col row : Nat) : Nat :=
  g.adjacencyMatrix.getEntry u64Fmt.toNumeric col row

/-- `does_edge_exist`. `compressed.rs:184-201`. -/
def doesEdgeExist (g : CGraph) (fromId toId : Nat) : Bool :=
  let col := fromId / COMPRESSION_BLOCK_DIMENSION
  let row := toId / COMPRESSION_BLOCK_DIMENSION
  let entry := g.adjacencyMatrix.getEntry u64Fmt.toNumeric col row
  if entry = 0 then false
  else
    let colPos := fromId % COMPRESSION_BLOCK_DIMENSION
    let rowPos := toId % COMPRESSION_BLOCK_DIMENSION
    let pos := COMPRESSION_BLOCK_DIMENSION * rowPos + colPos
    decide ((entry >>> pos) &&& 1 = 1)

/-- `matrix_string`. `compressed.rs:180-182`. -/
def matrixString (P : Platform) (o₁ o₂ : HashOrder) (g : CGraph) : Res (List Char) :=
  g.adjacencyMatrix.toStringWithPrecision P u64Fmt o₁ o₂ 0

/-- One iteration of the bit loop of `decompress`, with the loop state `(graph, curr)`.
`compressed.rs:94-107`; `curr` is `Wrapping<u64>`. -/
def decompressBit (P : Platform) (entry col row : Nat) (s : Graph × Nat) (i : Nat) : Res (Graph × Nat) := do
  let graph ←
    if entry &&& s.2 = s.2 then do
      let c ← P.u64Mul col COMPRESSION_BLOCK_DIMENSION
      let absoluteCol ← P.u64Add c (i % COMPRESSION_BLOCK_DIMENSION)
      let r ← P.u64Mul row COMPRESSION_BLOCK_DIMENSION
      let absoluteRow ← P.u64Add r (i / COMPRESSION_BLOCK_DIMENSION)
      .ok (s.1.addEdge absoluteCol absoluteRow)
    else .ok s.1
  .ok (graph, (s.2 <<< 1) % (U64_MAX + 1))

/-- `decompress`. `compressed.rs:80-111`. -/
def decompress (P : Platform) (o : HashOrder) (g : CGraph) : Res Graph :=
  let graph := if g.isUndirected then Graph.newUndirected else Graph.newDirected
  let graph := if g.vertexCount > 0 then graph.addVertex (g.vertexCount - 1) none else graph
  Res.foldl (fun graph (x : Nat × Nat × Nat) =>
      ((Res.foldl (decompressBit P x.1 x.2.1 x.2.2) (graph, 1) (List.range 64)).map Prod.fst))
    graph (g.adjacencyMatrix.items o)

/-! ## Bytes -/

/-- `COMPRESSED_GRAPH_BYTES_MAGIC_NUMBER`. `compressed.rs:10`. -/
def MAGIC : Nat := 0x71ff7aed
/-- `COMPRESSED_GRAPH_BYTES_VERSION`. `compressed.rs:11`. -/
def VERSION : Nat := 2
/-- `COMPRESSED_GRAPH_BYTES_HEADER_SIZE`. `compressed.rs:12`. -/
def HEADER_SIZE : Nat := 42

/-- `to_bytes`. `compressed.rs:203-244`. -/
def toBytes (P : Platform) (o : HashOrder) (g : CGraph) : Res Bytes := do
  let entryBytes ← Res.ofOption
    ((P.usizeTryFrom g.adjacencyMatrix.entryCount).bind fun count =>
      (P.checkedMul count 3).bind fun count => P.checkedMul count 8)
    (.CapacityOverflow "CompressedGraph byte size overflowed")
  let bufferSize ← Res.ofOption (P.checkedAdd HEADER_SIZE entryBytes)
    (.CapacityOverflow "CompressedGraph byte size overflowed")
  if P.alloc bufferSize then
    .ok (toBE 4 MAGIC ++ toBE 4 VERSION ++ toBE 8 g.adjacencyMatrix.dimension ++
      toBE 8 g.adjacencyMatrix.entryCount ++ toBE 8 g.edgeCount ++ toBE 8 g.vertexCount ++
      [if g.isUndirected then 1 else 0] ++ [UInt8.ofNat g.compressionLevel] ++
      (g.adjacencyMatrix.items o).flatMap (fun e => toBE 8 e.1 ++ toBE 8 e.2.1 ++ toBE 8 e.2.2))
  else .err (.CapacityOverflow "Unable to allocate compressed graph bytes")

/-- `read_u32_be` / `read_u64_be`. `compressed.rs:383-409`, as in `standard.rs` but with other messages
(the unreachable "Invalid CompressedGraph u32/u64 field" is shortened to one text). -/
def readBE (P : Platform) (k : Nat) (bytes : Bytes) (offset : Nat) : Res Nat := do
  let stop ← Res.ofOption (P.checkedAdd offset k)
    (.InvalidFormat "CompressedGraph byte offset overflowed")
  let slice ← Res.ofOption (sliceGet bytes offset stop)
    (.InvalidFormat "Slice is too short for CompressedGraph field")
  if slice.length = k then .ok (fromBE slice) else .err (.InvalidFormat "Invalid CompressedGraph field")

/-- One iteration of the loop of `validate_compressed_entry_bounds`. `compressed.rs:425-452`. -/
def validateBit (entry col row vertexCount : Nat) (bit : Nat) : Res Unit :=
  if (entry >>> bit) &&& 1 = 0 then .ok ()
  else do
    let absoluteCol ← Res.ofOption
      ((checkedMul col COMPRESSION_BLOCK_DIMENSION).bind fun base =>
        checkedAdd base (bit % COMPRESSION_BLOCK_DIMENSION))
      (.InvalidFormat "CompressedGraph column coordinate overflowed")
    let absoluteRow ← Res.ofOption
      ((checkedMul row COMPRESSION_BLOCK_DIMENSION).bind fun base =>
        checkedAdd base (bit / COMPRESSION_BLOCK_DIMENSION))
      (.InvalidFormat "CompressedGraph row coordinate overflowed")
    if absoluteCol ≥ vertexCount ∨ absoluteRow ≥ vertexCount then
      .err (.InvalidFormat "CompressedGraph entry contains edge outside vertex count")
    else .ok ()

/-- `validate_compressed_entry_bounds`. `compressed.rs:419-455`. -/
def validateEntryBounds (entry col row vertexCount : Nat) : Res Unit :=
  Res.foldl (fun _ bit => validateBit entry col row vertexCount bit) () (List.range 64)

/-- The `while` loop of `try_from`. `compressed.rs:333-371`, with state `(parsed_edge_count, builder)`.
`fuel` as in `Graph.readEdges`. -/
def readEntries (P : Platform) (bytes : Bytes) (dimension vertexCount expected : Nat) :
    (fuel : Nat) → (pos : Nat) → (parsed : Nat) → CGraph → Res (Nat × CGraph)
  | 0, _, _, _ => .panic
  | fuel + 1, pos, parsed, g =>
    if pos < expected then do
      let entry ← readBE P 8 bytes pos
      let pos := pos + 8
      let col ← readBE P 8 bytes pos
      let pos := pos + 8
      let row ← readBE P 8 bytes pos
      let pos := pos + 8
      if entry = 0 then .err (.InvalidFormat "CompressedGraph entry cannot be zero")
      else if col ≥ dimension ∨ row ≥ dimension then
        .err (.InvalidFormat "CompressedGraph entry exceeds matrix dimension")
      else do
        validateEntryBounds entry col row vertexCount
        let hammingWeight := popCount entry
        let parsed ← Res.ofOption (checkedAdd parsed hammingWeight)
          (.InvalidFormat "CompressedGraph edge count overflowed")
        readEntries P bytes dimension vertexCount expected fuel pos parsed
          (g.builderAdd entry col row (some hammingWeight))
    else .ok (parsed, g)

/-- `TryFrom<&[u8]>`. `compressed.rs:250-380`, with the checks in source order. -/
def tryFrom (P : Platform) (bytes : Bytes) : Res CGraph :=
  if bytes.length < HEADER_SIZE then
    .err (.InvalidFormat "Slice is too short to contain CompressedGraph header")
  else do
    let magic ← readBE P 4 bytes 0
    let version ← readBE P 4 bytes 4
    let dimension ← readBE P 8 bytes 8
    let entryCount ← readBE P 8 bytes 16
    let edgeCount ← readBE P 8 bytes 24
    let vertexCount ← readBE P 8 bytes 32
    let isUndirected ← Graph.index bytes 40
    let compressionLevel ← Graph.index bytes 41
    if magic ≠ MAGIC then .err (.InvalidFormat "Incorrect magic number")
    else if version < VERSION then .err (.InvalidFormat "Outdated CompressedGraph version")
    else if version ≠ VERSION then .err (.InvalidFormat "Unrecognized CompressedGraph version")
    else if isUndirected > 1 then .err (.InvalidFormat "Invalid compressed graph direction flag")
    else if ¬ (1 ≤ compressionLevel ∧ compressionLevel ≤ 64) then
      .err (.InvalidFormat "Invalid compression level")
    else if dimension ≠ compressedMatrixDimension vertexCount then
      .err (.InvalidFormat "CompressedGraph matrix dimension does not match vertex count")
    else if dimension = 0 ∧ entryCount ≠ 0 then
      .err (.InvalidFormat "CompressedGraph with zero matrix dimension cannot contain entries")
    else do
      let expected ← Res.ofOption
        ((P.usizeTryFrom entryCount).bind fun count => (P.checkedMul count 3).bind fun count =>
          (P.checkedMul count 8).bind fun size => P.checkedAdd size HEADER_SIZE)
        (.InvalidFormat "CompressedGraph byte size overflowed")
      if bytes.length < expected then
        .err (.InvalidFormat "Slice is too short to contain all expected graph edges")
      else if bytes.length > expected then
        .err (.InvalidFormat "Slice is too long represent the expected graph edges")
      else do
        let s ← readEntries P bytes dimension vertexCount expected (expected + 1) HEADER_SIZE 0
          (builderNew (isUndirected == 1) vertexCount compressionLevel)
        if s.1 ≠ edgeCount then
          .err (.InvalidFormat "CompressedGraph edge count does not match header")
        else .ok s.2

end CGraph

end Verif
