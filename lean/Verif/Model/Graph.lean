import Verif.Model.AdjMatrix

/-!
# Model of `StandardGraph` / `Graph` (`/repo/graphrox-rs/src/graph/standard.rs`)

Pooling, approximation and compression are in `Verif.Model.Pool` and `Verif.Model.Compress`.
-/

namespace Verif

/-- `StandardGraph`. `standard.rs:42-45`. -/
structure Graph where
  isUndirected : Bool
  adjacencyMatrix : AdjMatrix

namespace Graph

/-- `new_undirected`. `standard.rs:61-66`. -/
def newUndirected : Graph := ⟨true, AdjMatrix.new⟩

/-- `new_directed`. `standard.rs:80-85`. -/
def newDirected : Graph := ⟨false, AdjMatrix.new⟩

/-- `directed_from`. `standard.rs:104-109`. -/
def directedFrom (m : AdjMatrix) : Graph := ⟨false, m⟩

/-- The checking loop of `undirected_from` over the remaining items: `true` if the loop runs to the end.
`standard.rs:133-139`. -/
def undirectedCheck (m : AdjMatrix) : List (Nat × Nat) → Bool
  | [] => true
  | (col, row) :: rest => if m.getEntry row col ≠ 1 then false else undirectedCheck m rest

/-- `undirected_from_unchecked`, an `unsafe fn`: takes the matrix as it is. `standard.rs:172-177`. -/
def undirectedFromUnchecked (m : AdjMatrix) : Graph := ⟨true, m⟩

/-- `undirected_from`. `standard.rs:132-145`. -/
def undirectedFrom (o : HashOrder) (m : AdjMatrix) : Res Graph :=
  if undirectedCheck m (m.items o) then .ok ⟨true, m⟩
  else .err (.InvalidFormat "The adjacency matrix does not represent an undirected graph")

/-- `vertex_count`. `standard.rs:675-677`. -/
def vertexCount (g : Graph) : Nat := g.adjacencyMatrix.dimension

/-- `edge_count`. `standard.rs:679-681`. -/
def edgeCount (g : Graph) : Nat := g.adjacencyMatrix.entryCount

/-- `does_edge_exist`. `standard.rs:687-691`. -/
def doesEdgeExist (g : Graph) (fromId toId : Nat) : Bool :=
  g.adjacencyMatrix.getEntry fromId toId != 0

/-- `add_edge`. `standard.rs:245-253`. -/
def addEdge (g : Graph) (fromId toId : Nat) : Graph :=
  let m := g.adjacencyMatrix.setEntry 1 fromId toId
  let m := if g.isUndirected then m.setEntry 1 toId fromId else m
  { g with adjacencyMatrix := m }

/-- `add_vertex`. `standard.rs:210-226`. -/
def addVertex (g : Graph) (vertexId : Nat) (toVertexs : Option (List Nat)) : Graph :=
  let g' := match toVertexs with
    | some ts => ts.foldl (fun g t => g.addEdge vertexId t) g
    | none => g
  let addedEdge := match toVertexs with
    | some ts => !ts.isEmpty
    | none => false
  if !addedEdge && decide (vertexId ≥ g'.vertexCount) then
    { g' with adjacencyMatrix := g'.adjacencyMatrix.setEntry 0 vertexId 0 }
  else g'

/-- `delete_edge`. `standard.rs:276-284`. -/
def deleteEdge (g : Graph) (fromId toId : Nat) : Graph :=
  let m := g.adjacencyMatrix.zeroEntry fromId toId
  let m := if g.isUndirected then m.zeroEntry toId fromId else m
  { g with adjacencyMatrix := m }

/-- `get_vertex_in_edges`. `standard.rs:315-321`. -/
def getVertexInEdges (o : HashOrder) (g : Graph) (v : Nat) : List Nat :=
  if g.isUndirected then g.adjacencyMatrix.getSparseColVector o v
  else g.adjacencyMatrix.getSparseRowVector o v

/-- `get_vertex_out_edges`. `standard.rs:342-344`. -/
def getVertexOutEdges (o : HashOrder) (g : Graph) (v : Nat) : List Nat :=
  g.adjacencyMatrix.getSparseColVector o v

/-- `get_vertex_in_degree`. `standard.rs:370-376`. -/
def getVertexInDegree (g : Graph) (v : Nat) : Nat :=
  if g.isUndirected then g.adjacencyMatrix.colNonzeroEntryCount v
  else g.adjacencyMatrix.rowNonzeroEntryCount v

/-- `get_vertex_out_degree`. `standard.rs:392-394`. -/
def getVertexOutDegree (g : Graph) (v : Nat) : Nat := g.adjacencyMatrix.colNonzeroEntryCount v

/-- The items of `for (from, to) in &graph`. `standard.rs:860-908` (delegates to the matrix iterator). -/
def items (o : HashOrder) (g : Graph) : List (Nat × Nat) := g.adjacencyMatrix.items o

/-- `matrix_string`. `standard.rs:683-685`. -/
def matrixString (P : Platform) (g : Graph) : Res (List Char) := g.adjacencyMatrix.tryToString P

/-- `GRAPH_BYTES_MAGIC_NUMBER`. `standard.rs:10`. -/
def MAGIC : Nat := 0x7ae71ffd
/-- `GRAPH_BYTES_VERSION`. `standard.rs:11`. -/
def VERSION : Nat := 1
/-- `GRAPH_BYTES_HEADER_SIZE`. `standard.rs:12`. -/
def HEADER_SIZE : Nat := 26

/-- `to_bytes`. `standard.rs:693-725`. -/
def toBytes (P : Platform) (o : HashOrder) (g : Graph) : Res Bytes := do
  let edgeBytes ← Res.ofOption
    ((P.usizeTryFrom g.adjacencyMatrix.entryCount).bind fun count =>
      (P.checkedMul count 2).bind fun count => P.checkedMul count 8)
    (.CapacityOverflow "Graph byte size overflowed")
  let bufferSize ← Res.ofOption (P.checkedAdd HEADER_SIZE edgeBytes)
    (.CapacityOverflow "Graph byte size overflowed")
  if P.alloc bufferSize then
    .ok (toBE 4 MAGIC ++ toBE 4 VERSION ++ toBE 8 g.adjacencyMatrix.dimension ++
      toBE 8 g.adjacencyMatrix.entryCount ++ [if g.isUndirected then 1 else 0] ++ [0] ++
      (g.adjacencyMatrix.items o).flatMap (fun e => toBE 8 e.1 ++ toBE 8 e.2))
  else .err (.CapacityOverflow "Unable to allocate graph bytes")

/-- `read_u32_be` (`k = 4`, `standard.rs:832-844`) and `read_u64_be` (`k = 8`, `standard.rs:846-858`);
the two differ only in the width.  The `try_into` of a slice of length `k` into `[u8; k]` cannot fail
but is kept as a branch (its message, "Invalid Graph u32/u64 field", is shortened to one text). -/
def readBE (P : Platform) (k : Nat) (bytes : Bytes) (offset : Nat) : Res Nat := do
  let stop ← Res.ofOption (P.checkedAdd offset k) (.InvalidFormat "Graph byte offset overflowed")
  let slice ← Res.ofOption (sliceGet bytes offset stop)
    (.InvalidFormat "Slice is too short for Graph field")
  if slice.length = k then .ok (fromBE slice) else .err (.InvalidFormat "Invalid Graph field")

/-- `bytes[i]`: panics when out of bounds. std semantics. -/
def index (bytes : Bytes) (i : Nat) : Res Nat :=
  match bytes[i]? with
  | some b => .ok b.toNat
  | none => .panic

/-- The `while` loop of `try_from`, `standard.rs:803-816`.  `fuel` is the number of iterations allowed;
the caller passes enough (the loop advances by 16 bytes each time), running out of fuel is
reported as `panic` and proved impossible.  `pos += 8` is unchecked `usize` addition, but `readBE`
has just checked that the same sum fits. -/
def readEdges (P : Platform) (bytes : Bytes) (dimension expected : Nat) :
    (fuel : Nat) → (pos : Nat) → Graph → Res Graph
  | 0, _, _ => .panic
  | fuel + 1, pos, g =>
    if pos < expected then do
      let col ← readBE P 8 bytes pos
      let pos := pos + 8
      let row ← readBE P 8 bytes pos
      let pos := pos + 8
      if col ≥ dimension || row ≥ dimension then
        .err (.InvalidFormat "Graph edge exceeds matrix dimension")
      else readEdges P bytes dimension expected fuel pos (g.addEdge col row)
    else .ok g

/-- `TryFrom<&[u8]>`. `standard.rs:731-829`, with the checks in source order. -/
def tryFrom (P : Platform) (bytes : Bytes) : Res Graph :=
  if bytes.length < HEADER_SIZE then
    .err (.InvalidFormat "Slice is too short to contain Graph header")
  else do
    let magic ← readBE P 4 bytes 0
    let version ← readBE P 4 bytes 4
    let dimension ← readBE P 8 bytes 8
    let entryCount ← readBE P 8 bytes 16
    let isUndirected ← index bytes 24
    let isWeighted ← index bytes 25
    if magic ≠ MAGIC then .err (.InvalidFormat "Incorrect magic number")
    else if version ≠ VERSION then .err (.InvalidFormat "Unrecognized Graph version")
    else if isUndirected > 1 then .err (.InvalidFormat "Invalid graph direction flag")
    else if isWeighted ≠ 0 then .err (.InvalidFormat "Weighted graphs are not supported")
    else if dimension = 0 ∧ entryCount ≠ 0 then
      .err (.InvalidFormat "Graph with zero dimension cannot contain edges")
    else do
      let expected ← Res.ofOption
        ((P.usizeTryFrom entryCount).bind fun count => (P.checkedMul count 2).bind fun count =>
          (P.checkedMul count 8).bind fun size => P.checkedAdd size HEADER_SIZE)
        (.InvalidFormat "Graph byte size overflowed")
      if bytes.length < expected then
        .err (.InvalidFormat "Slice is too short to contain all expected graph edges")
      else if bytes.length > expected then
        .err (.InvalidFormat "Slice is too long represent the expected graph edges")
      else do
        let graph := if isUndirected = 0 then newDirected else newUndirected
        let graph ← readEdges P bytes dimension expected (expected + 1) HEADER_SIZE graph
        if graph.edgeCount ≠ entryCount then
          .err (.InvalidFormat "Graph edge count does not match header")
        else if dimension > 0 then .ok (graph.addVertex (dimension - 1) none)
        else .ok graph

end Graph

end Verif
