import Verif.Model.Pool

/-!
# How much the functions do

The functions of the model once more, this time counting steps.  One step is one access to a hash table, one call of
`next` of an iterator of a hash table, one byte or character that is read or written, or one iteration of a loop over the
bits of a word.  Arithmetic, comparisons, allocation and freeing are not counted; that a hash table access and a call of `next`
take constant time is an idealisation (`next` of the standard library also skips unused slots, which depend on the capacity).
-/

namespace Verif

/-- The outcome of a function together with the number of steps. -/
structure Run (α : Type) where
  res : Res α
  steps : Nat

namespace Run

variable {α β : Type}

/-- Sequencing; nothing more is done after an error or a panic. std semantics. -/
def bind (x : Run α) (f : α → Run β) : Run β :=
  match x.res with
  | .ok a => ⟨(f a).res, x.steps + (f a).steps⟩
  | .err e => ⟨.err e, x.steps⟩
  | .panic => ⟨.panic, x.steps⟩

instance : Monad Run where
  pure a := ⟨.ok a, 0⟩
  bind := Run.bind

/-- Something that takes `n` steps. -/
def tick (n : Nat) : Run Unit := ⟨.ok (), n⟩

/-- Something that takes no steps. -/
def free (x : Res α) : Run α := ⟨x, 0⟩

/-- A `for` loop. std semantics of `for`. -/
def foldl (f : β → α → Run β) : β → List α → Run β
  | b, [] => pure b
  | b, a :: l => (f b a).bind fun b' => foldl f b' l

end Run

namespace Work

open Run

variable {V : Type}

/-! ## Iterators -/

/-- The `loop` of `next`, with the number of calls of `next` of the iterators of the tables.
`csr_adjacency_matrix.rs:386-415`, `csr_square_matrix.rs:502-531`. -/
def loop (o : HashOrder) (e : Bool) : List (Nat × HMap V) → Option (List (Nat × V)) → Nat →
    (Option (Nat × Nat × V) × TableIter V) × Nat
  | cols, some ((r, v) :: rest), cur => ((some (cur, r, v), ⟨e, o, cols, some rest, cur⟩), 1)
  | (c, rows) :: cols, some [], _ =>
    let x := loop o e cols (some (o.rows c rows.entries)) c
    (x.1, 2 + x.2)
  | (c, rows) :: cols, none, _ =>
    let x := loop o e cols (some (o.rows c rows.entries)) c
    (x.1, 1 + x.2)
  | [], some [], cur => ((none, ⟨e, o, [], some [], cur⟩), 2)
  | [], none, cur => ((none, ⟨e, o, [], none, cur⟩), 1)

/-- `Iterator::next`. `csr_adjacency_matrix.rs:381-416`, `csr_square_matrix.rs:497-532`. -/
def next (it : TableIter V) : (Option (Nat × Nat × V) × TableIter V) × Nat :=
  if it.isEmptyMatrix then ((none, it), 0)
  else loop it.order it.isEmptyMatrix it.colIter it.rowIter it.currCol

/-- `for x in &matrix { body }`: `next` and the body in turn. `fuel` bounds the number of iterations; running out of it is
reported as `panic` and proved impossible. -/
def forEach {β : Type} (body : β → Nat × Nat × V → Run β) : (fuel : Nat) → TableIter V → β → Run β
  | 0, _, _ => ⟨.panic, 0⟩
  | fuel + 1, it, b => do
    tick (next it).2
    match (next it).1.1 with
    | none => pure b
    | some x => do
      let b ← body b x
      forEach body fuel (next it).1.2 b

/-- `for x in &matrix { body }`. -/
def forIn {β : Type} (body : β → Nat × Nat × V → Run β) (it : TableIter V) (b : β) : Run β :=
  forEach body (it.remaining + 1) it b

/-! ## `CsrAdjacencyMatrix` -/

/-- `get_entry`. `csr_adjacency_matrix.rs:250-257`. -/
def getEntry (m : AdjMatrix) (col row : Nat) : Run Nat := do
  tick 1
  match m.edgesTable.get? col with
  | none => pure 0
  | some rowSet => do
    tick 1
    pure (if rowSet.contains row then 1 else 0)

/-- `set_entry`. `csr_adjacency_matrix.rs:259-285`. -/
def setEntry (m : AdjMatrix) (entry : Nat) (col row : Nat) : Run AdjMatrix :=
  match checkedAdd col 1 with
  | none => pure m
  | some colDimension =>
    match checkedAdd row 1 with
    | none => pure m
    | some rowDimension =>
      let dimension := AdjMatrix.growDimension m.dimension colDimension rowDimension
      if entry = 0 then pure { m with dimension := dimension }
      else do
        tick 1
        let rowSet := (m.edgesTable.get? col).getD HMap.empty
        tick 1
        let wasAdded := !rowSet.contains row
        pure { dimension := dimension
               edgesTable := m.edgesTable.insert col (rowSet.insert row ())
               entryCount := if wasAdded then m.entryCount + 1 else m.entryCount }

/-- `zero_entry`. `csr_adjacency_matrix.rs:287-298`. -/
def zeroEntry (m : AdjMatrix) (col row : Nat) : Run AdjMatrix := do
  tick 1
  match m.edgesTable.get? col with
  | none => pure m
  | some rowSet => do
    tick 1
    let wasRemoved := rowSet.contains row
    pure { dimension := m.dimension
           edgesTable := m.edgesTable.insert col (rowSet.remove row)
           entryCount := if wasRemoved then m.entryCount - 1 else m.entryCount }

/-- `get_sparse_col_vector`: the iterator gives each row and then `None`. `csr_adjacency_matrix.rs:75-85`. -/
def getSparseColVector (o : HashOrder) (m : AdjMatrix) (col : Nat) : Run (List Nat) := do
  tick 1
  match m.edgesTable.get? col with
  | none => pure []
  | some rowSet => do
    tick ((o.rows col rowSet.entries).length + 1)
    pure ((o.rows col rowSet.entries).map Prod.fst)

/-- `get_sparse_row_vector`: `next` and `contains` for each column, and `next` once more. `csr_adjacency_matrix.rs:114-126`. -/
def getSparseRowVector (o : HashOrder) (m : AdjMatrix) (row : Nat) : Run (List Nat) := do
  let vector ← Run.foldl (fun vector (e : Nat × HMap Unit) => do
      tick 2
      pure (if e.2.contains row then vector ++ [e.1] else vector)) [] (o.cols m.edgesTable.entries)
  tick 1
  pure vector

/-- `col_nonzero_entry_count`. `csr_adjacency_matrix.rs:142-149`. -/
def colNonzeroEntryCount (m : AdjMatrix) (col : Nat) : Run Nat := do
  tick 1
  match m.edgesTable.get? col with
  | none => pure 0
  | some rowSet => pure rowSet.size

/-- `row_nonzero_entry_count`. `csr_adjacency_matrix.rs:173-178`. -/
def rowNonzeroEntryCount (m : AdjMatrix) (row : Nat) : Run Nat := do
  let count ← Run.foldl (fun count (e : Nat × HMap Unit) => do
      tick 2
      pure (if e.2.contains row then count + 1 else count)) 0 m.edgesTable.entries
  tick 1
  pure count

/-- One cell of the text. `csr_adjacency_matrix.rs:220-230`. -/
def cellChars (m : AdjMatrix) (row : Nat) (text : List Char) (col : Nat) : Run (List Char) := do
  let entry ← getEntry m col row
  let cell := (if entry = 0 then ['0'] else ['1']) ++ (if col ≠ m.dimension - 1 then [',', ' '] else [' '])
  tick cell.length
  pure (text ++ cell)

/-- One row of the text. `csr_adjacency_matrix.rs:218-234`. -/
def rowChars (m : AdjMatrix) (text : List Char) (row : Nat) : Run (List Char) := do
  tick 2
  let text ← Run.foldl (cellChars m row) (text ++ ['[', ' ']) (List.range m.dimension)
  let close := [']'] ++ (if row ≠ m.dimension - 1 then ['\r', '\n'] else [])
  tick close.length
  pure (text ++ close)

/-- `try_to_string`. `csr_adjacency_matrix.rs:181-238`. -/
def tryToString (P : Platform) (m : AdjMatrix) : Run (List Char) :=
  if m.dimension = 0 then pure [] else do
    let dimension ← free (Res.ofOption (P.usizeTryFrom m.dimension)
      (.CapacityOverflow "Matrix dimension does not fit in platform usize"))
    let matrixEntryCount ← free (Res.ofOption (P.checkedMul dimension dimension)
      (.CapacityOverflow "Matrix string size overflowed"))
    let bufferSize ← free (Res.ofOption
      ((P.checkedMul 4 dimension).bind fun rows =>
        ((P.checkedMul 3 matrixEntryCount).bind fun x => P.checkedAdd x rows).bind fun size =>
          checkedSub size 2)
      (.CapacityOverflow "Matrix string size overflowed"))
    if P.alloc bufferSize then Run.foldl (rowChars m) [] (List.range m.dimension)
    else free (.err (.CapacityOverflow "Unable to allocate matrix string"))

/-! ## `Graph` -/

/-- `does_edge_exist`. `standard.rs:687-691`. -/
def doesEdgeExist (g : Graph) (fromId toId : Nat) : Run Bool := do
  let entry ← getEntry g.adjacencyMatrix fromId toId
  pure (entry != 0)

/-- `add_edge`. `standard.rs:245-253`. -/
def addEdge (g : Graph) (fromId toId : Nat) : Run Graph := do
  let m ← setEntry g.adjacencyMatrix 1 fromId toId
  let m ← if g.isUndirected then setEntry m 1 toId fromId else pure m
  pure { g with adjacencyMatrix := m }

/-- `add_vertex`. `standard.rs:210-226`. -/
def addVertex (g : Graph) (vertexId : Nat) (toVertexs : Option (List Nat)) : Run Graph := do
  let g' ← match toVertexs with
    | some ts => Run.foldl (fun g t => addEdge g vertexId t) g ts
    | none => pure g
  let addedEdge := match toVertexs with
    | some ts => !ts.isEmpty
    | none => false
  if !addedEdge && decide (vertexId ≥ g'.vertexCount) then do
    let m ← setEntry g'.adjacencyMatrix 0 vertexId 0
    pure { g' with adjacencyMatrix := m }
  else pure g'

/-- `delete_edge`. `standard.rs:276-284`. -/
def deleteEdge (g : Graph) (fromId toId : Nat) : Run Graph := do
  let m ← zeroEntry g.adjacencyMatrix fromId toId
  let m ← if g.isUndirected then zeroEntry m toId fromId else pure m
  pure { g with adjacencyMatrix := m }

/-- `get_vertex_in_edges`. `standard.rs:315-321`. -/
def getVertexInEdges (o : HashOrder) (g : Graph) (v : Nat) : Run (List Nat) :=
  if g.isUndirected then getSparseColVector o g.adjacencyMatrix v
  else getSparseRowVector o g.adjacencyMatrix v

/-- `get_vertex_out_edges`. `standard.rs:342-344`. -/
def getVertexOutEdges (o : HashOrder) (g : Graph) (v : Nat) : Run (List Nat) :=
  getSparseColVector o g.adjacencyMatrix v

/-- `get_vertex_in_degree`. `standard.rs:370-376`. -/
def getVertexInDegree (g : Graph) (v : Nat) : Run Nat :=
  if g.isUndirected then colNonzeroEntryCount g.adjacencyMatrix v
  else rowNonzeroEntryCount g.adjacencyMatrix v

/-- `get_vertex_out_degree`. `standard.rs:392-394`. -/
def getVertexOutDegree (g : Graph) (v : Nat) : Run Nat := colNonzeroEntryCount g.adjacencyMatrix v

/-- `for edge in &graph { edges.push(edge) }`. `standard.rs:860-908`. -/
def items (o : HashOrder) (g : Graph) : Run (List (Nat × Nat)) :=
  forIn (fun l x => pure (l ++ [(x.1, x.2.1)])) (g.adjacencyMatrix.intoIter o) []

/-- `undirected_from`. `standard.rs:132-145`. -/
def undirectedFrom (o : HashOrder) (m : AdjMatrix) : Run Graph := do
  forIn (fun _ x => do
    let entry ← getEntry m x.2.1 x.1
    if entry ≠ 1 then
      free (.err (.InvalidFormat "The adjacency matrix does not represent an undirected graph"))
    else pure ()) (m.intoIter o) ()
  pure ⟨true, m⟩

/-- `to_bytes`. `standard.rs:693-725`. -/
def toBytes (P : Platform) (o : HashOrder) (g : Graph) : Run Bytes := do
  let edgeBytes ← free (Res.ofOption
    ((P.usizeTryFrom g.adjacencyMatrix.entryCount).bind fun count =>
      (P.checkedMul count 2).bind fun count => P.checkedMul count 8)
    (.CapacityOverflow "Graph byte size overflowed"))
  let bufferSize ← free (Res.ofOption (P.checkedAdd Graph.HEADER_SIZE edgeBytes)
    (.CapacityOverflow "Graph byte size overflowed"))
  if P.alloc bufferSize then do
    let header := toBE 4 Graph.MAGIC ++ toBE 4 Graph.VERSION ++ toBE 8 g.adjacencyMatrix.dimension ++
      toBE 8 g.adjacencyMatrix.entryCount ++ [if g.isUndirected then 1 else 0] ++ [0]
    tick header.length
    forIn (fun buffer x => do
      let bytes := toBE 8 x.1 ++ toBE 8 x.2.1
      tick bytes.length
      pure (buffer ++ bytes)) (g.adjacencyMatrix.intoIter o) header
  else free (.err (.CapacityOverflow "Unable to allocate graph bytes"))

/-- `read_u32_be` and `read_u64_be`. `standard.rs:832-858`. -/
def readBE (P : Platform) (k : Nat) (bytes : Bytes) (offset : Nat) : Run Nat := do
  tick k
  free (Graph.readBE P k bytes offset)

/-- `bytes[i]`. std semantics. -/
def index (bytes : Bytes) (i : Nat) : Run Nat := do
  tick 1
  free (Graph.index bytes i)

/-- The `while` loop of `try_from`. `standard.rs:803-816`. -/
def readEdges (P : Platform) (bytes : Bytes) (dimension expected : Nat) :
    (fuel : Nat) → (pos : Nat) → Graph → Run Graph
  | 0, _, _ => ⟨.panic, 0⟩
  | fuel + 1, pos, g =>
    if pos < expected then do
      let col ← readBE P 8 bytes pos
      let pos := pos + 8
      let row ← readBE P 8 bytes pos
      let pos := pos + 8
      if col ≥ dimension || row ≥ dimension then
        free (.err (.InvalidFormat "Graph edge exceeds matrix dimension"))
      else do
        let g ← addEdge g col row
        readEdges P bytes dimension expected fuel pos g
    else pure g

/-- `TryFrom<&[u8]>`. `standard.rs:731-829`. -/
def tryFrom (P : Platform) (bytes : Bytes) : Run Graph :=
  if bytes.length < Graph.HEADER_SIZE then
    free (.err (.InvalidFormat "Slice is too short to contain Graph header"))
  else do
    let magic ← readBE P 4 bytes 0
    let version ← readBE P 4 bytes 4
    let dimension ← readBE P 8 bytes 8
    let entryCount ← readBE P 8 bytes 16
    let isUndirected ← index bytes 24
    let isWeighted ← index bytes 25
    if magic ≠ Graph.MAGIC then free (.err (.InvalidFormat "Incorrect magic number"))
    else if version ≠ Graph.VERSION then free (.err (.InvalidFormat "Unrecognized Graph version"))
    else if isUndirected > 1 then free (.err (.InvalidFormat "Invalid graph direction flag"))
    else if isWeighted ≠ 0 then free (.err (.InvalidFormat "Weighted graphs are not supported"))
    else if dimension = 0 ∧ entryCount ≠ 0 then
      free (.err (.InvalidFormat "Graph with zero dimension cannot contain edges"))
    else do
      let expected ← free (Res.ofOption
        ((P.usizeTryFrom entryCount).bind fun count => (P.checkedMul count 2).bind fun count =>
          (P.checkedMul count 8).bind fun size => P.checkedAdd size Graph.HEADER_SIZE)
        (.InvalidFormat "Graph byte size overflowed"))
      if bytes.length < expected then
        free (.err (.InvalidFormat "Slice is too short to contain all expected graph edges"))
      else if bytes.length > expected then
        free (.err (.InvalidFormat "Slice is too long represent the expected graph edges"))
      else do
        let graph := if isUndirected = 0 then Graph.newDirected else Graph.newUndirected
        let graph ← readEdges P bytes dimension expected (expected + 1) Graph.HEADER_SIZE graph
        if graph.edgeCount ≠ entryCount then
          free (.err (.InvalidFormat "Graph edge count does not match header"))
        else if dimension > 0 then addVertex graph (dimension - 1) none
        else pure graph

/-! ## `CsrSquareMatrix` -/

section
variable {T : Type}

/-- `get_entry`. `csr_square_matrix.rs:340-350`. -/
def getEntryS (N : Numeric T) (m : SqMatrix T) (col row : Nat) : Run T := do
  tick 1
  match m.edgesTable.get? col with
  | none => pure N.zero
  | some t => do
    tick 1
    match t.get? row with
    | some e => pure e
    | none => pure N.zero

/-- `set_entry`. `csr_square_matrix.rs:352-378`. -/
def setEntryS (N : Numeric T) (m : SqMatrix T) (entry : T) (col row : Nat) : Run (SqMatrix T) :=
  match checkedAdd col 1 with
  | none => pure m
  | some colDimension =>
    match checkedAdd row 1 with
    | none => pure m
    | some rowDimension =>
      let dimension := SqMatrix.growDimension m.dimension colDimension rowDimension
      if N.eq entry N.zero then pure { m with dimension := dimension }
      else do
        tick 1
        let rowTable := (m.edgesTable.get? col).getD HMap.empty
        tick 1
        let addition := rowTable.get? row
        pure { dimension := dimension
               edgesTable := m.edgesTable.insert col (rowTable.insert row entry)
               entryCount := if addition.isNone then m.entryCount + 1 else m.entryCount }

/-- `increment_entry`: `entry` of the column, `entry` of the row. `csr_square_matrix.rs:79-105`. -/
def incrementEntry (N : Numeric T) (P : Platform) (m : SqMatrix T) (col row : Nat) : Run (SqMatrix T) :=
  match checkedAdd col 1 with
  | none => pure m
  | some colDimension =>
    match checkedAdd row 1 with
    | none => pure m
    | some rowDimension => do
      let dimension := SqMatrix.growDimension m.dimension colDimension rowDimension
      tick 1
      let rowTable := (m.edgesTable.get? col).getD HMap.empty
      tick 1
      match rowTable.get? row with
      | none => pure (SqMatrix.mk dimension (m.edgesTable.insert col (rowTable.insert row N.one)) (m.entryCount + 1))
      | some e => do
        let e' ← free (N.addOne P e)
        pure (SqMatrix.mk dimension (m.edgesTable.insert col (rowTable.insert row e')) m.entryCount)

/-- `multiply_entries_by`: two nested loops over `values_mut()`; each gives its values and then `None`.
`csr_square_matrix.rs:322-328`. -/
def multiplyEntriesBy (m : SqMatrix F64) (multiplier : F64) : Run (SqMatrix F64) := do
  Run.foldl (fun _ (e : Nat × HMap F64) => tick (1 + (e.2.entries.length + 1))) () m.edgesTable.entries
  tick 1
  pure (m.multiplyEntriesBy multiplier)

end

/-! ## `CompressedGraph` -/

/-- `does_edge_exist`. `compressed.rs:184-201`. -/
def doesEdgeExistC (g : CGraph) (fromId toId : Nat) : Run Bool := do
  let entry ← getEntryS u64Fmt.toNumeric g.adjacencyMatrix (fromId / COMPRESSION_BLOCK_DIMENSION)
    (toId / COMPRESSION_BLOCK_DIMENSION)
  if entry = 0 then pure false
  else pure (decide ((entry >>> (COMPRESSION_BLOCK_DIMENSION * (toId % COMPRESSION_BLOCK_DIMENSION) +
    fromId % COMPRESSION_BLOCK_DIMENSION)) &&& 1 = 1))

/-- `CompressedGraphBuilder::new`. `compressed.rs:515-540`. -/
def builderNew (isUndirected : Bool) (vertexCount compressionLevel : Nat) : Run CGraph := do
  let columnCount := vertexCount / COMPRESSION_BLOCK_DIMENSION
  let columnCount :=
    if vertexCount % COMPRESSION_BLOCK_DIMENSION = 0 ∧ columnCount ≠ 0 then columnCount - 1
    else columnCount
  let m ← setEntryS u64Fmt.toNumeric SqMatrix.new 0 columnCount 0
  pure { edgeCount := 0
         vertexCount := vertexCount
         adjacencyMatrix := m
         isUndirected := isUndirected
         compressionLevel := clampCompressionLevel compressionLevel }

/-- `add_compressed_matrix_entry`. `compressed.rs:592-607`; `count_ones` is one instruction. -/
def builderAdd (g : CGraph) (entry col row : Nat) (hammingWeight : Option Nat) : Run CGraph := do
  let additionalEdges := match hammingWeight with
    | some w => w
    | none => popCount entry
  let m ← setEntryS u64Fmt.toNumeric g.adjacencyMatrix entry col row
  pure { g with
    edgeCount := saturatingAdd g.edgeCount additionalEdges
    adjacencyMatrix := m }

/-- One iteration of the bit loop of `decompress`. `compressed.rs:94-107`. -/
def decompressBit (P : Platform) (entry col row : Nat) (s : Graph × Nat) (i : Nat) : Run (Graph × Nat) := do
  tick 1
  let graph ←
    if entry &&& s.2 = s.2 then do
      let c ← free (P.u64Mul col COMPRESSION_BLOCK_DIMENSION)
      let absoluteCol ← free (P.u64Add c (i % COMPRESSION_BLOCK_DIMENSION))
      let r ← free (P.u64Mul row COMPRESSION_BLOCK_DIMENSION)
      let absoluteRow ← free (P.u64Add r (i / COMPRESSION_BLOCK_DIMENSION))
      addEdge s.1 absoluteCol absoluteRow
    else pure s.1
  pure (graph, (s.2 <<< 1) % (U64_MAX + 1))

/-- `decompress`. `compressed.rs:80-111`. -/
def decompress (P : Platform) (o : HashOrder) (g : CGraph) : Run Graph := do
  let graph := if g.isUndirected then Graph.newUndirected else Graph.newDirected
  let graph ← if g.vertexCount > 0 then addVertex graph (g.vertexCount - 1) none else pure graph
  forIn (fun graph x => do
    let s ← Run.foldl (decompressBit P x.2.2 x.1 x.2.1) (graph, 1) (List.range 64)
    pure s.1) (g.adjacencyMatrix.intoIter o) graph

/-- `to_bytes`. `compressed.rs:203-244`. -/
def toBytesC (P : Platform) (o : HashOrder) (g : CGraph) : Run Bytes := do
  let entryBytes ← free (Res.ofOption
    ((P.usizeTryFrom g.adjacencyMatrix.entryCount).bind fun count =>
      (P.checkedMul count 3).bind fun count => P.checkedMul count 8)
    (.CapacityOverflow "CompressedGraph byte size overflowed"))
  let bufferSize ← free (Res.ofOption (P.checkedAdd CGraph.HEADER_SIZE entryBytes)
    (.CapacityOverflow "CompressedGraph byte size overflowed"))
  if P.alloc bufferSize then do
    let header := toBE 4 CGraph.MAGIC ++ toBE 4 CGraph.VERSION ++ toBE 8 g.adjacencyMatrix.dimension ++
      toBE 8 g.adjacencyMatrix.entryCount ++ toBE 8 g.edgeCount ++ toBE 8 g.vertexCount ++
      [if g.isUndirected then 1 else 0] ++ [UInt8.ofNat g.compressionLevel]
    tick header.length
    forIn (fun buffer x => do
      let bytes := toBE 8 x.2.2 ++ toBE 8 x.1 ++ toBE 8 x.2.1
      tick bytes.length
      pure (buffer ++ bytes)) (g.adjacencyMatrix.intoIter o) header
  else free (.err (.CapacityOverflow "Unable to allocate compressed graph bytes"))

/-- `read_u32_be` and `read_u64_be`. `compressed.rs:383-409`. -/
def readBEC (P : Platform) (k : Nat) (bytes : Bytes) (offset : Nat) : Run Nat := do
  tick k
  free (CGraph.readBE P k bytes offset)

/-- `validate_compressed_entry_bounds`. `compressed.rs:419-455`. -/
def validateEntryBounds (entry col row vertexCount : Nat) : Run Unit :=
  Run.foldl (fun _ bit => do
    tick 1
    free (CGraph.validateBit entry col row vertexCount bit)) () (List.range 64)

/-- The `while` loop of `try_from`. `compressed.rs:333-371`. -/
def readEntries (P : Platform) (bytes : Bytes) (dimension vertexCount expected : Nat) :
    (fuel : Nat) → (pos : Nat) → (parsed : Nat) → CGraph → Run (Nat × CGraph)
  | 0, _, _, _ => ⟨.panic, 0⟩
  | fuel + 1, pos, parsed, g =>
    if pos < expected then do
      let entry ← readBEC P 8 bytes pos
      let pos := pos + 8
      let col ← readBEC P 8 bytes pos
      let pos := pos + 8
      let row ← readBEC P 8 bytes pos
      let pos := pos + 8
      if entry = 0 then free (.err (.InvalidFormat "CompressedGraph entry cannot be zero"))
      else if col ≥ dimension ∨ row ≥ dimension then
        free (.err (.InvalidFormat "CompressedGraph entry exceeds matrix dimension"))
      else do
        validateEntryBounds entry col row vertexCount
        let hammingWeight := popCount entry
        let parsed ← free (Res.ofOption (checkedAdd parsed hammingWeight)
          (.InvalidFormat "CompressedGraph edge count overflowed"))
        let g ← builderAdd g entry col row (some hammingWeight)
        readEntries P bytes dimension vertexCount expected fuel pos parsed g
    else pure (parsed, g)

/-- `TryFrom<&[u8]>`. `compressed.rs:250-380`. -/
def tryFromC (P : Platform) (bytes : Bytes) : Run CGraph :=
  if bytes.length < CGraph.HEADER_SIZE then
    free (.err (.InvalidFormat "Slice is too short to contain CompressedGraph header"))
  else do
    let magic ← readBEC P 4 bytes 0
    let version ← readBEC P 4 bytes 4
    let dimension ← readBEC P 8 bytes 8
    let entryCount ← readBEC P 8 bytes 16
    let edgeCount ← readBEC P 8 bytes 24
    let vertexCount ← readBEC P 8 bytes 32
    let isUndirected ← index bytes 40
    let compressionLevel ← index bytes 41
    if magic ≠ CGraph.MAGIC then free (.err (.InvalidFormat "Incorrect magic number"))
    else if version < CGraph.VERSION then free (.err (.InvalidFormat "Outdated CompressedGraph version"))
    else if version ≠ CGraph.VERSION then free (.err (.InvalidFormat "Unrecognized CompressedGraph version"))
    else if isUndirected > 1 then free (.err (.InvalidFormat "Invalid compressed graph direction flag"))
    else if ¬ (1 ≤ compressionLevel ∧ compressionLevel ≤ 64) then
      free (.err (.InvalidFormat "Invalid compression level"))
    else if dimension ≠ compressedMatrixDimension vertexCount then
      free (.err (.InvalidFormat "CompressedGraph matrix dimension does not match vertex count"))
    else if dimension = 0 ∧ entryCount ≠ 0 then
      free (.err (.InvalidFormat "CompressedGraph with zero matrix dimension cannot contain entries"))
    else do
      let expected ← free (Res.ofOption
        ((P.usizeTryFrom entryCount).bind fun count => (P.checkedMul count 3).bind fun count =>
          (P.checkedMul count 8).bind fun size => P.checkedAdd size CGraph.HEADER_SIZE)
        (.InvalidFormat "CompressedGraph byte size overflowed"))
      if bytes.length < expected then
        free (.err (.InvalidFormat "Slice is too short to contain all expected graph edges"))
      else if bytes.length > expected then
        free (.err (.InvalidFormat "Slice is too long represent the expected graph edges"))
      else do
        let builder ← builderNew (isUndirected == 1) vertexCount compressionLevel
        let s ← readEntries P bytes dimension vertexCount expected (expected + 1) CGraph.HEADER_SIZE 0 builder
        if s.1 ≠ edgeCount then
          free (.err (.InvalidFormat "CompressedGraph edge count does not match header"))
        else pure s.2

/-! ## Pooling, approximation and compression -/

/-- The counting loop. `standard.rs:464-468`. -/
def countBlocks (P : Platform) (blockDimension : Nat) (it : TableIter Unit) : Run (SqMatrix F64) :=
  forIn (fun m x => incrementEntry f64Numeric P m (x.1 / blockDimension) (x.2.1 / blockDimension)) it SqMatrix.new

/-- `find_avg_pool_matrix`. `standard.rs:441-476`. -/
def findAvgPoolMatrix (P : Platform) (o : HashOrder) (g : Graph) (blockDimension : Nat) :
    Run (SqMatrix F64) :=
  if g.vertexCount = 0 then pure SqMatrix.new
  else do
    let blockDimension := Graph.clampBlockDimension g.vertexCount blockDimension
    let blocksPerRow := Graph.blocksPerRow g.vertexCount blockDimension
    let occurrenceMatrix ← countBlocks P blockDimension (g.adjacencyMatrix.intoIter o)
    let square ← free (P.u64Mul blockDimension blockDimension)
    let blockMultiplier := F64.div (F64.lit 1) (F64.ofNat square)
    let avgPoolMatrix := occurrenceMatrix.setMinimumDimension blocksPerRow
    multiplyEntriesBy avgPoolMatrix blockMultiplier

/-- `approximate`; the copy of a small graph is made by cloning its tables, entry by entry. `standard.rs:536-575`. -/
def approximate (P : Platform) (o₁ o₂ : HashOrder) (g : Graph) (blockDimension : Nat) (threshold : F64) :
    Run Graph :=
  if blockDimension ≤ 1 ∨ g.vertexCount ≤ 1 then do
    Run.foldl (fun _ (e : Nat × HMap Unit) => tick (1 + e.2.entries.length)) () g.adjacencyMatrix.edgesTable.entries
    pure g
  else do
    let threshold := clampThreshold threshold
    let blockDimension := if blockDimension > g.vertexCount then g.vertexCount else blockDimension
    let blocksPerRow := Graph.blocksPerRow g.vertexCount blockDimension
    let avgPoolMatrix ← findAvgPoolMatrix P o₁ g blockDimension
    let approxGraph := if g.isUndirected then Graph.newUndirected else Graph.newDirected
    let approxGraph ← addVertex approxGraph (blocksPerRow - 1) none
    forIn (fun ag x => if F64.le threshold x.2.2 then addEdge ag x.1 x.2.1 else pure ag)
      (avgPoolMatrix.intoIter o₂) approxGraph

/-- Body of the two nested loops. `standard.rs:646-653`. -/
def compressBit (P : Platform) (g : Graph) (colBase rowBase : Nat) (s : Graph.BitState) (rc : Nat × Nat) :
    Run Graph.BitState := do
  tick 1
  let c ← free (P.u64Add colBase rc.2)
  let r ← free (P.u64Add rowBase rc.1)
  let found ← doesEdgeExist g c r
  let s := if found then { s with entry := s.entry ||| s.pos, nodes := s.nodes + 1 } else s
  pure (if s.pos ≠ 0x8000000000000000 then { s with pos := (s.pos <<< 1) % (U64_MAX + 1) } else s)

/-- Body of the loop over the pooled matrix. `standard.rs:636-663`. -/
def compressBlock (P : Platform) (g : Graph) (threshold : F64) (builder : CGraph) (x : Nat × Nat × F64) :
    Run CGraph :=
  if F64.le threshold x.2.2 then do
    let rowBase ← free (P.u64Mul x.2.1 COMPRESSION_BLOCK_DIMENSION)
    let colBase ← free (P.u64Mul x.1 COMPRESSION_BLOCK_DIMENSION)
    let s ← Run.foldl (compressBit P g colBase rowBase) ⟨0, 0, 1⟩ Graph.blockPositions
    builderAdd builder s.entry x.1 x.2.1 (some s.nodes)
  else pure builder

/-- `compress`. `standard.rs:624-667`. -/
def compress (P : Platform) (o₁ o₂ : HashOrder) (g : Graph) (compressionLevel : Nat) : Run CGraph := do
  let compressionLevel := clampCompressionLevel compressionLevel
  let threshold := Graph.compressThreshold compressionLevel
  let builder ← builderNew g.isUndirected g.vertexCount compressionLevel
  let avgPoolMatrix ← findAvgPoolMatrix P o₁ g COMPRESSION_BLOCK_DIMENSION
  forIn (compressBlock P g threshold) (avgPoolMatrix.intoIter o₂) builder

end Work
end Verif
