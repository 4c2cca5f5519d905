import Verif.Props.CApi
import Verif.Validation.RepoTests

/-!
# The unit tests of `/repo/graphrox-c/src/lib.rs`, run on the model of the C interface

Tests of the model, not theorems about the code.  Each test is a program of C calls with assertions; `passes` says that it
ends without undefined behaviour, abort or failed assertion, and that no object of the library or of the test is left in memory
(`test_gphrx_compressed_graph_is_undirected` frees nothing, so the frees were added here).  Assertions that compare with a value
asserted elsewhere in the same test are left out, and tests that use the same graph are merged.  Strings are freed where the test drops the `CString`.
-/

namespace Verif.Validation
open Verif Props CApi

/-- `assert!`. -/
def check (b : Bool) : CM Unit := fun h => if b then .ok () h else .abort

/-- `assert_eq!`. -/
def eq {α : Type} [DecidableEq α] (x : CM α) (a : α) : CM Unit := do check (decide ((← x) = a))

/-- A local variable of the test, given by its address. -/
def withCell {α : Type} (x : Obj) (f : Ptr → CM α) : CM α := do
  let p ← boxNew exE x
  let a ← f p
  freeObj (fun _ => true) p
  pure a

/-- Reading a `usize` variable. -/
def getUsize (p : Ptr) : CM Nat := fun h => match h.get? p with | some (.callerUsize n) => .ok n h | _ => .ub
/-- Reading a `u8` variable. -/
def getU8 (p : Ptr) : CM Nat := fun h => match h.get? p with | some (.callerU8 n) => .ok n h | _ => .ub
/-- Reading a C string. -/
def getStr (p : Ptr) : CM (List Char) := fun h => match h.get? p with | some (.cstring s) => .ok s h | _ => .ub
/-- Reading an edge list. -/
def getEdges (p : Ptr) : CM (List (Nat × Nat)) := fun h => match h.get? p with | some (.edges s) => .ok s h | _ => .ub
/-- Reading a vertex list. -/
def getVertices (p : Ptr) : CM (List Nat) := fun h => match h.get? p with | some (.vertices s) => .ok s h | _ => .ub
/-- Reading an entry list. -/
def getEntries (p : Ptr) : CM (List (F64 × Nat × Nat)) := fun h => match h.get? p with | some (.entries s) => .ok s h | _ => .ub

/-- The test passes and leaves an empty memory. -/
def passes (t : CM Unit) : Bool := match t HMap.empty with | .ok _ h => h.size == 0 | _ => false

/-- Adding edges one by one. -/
def addEdges (g : Ptr) (l : List (Nat × Nat)) : CM Unit := l.forM fun e => addEdge g e.1 e.2

/-- `gphrx_add_vertex` with an array of the test. -/
def addVertexArr (g : Ptr) (v : Nat) (l : List Nat) : CM Unit := withCell (.callerU64s l) fun a => addVertex g v a l.length

/-- All these edges exist. -/
def allEdges (g : Ptr) (l : List (Nat × Nat)) : CM Unit := l.forM fun e => eq (doesEdgeExist g e.1 e.2) 1

/-- A string result, compared and freed. -/
def strIs (x : CM Ptr) (s : String) : CM Unit := do
  let p ← x
  check ((← getStr p) == s.toList)
  freeString p

-- test_free_gphrx_string_buffer, 790-803
-- (a grid of 201 × 201 entries; the edges (3, 9) and (20, 30) are used instead of (3, 9) and (200, 30) to keep it small)
example : passes (do
    let g ← newUndirected exE
    addEdges g [(3, 9), (20, 30)]
    let s ← matrixString exE g
    freeString s
    freeGraph g) := by decide +kernel

-- test_free_gphrx_bytes_buffer, 806-822
example : passes (do
    let g ← newUndirected exE
    addEdges g [(3, 9), (200, 30)]
    withCell (.callerUsize 0) fun size => do
      let b ← toBytes exE g size
      check ((← getUsize size) != 0)
      freeBytes b (← getUsize size)
    freeGraph g) := by decide +kernel

-- test_null_safe_ffi_inputs, 825-851
example : passes (do
    freeString 0
    freeBytes 0 0
    freeGraph 0
    freeCGraph 0
    freeEdgeList 0 0
    freeVertexList 0 0
    freeEntryList 0 0
    withCell (.callerU8 0) fun error => do
      eq (fromBytes exE 0 1 error) 0
      eq (getU8 error) ERROR_INVALID_FORMAT
    let g ← newDirected exE
    addVertex g 0 0 0
    eq (vertexCount g) 1
    addVertex g 0 0 1
    eq (edgeCount g) 0
    freeGraph g) := by decide +kernel

-- test_free_gphrx_graph, 854-870
example : passes (do
    let g ← newUndirected exE
    addEdges g [(3, 9), (200, 30), (15, 39), (100000, 200020), (200, 31), (588, 10399)]
    freeGraph g
    let g ← newUndirected exE
    freeGraph g) := by decide +kernel

def sixEdges : List (Nat × Nat) := [(3, 9), (200, 30), (15, 39), (10, 20), (200, 31), (588, 1039)]

-- test_free_gphrx_edge_list, 873-897; test_gphrx_get_edge_list, 1284-1318
example : passes (do
    let g ← newDirected exE
    addEdges g sixEdges
    withCell (.callerUsize 0) fun size => do
      let l ← getEdgeList exE g size
      eq (getUsize size) 6
      let es ← getEdges l
      check (es.length == 6 && sixEdges.all fun e => es.contains e)
      freeEdgeList l (← getUsize size)
    freeGraph g) := by decide +kernel

-- test_free_gphrx_vertex_list, 900-928
example : passes (do
    let g ← newUndirected exE
    addEdges g [(3, 9), (3, 8), (3, 7), (3, 6), (3, 5), (200, 30), (15, 39), (10, 20), (200, 31), (588, 1039)]
    withCell (.callerUsize 0) fun size => do
      let l ← getInEdgesList exE g 3 size
      freeVertexList l (← getUsize size)
    freeGraph g) := by decide +kernel

-- test_gphrx_new_undirected, 931-941; test_gphrx_new_directed, 944-954; test_gphrx_is_undirected, 1065-1077
example : passes (do
    let g ← newUndirected exE
    eq (isUndirected g) 1
    eq (edgeCount g) 0
    eq (vertexCount g) 0
    freeGraph g
    let g ← newDirected exE
    eq (isUndirected g) 0
    eq (edgeCount g) 0
    eq (vertexCount g) 0
    freeGraph g) := by decide +kernel

-- test_gphrx_to_from_bytes, 957-1002
example : passes (do
    let g ← newUndirected exE
    addEdges g [(3, 9), (200, 30)]
    withCell (.callerUsize 0) fun size => do
      let b ← toBytes exE g size
      eq (getUsize size) (26 + 8 * 2 * 4)
      withCell (.callerU8 0) fun error => do
        let g' ← fromBytes exE b (← getUsize size) error
        eq (getU8 error) 0
        eq (isUndirected g') 1
        eq (edgeCount g') 4
        eq (vertexCount g') 201
        allEdges g' [(3, 9), (9, 3), (200, 30), (30, 200)]
        freeBytes b (← getUsize size)
        freeGraph g
        freeGraph g') := by decide +kernel

-- test_gphrx_duplicate, 1005-1032
example : passes (do
    let g ← newUndirected exE
    addEdges g [(3, 9), (200, 30)]
    let d ← duplicate exE g
    eq (isUndirected d) (← isUndirected g)
    eq (edgeCount d) (← edgeCount g)
    eq (vertexCount d) (← vertexCount g)
    allEdges d [(3, 9), (9, 3), (200, 30), (30, 200)]
    freeGraph g
    freeGraph d) := by decide +kernel

-- test_gphrx_matrix_string, 1035-1062
example : passes (do
    let g ← newDirected exE
    addEdges g [(1, 2), (1, 0), (0, 2), (2, 2)]
    strIs (matrixString exE g) "[ 0, 1, 0 ]\r\n[ 0, 0, 0 ]\r\n[ 1, 1, 1 ]"
    addVertex g 3 0 0
    strIs (matrixString exE g) "[ 0, 1, 0, 0 ]\r\n[ 0, 0, 0, 0 ]\r\n[ 1, 1, 1, 0 ]\r\n[ 0, 0, 0, 0 ]"
    freeGraph g) := by decide +kernel

-- test_gphrx_vertex_count, 1080-1094
example : passes (do
    let g ← newUndirected exE
    eq (vertexCount g) 0
    addEdge g 1 4
    eq (vertexCount g) 5
    addVertex g 101 0 0
    eq (vertexCount g) 102
    freeGraph g) := by decide +kernel

-- test_gphrx_edge_count, 1097-1143
example : passes (do
    let g ← newUndirected exE
    eq (edgeCount g) 0
    addEdge g 1 4
    eq (edgeCount g) 2
    addEdge g 1 4
    eq (edgeCount g) 2
    addEdge g 1 5
    eq (edgeCount g) 4
    addEdge g 5 5
    eq (edgeCount g) 5
    addVertex g 101 0 0
    eq (edgeCount g) 5
    freeGraph g
    let g ← newDirected exE
    eq (edgeCount g) 0
    addEdge g 1 4
    eq (edgeCount g) 1
    addEdge g 1 4
    eq (edgeCount g) 1
    addEdge g 1 5
    eq (edgeCount g) 2
    addEdge g 5 5
    eq (edgeCount g) 3
    addVertex g 101 0 0
    eq (edgeCount g) 3
    freeGraph g) := by decide +kernel

-- test_gphrx_does_edge_exist, 1146-1160
example : passes (do
    let g ← newUndirected exE
    eq (doesEdgeExist g 2 3) 0
    eq (doesEdgeExist g 3 2) 0
    addEdge g 3 2
    eq (doesEdgeExist g 2 3) 1
    eq (doesEdgeExist g 3 2) 1
    freeGraph g) := by decide +kernel

/-- The graph of the pooling tests. -/
def cPool : CM Ptr := do
  let g ← newUndirected exE
  addVertexArr g 1 [0, 2, 4, 7, 3]
  addVertexArr g 5 [6, 8, 0, 1, 5, 4, 2]
  addEdge g 7 8
  pure g

-- test_gphrx_find_avg_pool_matrix, 1163-1199; test_free_gphrx_matrix, 2054; test_gphrx_matrix_dimension, 2145;
-- test_gphrx_matrix_entry_count, 2166; test_gphrx_matrix_get_entry, 2187-2208 (exact comparison)
example : passes (do
    let g ← cPool
    let m ← findAvgPoolMatrix exE g 5
    eq (mDimension m) 2
    eq (mEntryCount m) 4
    eq (mGetEntry m 0 0) (F64.lit (32 / 100))
    eq (mGetEntry m 0 1) (F64.lit (20 / 100))
    eq (mGetEntry m 1 0) (F64.lit (20 / 100))
    eq (mGetEntry m 1 1) (F64.lit (28 / 100))
    freeGraph g
    freeMatrix m) := by decide +kernel

-- test_gphrx_approximate, 1202-1228
example : passes (do
    let g ← cPool
    let a ← approximate exE g 5 (F64.lit (25 / 100))
    eq (isUndirected a) (← isUndirected g)
    eq (vertexCount a) 2
    eq (edgeCount a) 2
    allEdges a [(0, 0), (1, 1)]
    freeGraph g
    freeGraph a) := by decide +kernel

/-- The graph of the compression tests, with the two edges that are lost if `extra`. -/
def cComp (extra : Bool) : CM Ptr := do
  let g ← newDirected exE
  addVertex g 23 0 0
  addEdges g (rect 8 16 8 16)
  addEdges g (rect 0 8 0 4)
  if extra then addEdges g [(22, 18), (15, 18)]
  pure g

-- test_free_gphrx_compressed_graph, 1622-1650
example : passes (do
    let g ← cComp true
    let c ← compress exE g 4
    freeGraph g
    freeCGraph c) := by decide +kernel

-- test_gphrx_compress, 1231-1281
example : passes (do
    let g ← cComp true
    let c ← compress exE g 9
    eq (cIsUndirected c) (← isUndirected g)
    eq (cCompressionLevel c) 9
    eq (cVertexCount c) (← vertexCount g)
    eq (cVertexCount c) 24
    eq (cEdgeCount c) 96
    eq (cGetEntry c 0 0) 0x00000000ffffffff
    eq (cGetEntry c 1 1) U64_MAX
    freeGraph g
    freeCGraph c) := by decide +kernel

-- test_gphrx_add_vertex, 1321-1358
example : passes (do
    let g ← newUndirected exE
    addVertexArr g 500 [0, 2, 3, 500, 2, 500]
    eq (vertexCount g) 501
    eq (edgeCount g) 7
    allEdges g [(0, 500), (500, 0), (2, 500), (500, 2), (3, 500), (500, 3), (500, 500)]
    freeGraph g
    let g ← newDirected exE
    addVertexArr g 500 [0, 2, 3, 500, 2, 500]
    eq (vertexCount g) 501
    eq (edgeCount g) 4
    allEdges g [(500, 0), (500, 2), (500, 3), (500, 500)]
    freeGraph g) := by decide +kernel

def four : List (Nat × Nat) := [(500, 0), (500, 2), (500, 3), (500, 500)]

-- test_gphrx_add_edge, 1361-1402
example : passes (do
    let g ← newUndirected exE
    addEdges g four
    eq (vertexCount g) 501
    eq (edgeCount g) 7
    allEdges g [(0, 500), (500, 0), (2, 500), (500, 2), (3, 500), (500, 3), (500, 500)]
    freeGraph g
    let g ← newDirected exE
    addEdges g four
    eq (vertexCount g) 501
    eq (edgeCount g) 4
    allEdges g four
    freeGraph g) := by decide +kernel

-- test_gphrx_delete_edge, 1405-1453
example : passes (do
    let g ← newUndirected exE
    addEdges g four
    eq (edgeCount g) 7
    deleteEdge g 500 3
    eq (edgeCount g) 5
    eq (doesEdgeExist g 3 500) 0
    eq (doesEdgeExist g 500 3) 0
    eq (doesEdgeExist g 500 500) 1
    deleteEdge g 500 500
    eq (edgeCount g) 4
    eq (doesEdgeExist g 500 500) 0
    deleteEdge g 500 3
    eq (edgeCount g) 4
    freeGraph g
    let g ← newDirected exE
    addEdges g four
    eq (edgeCount g) 4
    eq (doesEdgeExist g 500 3) 1
    deleteEdge g 500 3
    eq (edgeCount g) 3
    eq (doesEdgeExist g 500 3) 0
    freeGraph g) := by decide +kernel

/-- A list of vertices of the given graph has the given members. -/
def listIs (g : Ptr) (f : Ptr → Nat → Ptr → CM Ptr) (vs : List Nat) : CM Unit :=
  withCell (.callerUsize 0) fun length => do
    let l ← f g 5 length
    eq (getUsize length) vs.length
    let xs ← getVertices l
    check (xs.length == vs.length && vs.all fun v => xs.contains v)
    freeGraph g
    freeVertexList l (← getUsize length)

-- test_gphrx_get_vertex_in_edges_list, 1456-1507
example : passes (do
    let g ← newDirected exE
    addEdges g [(2, 5), (10, 5), (11, 5), (5, 9)]
    listIs g (getInEdgesList exE) [2, 10, 11]
    let g ← newUndirected exE
    addEdges g [(2, 5), (10, 5), (11, 5), (5, 9)]
    listIs g (getInEdgesList exE) [2, 10, 11, 9]) := by decide +kernel

-- test_gphrx_get_vertex_out_edges_list, 1510-1561
example : passes (do
    let g ← newDirected exE
    addEdges g [(5, 2), (5, 10), (5, 11), (9, 5)]
    listIs g (getOutEdgesList exE) [2, 10, 11]
    let g ← newUndirected exE
    addEdges g [(5, 2), (5, 10), (5, 11), (9, 5)]
    listIs g (getOutEdgesList exE) [2, 10, 11, 9]) := by decide +kernel

-- test_gphrx_get_vertex_in_degree, 1564-1590; test_gphrx_get_vertex_out_degree, 1593-1619
example : passes (do
    let g ← newDirected exE
    addEdges g [(2, 5), (10, 5), (11, 5), (5, 9)]
    eq (getInDegree g 5) 3
    freeGraph g
    let g ← newUndirected exE
    addEdges g [(2, 5), (10, 5), (11, 5), (5, 9)]
    eq (getInDegree g 5) 4
    freeGraph g
    let g ← newDirected exE
    addEdges g [(5, 2), (5, 10), (5, 11), (9, 5)]
    eq (getOutDegree g 5) 3
    freeGraph g
    let g ← newUndirected exE
    addEdges g [(5, 2), (5, 10), (5, 11), (9, 5)]
    eq (getOutDegree g 5) 4
    freeGraph g) := by decide +kernel

-- test_gphrx_compressed_graph_duplicate, 1653-1708
example : passes (do
    let g ← cComp true
    let c ← compress exE g 6
    let d ← cDuplicate exE c
    eq (cIsUndirected d) (← isUndirected g)
    eq (cCompressionLevel d) 6
    eq (cVertexCount d) 24
    eq (cEdgeCount d) 96
    eq (cGetEntry d 0 0) 0x00000000ffffffff
    eq (cGetEntry d 1 1) U64_MAX
    freeGraph g
    freeCGraph c
    freeCGraph d) := by decide +kernel

-- test_gphrx_compressed_graph_compression_level, 1711; …_is_undirected, 1730; …_vertex_count, 1753; …_edge_count, 1769-1795
example : passes (do
    let g ← newDirected exE
    addEdge g 10 1
    let c ← compress exE g 42
    eq (cCompressionLevel c) 42
    freeCGraph c
    let c ← compress exE g 0
    eq (cEdgeCount c) 1
    freeCGraph c
    freeGraph g
    let g ← newUndirected exE
    let c ← compress exE g 2
    eq (cIsUndirected c) 1
    freeCGraph c
    addEdge g 10 1
    let c ← compress exE g 0
    eq (cVertexCount c) 11
    eq (cEdgeCount c) 2
    freeCGraph c
    freeGraph g
    let g ← newDirected exE
    let c ← compress exE g 10
    eq (cIsUndirected c) 0
    freeCGraph c
    freeGraph g) := by decide +kernel

-- test_gphrx_compressed_graph_does_edge_exist, 1798-1851
example : passes (do
    let g ← cComp true
    let c ← compress exE g 7
    (rect 8 16 8 16 ++ rect 0 8 0 4).forM fun e => eq (cDoesEdgeExist c e.1 e.2) 1
    eq (cDoesEdgeExist c 22 18) 0
    eq (cDoesEdgeExist c 15 18) 0
    freeGraph g
    freeCGraph c) := by decide +kernel

-- test_gphrx_get_compressed_matrix_entry, 1854-1893
example : passes (do
    let g ← newUndirected exE
    addVertex g 23 0 0
    addEdges g (rect 8 16 8 16 ++ rect 8 16 0 4)
    let c ← compress exE g 13
    eq (cGetEntry c 0 0) 0
    eq (cGetEntry c 1 0) 0x00000000ffffffff
    eq (cGetEntry c 0 1) 0x0f0f0f0f0f0f0f0f
    eq (cGetEntry c 1 1) U64_MAX
    eq (cGetEntry c 1 2) 0
    eq (cGetEntry c 5 7) 0
    freeGraph g
    freeCGraph c) := by decide +kernel

-- test_gphrx_compressed_graph_matrix_string, 1896-1925
example : passes (do
    let g ← newUndirected exE
    addEdges g (rect 8 16 8 16 ++ rect 8 16 0 4)
    let c ← compress exE g 4
    strIs (cMatrixString exE c)
      "[                    0,           4294967295 ]\r\n[  1085102592571150095, 18446744073709551615 ]"
    freeGraph g
    freeCGraph c) := by decide +kernel

-- test_gphrx_compressed_graph_to_from_bytes, 1928-1998
example : passes (do
    let g ← cComp false
    let c ← compress exE g 25
    withCell (.callerUsize 0) fun size => do
      let b ← cToBytes exE c size
      eq (getUsize size) (42 + 8 * 3 * 2)
      withCell (.callerU8 0) fun error => do
        let d ← cFromBytes exE b (← getUsize size) error
        eq (getU8 error) 0
        eq (cIsUndirected d) (← isUndirected g)
        eq (cCompressionLevel d) 25
        eq (cVertexCount d) 24
        eq (cEdgeCount d) 96
        eq (cGetEntry d 0 0) 0x00000000ffffffff
        eq (cGetEntry d 1 1) U64_MAX
        freeGraph g
        freeCGraph c
        freeCGraph d
        freeBytes b (← getUsize size)) := by decide +kernel

-- test_gphrx_decompress, 2001-2051
example : passes (do
    let g ← cComp false
    let c ← compress exE g 23
    let d ← decompress exE c
    eq (isUndirected d) (← isUndirected g)
    eq (edgeCount d) (← edgeCount g)
    eq (vertexCount d) (← vertexCount g)
    allEdges d (rect 8 16 8 16 ++ rect 0 8 0 4)
    freeGraph g
    freeGraph d
    freeCGraph c) := by decide +kernel

-- test_gphrx_matrix_duplicate, 2074-2118
example : passes (do
    let g ← cPool
    let m ← findAvgPoolMatrix exE g 5
    let d ← mDuplicate exE m
    eq (mDimension d) (← mDimension m)
    eq (mEntryCount d) (← mEntryCount m)
    (rect 0 2 0 2).forM fun e => do eq (mGetEntry d e.1 e.2) (← mGetEntry m e.1 e.2)
    freeGraph g
    freeMatrix m
    freeMatrix d) := by decide +kernel

-- test_free_gphrx_matrix_entry_list, 2121-2142; test_gphrx_matrix_get_entry_list, 2260-2292
example : passes (do
    let g ← cPool
    let m ← findAvgPoolMatrix exE g 5
    withCell (.callerUsize 0) fun size => do
      let l ← mGetEntryList exE m size
      eq (getUsize size) 4
      let xs ← getEntries l
      check (xs.length == 4)
      check (xs.contains (F64.lit (32 / 100), 0, 0) && xs.contains (F64.lit (20 / 100), 0, 1) &&
        xs.contains (F64.lit (20 / 100), 1, 0) && xs.contains (F64.lit (28 / 100), 1, 1))
      freeGraph g
      freeMatrix m
      freeEntryList l (← getUsize size)) := by decide +kernel

-- test_gphrx_matrix_to_string, 2211-2232; test_gphrx_matrix_to_string_with_precision, 2235-2257
example : passes (do
    let g ← cPool
    let m ← findAvgPoolMatrix exE g 5
    strIs (mToString exE m) "[ 0.32, 0.20 ]\r\n[ 0.20, 0.28 ]"
    strIs (mToStringWithPrecision exE m 4) "[ 0.3200, 0.2000 ]\r\n[ 0.2000, 0.2800 ]"
    freeGraph g
    freeMatrix m) := by decide +kernel

end Verif.Validation
