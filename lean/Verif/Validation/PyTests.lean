import Verif.Model.Py
import Verif.Validation.CTests

/-!
# The tests of `/repo/graphrox-py/tests.py`, run on the model of the Python module

Tests of the model, not theorems about the code.  A test is a Python program with assertions; `pyPasses` says that it ends without
undefined behaviour, abort, unexpected exception or failed assertion, and that no memory is left once all its objects have been
collected, the youngest first (a list is kept alive by its iterators).  The tests are condensed: tests are merged where they use the
same graph, `x in list` is a membership test on the values that one loop over `list` yields, and some assertions are stronger than
those of the file (noted where so).
-/

namespace Verif.Validation
open Verif Props

/-- Python code with assertions; `none` if something goes wrong. -/
def PT (α : Type) := PyWorld → Option (α × PyWorld)

instance : Monad PT where
  pure a := fun w => some (a, w)
  bind x f := fun w => match x w with | some (a, w') => f a w' | none => none

/-- A step that must not raise. -/
def py (c : PyCall) : PT PyVal := fun w => match w.exec exE c with | .ok v w' => some (v, w') | _ => none

/-- A step that must raise `e`. -/
def pyRaises (c : PyCall) (e : PyExc) : PT Unit := fun w =>
  match w.exec exE c with | .raised e' w' => if e' = e then some ((), w') else none | _ => none

/-- `assert`. -/
def pyAssert (b : Bool) : PT Unit := fun w => if b then some ((), w) else none

def asRef (v : PyVal) : PT Nat := fun w => match v with | .ref i => some (i, w) | _ => none
def asInt (v : PyVal) : PT Nat := fun w => match v with | .int i => some (i, w) | _ => none
def asBool (v : PyVal) : PT Bool := fun w => match v with | .bool i => some (i, w) | _ => none
def asFloat (v : PyVal) : PT F64 := fun w => match v with | .float i => some (i, w) | _ => none
def asStr (v : PyVal) : PT (List Char) := fun w => match v with | .str i => some (i, w) | _ => none
def asBytes (v : PyVal) : PT Bytes := fun w => match v with | .bytes i => some (i, w) | _ => none
def asEdge (v : PyVal) : PT (Nat × Nat) := fun w => match v with | .edge a b => some ((a, b), w) | _ => none
def asEntry (v : PyVal) : PT (F64 × Nat × Nat) := fun w => match v with | .entry x a b => some ((x, a, b), w) | _ => none

def newG (u : Bool) : PT Nat := do asRef (← py (.newGraph u))
def obj (i : Nat) (m : Method) : PT Nat := do asRef (← py (.call i m))
def int (i : Nat) (m : Method) : PT Nat := do asInt (← py (.call i m))
def bool (i : Nat) (m : Method) : PT Bool := do asBool (← py (.call i m))
def float (i : Nat) (m : Method) : PT F64 := do asFloat (← py (.call i m))
def run (i : Nat) (m : Method) : PT Unit := do let _ ← py (.call i m)
def intIs (i : Nat) (m : Method) (n : Nat) : PT Unit := do pyAssert ((← int i m) == n)
def holds (i : Nat) (m : Method) : PT Unit := do pyAssert (← bool i m)
def fails (i : Nat) (m : Method) : PT Unit := do pyAssert (!(← bool i m))
def floatIs (i : Nat) (m : Method) (q : ℚ) : PT Unit := do pyAssert ((← float i m) == F64.lit q)
def strIsPy (i : Nat) (m : Method) (s : String) : PT Unit := do pyAssert ((← asStr (← py (.call i m))) == s.toList)

/-- `graph.add_edge` for several edges. -/
def addAll (g : Nat) (l : List (Nat × Nat)) : PT Unit := l.forM fun e => run g (.addEdge e.1 e.2)

/-- `next` until `StopIteration`, with `n + 1` calls. -/
def drain (it : Nat) : Nat → PT (List PyVal)
  | 0 => do pyRaises (.call it .next) .StopIteration; pure []
  | n + 1 => do
    let v ← py (.call it .next)
    let vs ← drain it n
    pure (v :: vs)

/-- `for x in list`. -/
def forIn (l : Nat) : PT (List PyVal) := do
  let n ← int l .len
  let it ← obj l .iter
  drain it n

/-- The test passes and collecting its objects leaves an empty memory. -/
def pyPasses (t : PT Unit) : Bool :=
  match (do t; (fun w => ((List.range w.objs.length).reverse.forM fun i => do let _ ← py (.collect i)) w) : PT Unit) ⟨HMap.empty, []⟩ with
  | some (_, w) => w.mem.size == 0
  | none => false

-- test_new_graph, 21-32; test_is_undirected, 83-88
example : pyPasses (do
    let g ← newG false
    fails g .isUndirected
    intIs g .vertexCount 0
    intIs g .edgeCount 0
    let g ← newG true
    holds g .isUndirected
    intIs g .vertexCount 0
    intIs g .edgeCount 0) := by decide +kernel

/-- The graph of the two tests below. -/
def pyG20 : PT Nat := do
  let g ← newG true
  run g (.addVertex 3 (some [3, 6, 4, 1, 7, 0]))
  run g (.addVertex 0 (some [3, 6, 4, 1, 7, 0]))
  pure g

-- test_graph_to_from_bytes, 34-49
example : pyPasses (do
    let g ← pyG20
    let b ← asBytes (← py (.call g .bytes))
    let d ← asRef (← py (.graphFromBytes b))
    holds d .isUndirected
    intIs d .vertexCount 8
    intIs d .edgeCount 20
    holds d (.doesEdgeExist 0 0)
    let l ← obj g .edgeList
    (← forIn l).forM fun v => do
      let e ← asEdge v
      holds d (.doesEdgeExist e.1 e.2)) := by decide +kernel

-- test_duplicate, 51-73
example : pyPasses (do
    let g ← pyG20
    let d ← obj g .duplicate
    holds d .isUndirected
    intIs d .vertexCount 8
    intIs d .edgeCount 20
    holds d (.doesEdgeExist 0 0)
    let l ← obj g .edgeList
    (← forIn l).forM fun v => do
      let e ← asEdge v
      holds d (.doesEdgeExist e.1 e.2)
    run d (.addEdge 100 100)
    intIs d .vertexCount 101
    intIs g .vertexCount 8
    holds d (.doesEdgeExist 100 100)
    fails g (.doesEdgeExist 100 100)) := by decide +kernel

-- test_graph_matrix_string, 75-81
example : pyPasses (do
    let g ← newG true
    addAll g [(1, 0), (1, 1)]
    strIsPy g .matrixString "[ 0, 1 ]\r\n[ 1, 1 ]") := by decide +kernel

-- test_vertex_count, 90-98; test_edge_count, 100-123; test_does_edge_exist, 125-134
example : pyPasses (do
    let g ← newG true
    intIs g .vertexCount 0
    run g (.addEdge 7 8)
    intIs g .vertexCount 9
    run g (.addVertex 110 none)
    intIs g .vertexCount 111
    let g ← newG false
    intIs g .edgeCount 0
    run g (.addEdge 0 0)
    intIs g .edgeCount 1
    run g (.addEdge 0 0)
    intIs g .edgeCount 1
    run g (.addEdge 2 1)
    intIs g .edgeCount 2
    let g ← newG true
    intIs g .edgeCount 0
    run g (.addEdge 0 0)
    intIs g .edgeCount 1
    run g (.addEdge 2 1)
    intIs g .edgeCount 3
    run g (.addEdge 1 2)
    intIs g .edgeCount 3
    let g ← newG true
    fails g (.doesEdgeExist 1 7)
    fails g (.doesEdgeExist 7 1)
    run g (.addEdge 1 7)
    holds g (.doesEdgeExist 1 7)
    holds g (.doesEdgeExist 7 1)) := by decide +kernel

-- test_add_vertex, 136-149; test_add_edge, 151-173; test_delete_edge, 175-192
example : pyPasses (do
    let g ← newG true
    run g (.addVertex 50 none)
    intIs g .vertexCount 51
    intIs g .edgeCount 0
    run g (.addVertex 1 (some [10, 4, 60]))
    intIs g .vertexCount 61
    intIs g .edgeCount 6
    run g (.addVertex 7 (some [8]))
    intIs g .vertexCount 61
    intIs g .edgeCount 8
    let g ← newG true
    intIs g .vertexCount 0
    fails g (.doesEdgeExist 1 7)
    fails g (.doesEdgeExist 7 1)
    run g (.addEdge 1 7)
    intIs g .vertexCount 8
    holds g (.doesEdgeExist 1 7)
    holds g (.doesEdgeExist 7 1)
    let g ← newG false
    fails g (.doesEdgeExist 1 7)
    fails g (.doesEdgeExist 7 1)
    run g (.addEdge 1 7)
    holds g (.doesEdgeExist 1 7)
    fails g (.doesEdgeExist 7 1)
    let g ← newG true
    run g (.addEdge 1 2)
    run g (.deleteEdge 2 1)
    intIs g .edgeCount 0
    fails g (.doesEdgeExist 1 2)
    fails g (.doesEdgeExist 2 1)
    let g ← newG false
    run g (.addEdge 1 2)
    run g (.deleteEdge 1 2)
    intIs g .edgeCount 0
    fails g (.doesEdgeExist 1 2)
    run g (.deleteEdge 1 1)) := by decide +kernel

/-- The graph of the pooling tests. -/
def pyPool : PT Nat := do
  let g ← newG true
  run g (.addVertex 1 (some [0, 2, 4, 7, 3]))
  run g (.addVertex 5 (some [6, 8, 0, 1, 5, 4, 2]))
  run g (.addEdge 7 8)
  pure g

-- test_find_avg_pool_matrix, 194-210; test_matrix_get_entry, 739-752; test_matrix_string, 675-686; test_matrix_to_string, 662-673 (whose `expected` the test does not
-- compare; it is compared here)
example : pyPasses (do
    let g ← pyPool
    let m ← obj g (.findAvgPoolMatrix 5)
    intIs m .dimension 2
    intIs m .entryCount 4
    floatIs m (.getEntry 0 0) (32 / 100)
    floatIs m (.getEntry 0 1) (20 / 100)
    floatIs m (.getEntry 1 0) (20 / 100)
    floatIs m (.getEntry 1 1) (28 / 100)
    strIsPy m .str "[ 0.32, 0.20 ]\r\n[ 0.20, 0.28 ]"
    strIsPy m (.toString 3) "[ 0.320, 0.200 ]\r\n[ 0.200, 0.280 ]") := by decide +kernel

-- test_approximate, 212-235
example : pyPasses (do
    let g ← newG false
    let a ← obj g (.approximate 5 (F64.lit (25 / 100)))
    fails a .isUndirected
    let g ← pyPool
    let a ← obj g (.approximate 5 (F64.lit (25 / 100)))
    holds a .isUndirected
    intIs a .vertexCount 2
    intIs a .edgeCount 2
    holds a (.doesEdgeExist 0 0)
    holds a (.doesEdgeExist 1 1)
    fails a (.doesEdgeExist 0 1)
    fails a (.doesEdgeExist 1 0)) := by decide +kernel

-- test_compress, 237-265
example : pyPasses (do
    let g ← newG true
    let c ← obj g (.compress 6)
    holds c .isUndirected
    let g ← newG false
    run g (.addVertex 23 none)
    addAll g (rect 8 16 8 16 ++ rect 0 8 0 4 ++ [(22, 18), (15, 18)])
    let c ← obj g (.compress 8)
    fails c .isUndirected
    intIs c .vertexCount (← int g .vertexCount)
    intIs c .edgeCount 96
    floatIs c .compressionLevel 8
    intIs c (.getCompressedMatrixEntry 0 0) 0x00000000ffffffff
    intIs c (.getCompressedMatrixEntry 1 1) 0xffffffffffffffff) := by decide +kernel

/-- `l[i] == l[j]` for an edge list. -/
def sameEdge (l : Nat) (i j : Int) : PT Unit := do
  pyAssert ((← asEdge (← py (.call l (.getitem i)))) == (← asEdge (← py (.call l (.getitem j)))))

/-- `l[i] == l[j]` for a vertex list. -/
def sameVertex (l : Nat) (i j : Int) : PT Unit := do
  pyAssert ((← int l (.getitem i)) == (← int l (.getitem j)))

/-- `l[i] == l[j]` for an entry list. -/
def sameEntry (l : Nat) (i j : Int) : PT Unit := do
  pyAssert ((← asEntry (← py (.call l (.getitem i)))) == (← asEntry (← py (.call l (.getitem j)))))

-- test_edge_list, 267-316
example : pyPasses (do
    let g ← newG true
    addAll g [(1, 2), (3, 2), (0, 1)]
    let l ← obj g .edgeList
    intIs l .len (← int g .edgeCount)
    let es ← (← forIn l).mapM asEdge
    pyAssert ([(1, 2), (2, 1), (3, 2), (2, 3), (0, 1), (1, 0)].all es.contains && !es.contains (1, 3))
    (List.range 6).forM fun i => do
      let e ← asEdge (← py (.call l (.getitem i)))
      holds g (.doesEdgeExist e.1 e.2)
    let es' ← (← forIn l).mapM asEdge
    pyAssert (es' == es && es.length == 6)
    es.forM fun e => holds g (.doesEdgeExist e.1 e.2)
    sameEdge l (-1) 5
    sameEdge l (-2) 4
    sameEdge l (-6) 5
    sameEdge l (-7) 5
    sameEdge l (-(6 * 7 + 1)) 5
    pyRaises (.call l (.getitem 6)) .IndexError) := by decide +kernel

/-- A list of vertices, as a set (the file checks less: the length, and some members and non-members). -/
def vertexListIs (l : Nat) (vs : List Nat) : PT Unit := do
  intIs l .len vs.length
  let xs ← (← forIn l).mapM asInt
  pyAssert (vs.all xs.contains && xs.all vs.contains)

-- test_vertex_in_edges, 318-347; test_vertex_in_degree, 380-397
example : pyPasses (do
    let g ← newG false
    addAll g [(2, 5), (10, 5), (11, 5), (5, 9)]
    vertexListIs (← obj g (.vertexInEdges 5)) [2, 10, 11]
    intIs g (.vertexInDegree 5) 3
    let g ← newG true
    addAll g [(2, 5), (10, 5), (11, 5), (5, 9)]
    vertexListIs (← obj g (.vertexInEdges 5)) [2, 10, 11, 9]
    intIs g (.vertexInDegree 5) 4) := by decide +kernel

-- test_vertex_out_edges, 349-378; test_vertex_out_degree, 399-416
example : pyPasses (do
    let g ← newG false
    addAll g [(5, 2), (5, 10), (5, 11), (9, 5)]
    vertexListIs (← obj g (.vertexOutEdges 5)) [2, 10, 11]
    intIs g (.vertexOutDegree 5) 3
    let g ← newG true
    addAll g [(5, 2), (5, 10), (5, 11), (9, 5)]
    vertexListIs (← obj g (.vertexOutEdges 5)) [2, 10, 11, 9]
    intIs g (.vertexOutDegree 5) 4) := by decide +kernel

-- test_vertex_list, 418-466
example : pyPasses (do
    let g ← newG true
    addAll g [(2, 5), (10, 5), (11, 5), (5, 9), (7, 6)]
    let l ← obj g (.vertexInEdges 5)
    vertexListIs l [2, 10, 11, 9]
    vertexListIs l [2, 10, 11, 9]
    sameVertex l (-1) 3
    sameVertex l (-2) 2
    sameVertex l (-4) 3
    sameVertex l (-5) 3
    sameVertex l (-(4 * 7 + 1)) 3
    pyRaises (.call l (.getitem 4)) .IndexError) := by decide +kernel

/-- The blocks of most compression tests. -/
def pyComp (u v : Bool) : PT Nat := do
  let g ← newG u
  if v then run g (.addVertex 23 none)
  addAll g (rect 8 16 8 16 ++ rect 0 8 0 4)
  pure g

-- test_compressed_graph_to_from_bytes, 468-491
example : pyPasses (do
    let g ← pyComp false true
    let c ← obj g (.compress 9)
    let b ← asBytes (← py (.call c .bytes))
    let d ← asRef (← py (.cgraphFromBytes b))
    fails d .isUndirected
    intIs d .vertexCount (← int c .vertexCount)
    intIs d .edgeCount (← int c .edgeCount)
    pyAssert ((← float d .compressionLevel) == (← float c .compressionLevel))
    intIs d (.getCompressedMatrixEntry 0 0) 0x00000000ffffffff
    intIs d (.getCompressedMatrixEntry 1 1) 0xffffffffffffffff) := by decide +kernel

-- test_compressed_graph_duplicate, 493-514
example : pyPasses (do
    let g ← pyComp false true
    let c ← obj g (.compress 4)
    let d ← obj c .duplicate
    fails d .isUndirected
    intIs d .vertexCount (← int c .vertexCount)
    intIs d .edgeCount (← int c .edgeCount)
    pyAssert ((← float d .compressionLevel) == (← float c .compressionLevel))
    intIs d (.getCompressedMatrixEntry 0 0) 0x00000000ffffffff
    intIs d (.getCompressedMatrixEntry 1 1) 0xffffffffffffffff) := by decide +kernel

-- test_compressed_graph_matrix_string, 516-530
example : pyPasses (do
    let g ← newG true
    addAll g (rect 8 16 8 16 ++ rect 8 16 0 4)
    let c ← obj g (.compress 3)
    strIsPy c .matrixString
      "[                    0,           4294967295 ]\r\n[  1085102592571150095, 18446744073709551615 ]") := by decide +kernel

-- test_decompress, 532-557
example : pyPasses (do
    let g ← pyComp true false
    let c ← obj g (.compress 11)
    let d ← obj c .decompress
    holds d .isUndirected
    intIs d .edgeCount (← int g .edgeCount)
    intIs d .vertexCount (← int g .vertexCount)
    (rect 8 16 8 16 ++ rect 0 8 0 4 ++ rect 0 4 0 8).forM fun e => holds d (.doesEdgeExist e.1 e.2)) := by decide +kernel

-- test_compressed_graph_compression_level, 559-575; test_compressed_graph_is_undirected, 577-584; test_compressed_graph_vertex_count, 586-603; test_compressed_graph_edge_count, 605-622
example : pyPasses (do
    let g ← pyComp true false
    let c ← obj g (.compress 10)
    floatIs c .compressionLevel 10
    let g ← pyComp true true
    let c ← obj g (.compress 2)
    intIs c .vertexCount 24
    let c ← obj g (.compress 18)
    intIs c .edgeCount (← int g .edgeCount)
    let g ← newG false
    let c ← obj g (.compress 42)
    floatIs c .compressionLevel 42
    fails c .isUndirected
    let c ← obj g (.compress 1)
    intIs c .vertexCount 0
    let c ← obj g (.compress 43)
    intIs c .edgeCount (← int g .edgeCount)
    let g ← newG true
    let c ← obj g (.compress 8)
    holds c .isUndirected) := by decide +kernel

-- test_compressed_graph_does_edge_exist, 624-644
example : pyPasses (do
    let g ← pyComp true false
    let c ← obj g (.compress 16)
    (rect 8 16 8 16 ++ rect 0 8 0 4 ++ rect 0 4 0 8).forM fun e => holds c (.doesEdgeExist e.1 e.2)) := by decide +kernel

-- test_compressed_graph_matrix_entry, 646-660
example : pyPasses (do
    let g ← pyComp false false
    let c ← obj g (.compress 15)
    intIs c (.getCompressedMatrixEntry 0 0) 0x00000000ffffffff
    intIs c (.getCompressedMatrixEntry 1 1) 0xffffffffffffffff) := by decide +kernel

-- test_matrix_duplicate, 688-705
example : pyPasses (do
    let g ← pyPool
    let m ← obj g (.findAvgPoolMatrix 5)
    let d ← obj m .duplicate
    intIs d .dimension (← int m .dimension)
    intIs d .entryCount (← int m .entryCount)
    (rect 0 2 0 2).forM fun e => do
      pyAssert ((← float d (.getEntry e.1 e.2)) == (← float m (.getEntry e.1 e.2)))) := by decide +kernel

-- test_matrix_dimension, 707-720; test_matrix_entry_count, 722-737
example : pyPasses (do
    let g ← newG true
    run g (.addVertex 17 none)
    let m ← obj g (.findAvgPoolMatrix 3)
    intIs m .dimension 6
    let g ← newG false
    run g (.addVertex 21 none)
    let m ← obj g (.findAvgPoolMatrix 3)
    intIs m .dimension 8
    let g ← newG true
    addAll g (rect 8 16 8 16 ++ rect 8 16 0 4 ++ [(23, 22), (21, 22)])
    let m ← obj g (.findAvgPoolMatrix 8)
    intIs m .entryCount 4) := by decide +kernel

-- test_matrix_entry_list, 754-804
example : pyPasses (do
    let g ← newG true
    run g (.addVertex 28 none)
    run g (.addVertex 1 (some [0, 2, 4, 7, 3]))
    run g (.addVertex 5 (some [6, 8, 0, 1, 5, 4, 2]))
    run g (.addEdge 7 8)
    let m ← obj g (.findAvgPoolMatrix 5)
    let l ← obj m .entryList
    intIs l .len (← int m .entryCount)
    let xs ← (← forIn l).mapM asEntry
    pyAssert (xs.contains (F64.lit (32 / 100), 0, 0) && xs.contains (F64.lit (20 / 100), 0, 1) &&
      xs.contains (F64.lit (20 / 100), 1, 0) && xs.contains (F64.lit (28 / 100), 1, 1) &&
      !xs.contains (F64.lit (28 / 100), 2, 1))
    (List.range 4).forM fun i => do
      let e ← asEntry (← py (.call l (.getitem i)))
      pyAssert ((← float m (.getEntry e.2.1 e.2.2)) == e.1)
    let ys ← (← forIn l).mapM asEntry
    pyAssert (ys == xs)
    xs.forM fun e => do pyAssert ((← float m (.getEntry e.2.1 e.2.2)) == e.1)
    sameEntry l (-1) 3
    sameEntry l (-2) 2
    sameEntry l (-4) 3
    sameEntry l (-5) 3
    sameEntry l (-(4 * 7 + 1)) 3
    pyRaises (.call l (.getitem 4)) .IndexError) := by decide +kernel

end Verif.Validation
