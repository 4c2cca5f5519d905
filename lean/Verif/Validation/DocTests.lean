import Verif.Validation.RepoTests

/-!
# The examples in the documentation, run on the model

Every example in a `///` comment of `graphrox-rs/src` (also those in comments showing the output), with the expected values
written there; examples that only repeat another one are left out.  Those of `graphrox-rs/Readme.md` are the ones of `lib.rs`,
except that the Readme still calls `compress(0.2)`, `get_adjacency_matrix_entry` and `matrix_representation_string`, which do not
exist with these arguments or names.  These are tests of the model, not theorems about the code.
-/

namespace Verif.Validation
open Verif Props

/-! ## `graph/mod.rs` -/

-- 17, 31, 45
example : Graph.newUndirected.isUndirected ∧ ¬ Graph.newDirected.isUndirected ∧
    (Graph.newUndirected.addVertex 41 none).vertexCount = 42 ∧ (edges .newDirected [(0, 3), (1, 7)]).edgeCount = 2 := by
  decide +kernel

-- 58, 73
example : gives ((edges .newDirected [(1, 0), (1, 1)]).matrixString exP) "[ 0, 1 ]\r\n[ 0, 1 ]" ∧
    (edges .newDirected [(1, 0)]).doesEdgeExist 1 0 ∧ ¬ (edges .newDirected [(1, 0)]).doesEdgeExist 0 0 := by
  decide +kernel

def byteDoc : Graph := (Graph.newUndirected.addVertex 0 (some [1, 2, 6])).addVertex 3 (some [1, 2])

-- 85; `lib.rs` 208
example : okAnd (byteDoc.toBytes exP .id) fun b => okAnd (Graph.tryFrom exP b) fun g =>
    g.edgeCount == byteDoc.edgeCount && (g.items .id).all fun e => byteDoc.doesEdgeExist e.1 e.2 := by decide +kernel
example : okAnd (byteDoc.compress exP .id .id 2) fun c => okAnd (c.toBytes exP .id) fun b => okAnd (CGraph.tryFrom exP b) fun c' =>
    c'.edgeCount == c.edgeCount := by decide +kernel

/-! ## `graph/standard.rs` -/

-- 21, 50, 70, 234
example : (edges .newUndirected [(3, 5)]).doesEdgeExist 3 5 ∧ (edges .newUndirected [(3, 5)]).doesEdgeExist 5 3 ∧
    (edges .newUndirected [(3, 5)]).vertexCount = 6 ∧
    (edges .newDirected [(3, 5)]).doesEdgeExist 3 5 ∧ ¬ (edges .newDirected [(3, 5)]).doesEdgeExist 5 3 := by decide +kernel

-- 89, 116, 156
example : (Graph.directedFrom (adj [(1, 0, 0), (1, 1, 2)])).isUndirected = false ∧
    (Graph.directedFrom (adj [(1, 0, 0), (1, 1, 2)])).edgeCount = 2 ∧
    (Graph.directedFrom (adj [(1, 0, 0), (1, 1, 2)])).vertexCount = 3 := by decide +kernel
example : okAnd (Graph.undirectedFrom .id (adj [(1, 0, 0), (1, 1, 2), (1, 2, 1)])) fun g =>
    g.isUndirected && g.edgeCount == 3 && g.vertexCount == 3 := by decide +kernel
example : (Graph.undirectedFromUnchecked (adj [(1, 0, 0), (1, 1, 2), (1, 2, 1)])).isUndirected ∧
    (Graph.undirectedFromUnchecked (adj [(1, 0, 0), (1, 1, 2), (1, 2, 1)])).edgeCount = 3 ∧
    (Graph.undirectedFromUnchecked (adj [(1, 0, 0), (1, 1, 2), (1, 2, 1)])).vertexCount = 3 := by decide +kernel

-- 192
example : (Graph.newUndirected.addVertex 3 (some [3, 5, 6])).vertexCount = 7 ∧
    (∀ e ∈ [(3, 3), (3, 5), (5, 3), (3, 6), (6, 3)],
      (Graph.newUndirected.addVertex 3 (some [3, 5, 6])).doesEdgeExist e.1 e.2 = true) ∧
    ((Graph.newUndirected.addVertex 3 (some [3, 5, 6])).addVertex 100 none).vertexCount = 101 := by decide +kernel

-- 259
example : (edges .newUndirected [(3, 5)]).edgeCount = 2 ∧ ((edges .newUndirected [(3, 5)]).deleteEdge 5 3).edgeCount = 0 ∧
    ((edges .newUndirected [(3, 5)]).deleteEdge 5 3).doesEdgeExist 3 5 = false ∧
    ((edges .newUndirected [(3, 5)]).deleteEdge 5 3).doesEdgeExist 5 3 = false := by decide +kernel

-- 298, 358
example : ((edges .newDirected [(2, 5), (10, 5), (11, 5), (5, 9)]).getVertexInEdges .id 5).length = 3 ∧
    (∀ x ∈ [2, 10, 11], x ∈ (edges .newDirected [(2, 5), (10, 5), (11, 5), (5, 9)]).getVertexInEdges .id 5) ∧
    (edges .newDirected [(2, 5), (10, 5), (11, 5), (5, 9)]).getVertexInDegree 5 = 3 := by decide +kernel

-- 325, 380
example : ((edges .newDirected [(5, 2), (5, 10), (5, 11), (9, 5)]).getVertexOutEdges .id 5).length = 3 ∧
    (∀ x ∈ [2, 10, 11], x ∈ (edges .newDirected [(5, 2), (5, 10), (5, 11), (9, 5)]).getVertexOutEdges .id 5) ∧
    (edges .newDirected [(5, 2), (5, 10), (5, 11), (9, 5)]).getVertexOutDegree 5 = 3 := by decide +kernel

def poolDoc : Graph :=
  ((((((Graph.newDirected.addVertex 0 (some [1, 2, 6])).addVertex 1 (some [1, 2])).addVertex 2 (some [0, 1])).addVertex 3
    (some [1, 2, 4])).addVertex 5 (some [6, 7])).addVertex 6 (some [6])).addVertex 7 (some [6])

-- 404, 499; `lib.rs` 50, 93
example : gives (poolDoc.matrixString exP) ("[ 0, 0, 1, 0, 0, 0, 0, 0 ]\r\n[ 1, 1, 1, 1, 0, 0, 0, 0 ]\r\n" ++
    "[ 1, 1, 0, 1, 0, 0, 0, 0 ]\r\n[ 0, 0, 0, 0, 0, 0, 0, 0 ]\r\n[ 0, 0, 0, 1, 0, 0, 0, 0 ]\r\n[ 0, 0, 0, 0, 0, 0, 0, 0 ]\r\n" ++
    "[ 1, 0, 0, 0, 0, 1, 1, 1 ]\r\n[ 0, 0, 0, 0, 0, 1, 0, 0 ]") := by decide +kernel
example : okAnd (poolDoc.findAvgPoolMatrix exP .id 2) fun m => gives (m.toText exP f64Fmt .id .id)
    ("[ 0.50, 0.75, 0.00, 0.00 ]\r\n[ 0.50, 0.25, 0.00, 0.00 ]\r\n[ 0.00, 0.25, 0.00, 0.00 ]\r\n" ++
     "[ 0.25, 0.00, 0.50, 0.50 ]") := by decide +kernel
example : okAnd (poolDoc.approximate exP .id .id 2 (F64.lit (1 / 2))) fun a => gives (a.matrixString exP)
    "[ 1, 1, 0, 0 ]\r\n[ 1, 0, 0, 0 ]\r\n[ 0, 0, 0, 0 ]\r\n[ 0, 0, 1, 1 ]" := by decide +kernel

def compDoc : Graph := edges (Graph.newDirected.addVertex 23 none) (rect 8 16 8 16 ++ rect 0 8 0 4)

-- 592, with level 4; `lib.rs` 146, with level 2
example : okAnd ((edges compDoc [(22, 18), (15, 18)]).compress exP .id .id 4) fun c => c.vertexCount == 24 &&
    c.edgeCount == 96 && c.getCompressedMatrixEntry 0 0 == 0x00000000ffffffff && c.getCompressedMatrixEntry 1 1 == U64_MAX := by
  decide +kernel
example : okAnd ((edges compDoc [(22, 18), (15, 18)]).compress exP .id .id 2) fun c => c.vertexCount == 24 &&
    c.edgeCount == 96 && c.getCompressedMatrixEntry 0 0 == 0x00000000ffffffff && c.getCompressedMatrixEntry 1 1 == U64_MAX := by
  decide +kernel

-- 873
example : ((edges .newDirected [(0, 0), (1, 2)]).items .id).length = (edges .newDirected [(0, 0), (1, 2)]).edgeCount ∧
    (0, 0) ∈ (edges .newDirected [(0, 0), (1, 2)]).items .id ∧ (1, 2) ∈ (edges .newDirected [(0, 0), (1, 2)]).items .id := by
  decide +kernel

/-! ## `graph/compressed.rs` -/

def levelDoc : Graph := (Graph.newDirected.addVertex 0 (some [1, 2, 6])).addVertex 1 (some [1, 2])

-- 34, 116
example : okAnd (levelDoc.compress exP .id .id 3) (fun c => c.compressionLevel == 3 && c.doesEdgeExist 0 1 && c.doesEdgeExist 0 2) ∧
    okAnd (levelDoc.compress exP .id .id 42) (fun c => c.compressionLevel == 42) := by decide +kernel

-- 62; `lib.rs` 182
example : okAnd (levelDoc.compress exP .id .id 1) fun c => okAnd (c.decompress exP .id) fun d =>
    d.vertexCount == levelDoc.vertexCount && (d.items .id).all fun e => levelDoc.doesEdgeExist e.1 e.2 := by decide +kernel
example : okAnd (byteDoc.compress exP .id .id 4) fun c => okAnd (c.decompress exP .id) fun d =>
    d.edgeCount == byteDoc.edgeCount && d.vertexCount == byteDoc.vertexCount &&
      (d.items .id).all fun e => byteDoc.doesEdgeExist e.1 e.2 := by decide +kernel

-- 136
example : okAnd (compDoc.compress exP .id .id 2) fun c =>
    c.getCompressedMatrixEntry 0 0 == 0x00000000ffffffff && c.getCompressedMatrixEntry 1 1 == U64_MAX := by decide +kernel

-- 472, with level 7; 569, with level 60 (the block has edges between vertices that the graph does not have)
example : ∀ lv ∈ [7, 60],
    (∀ e ∈ [(8, 7), (7, 8), (15, 16), (16, 15), (7, 15), (8, 16), (15, 7), (16, 8)],
      (blocks false 10 lv [(U64_MAX, 1, 1)]).doesEdgeExist e.1 e.2 = false) ∧
    ∀ e ∈ [(8, 8), (15, 15), (15, 8), (8, 15)], (blocks false 10 lv [(U64_MAX, 1, 1)]).doesEdgeExist e.1 e.2 = true := by
  decide +kernel

-- 504, 628
example : (blocks true 70 42 []).isUndirected ∧ (blocks true 70 42 []).vertexCount = 70 ∧
    (blocks true 70 42 []).compressionLevel = 42 := by decide +kernel

/-! ## `lib.rs` -/

def libDoc : Graph := (edges .newDirected [(3, 5)]).addVertex 2 (some [4, 0, 5, 1])

-- 14
example : (edges .newDirected [(3, 5)]).vertexCount = 6 ∧ (edges .newDirected [(3, 5)]).doesEdgeExist 3 5 ∧ libDoc.edgeCount = 5 ∧
    (libDoc.addVertex 8 none).vertexCount = 9 ∧ (libDoc.addVertex 8 none).edgeCount = 5 ∧
    ((libDoc.addVertex 8 none).deleteEdge 2 5).edgeCount = 4 ∧
    ((libDoc.addVertex 8 none).deleteEdge 2 5).doesEdgeExist 2 5 = false := by decide +kernel

/-! ## `matrix/mod.rs` -/

-- 21, 40, 57
example : AdjMatrix.new.dimension = 0 ∧ (adj [(1, 0, 0)]).dimension = 1 ∧ (adj [(1, 0, 0), (1, 4, 7)]).dimension = 8 ∧
    (adj [(1, 0, 0), (1, 4, 7), (0, 100, 1)]).dimension = 101 ∧ (adj [(1, 0, 0)]).entryCount = 1 ∧
    (adj [(1, 0, 0), (1, 4, 7)]).entryCount = 2 ∧ (adj []).getEntry 5 8 = 0 ∧ (adj [(1, 5, 8)]).getEntry 5 8 = 1 ∧
    (adj [(1, 5, 8)]).getEntry 7 5 = 0 ∧ (adj [(1, 5, 8), (1, 7, 5)]).getEntry 7 5 = 1 := by decide +kernel

-- 74, 92
example : (entries f64Numeric [(F64.lit (21 / 10), 5, 8)]).getEntry f64Numeric 5 8 = F64.lit (21 / 10) ∧
    (entries f64Numeric [(F64.lit (21 / 10), 5, 8), (F64.lit (-35 / 10), 7, 5)]).getEntry f64Numeric 7 5 = F64.lit (-35 / 10) ∧
    (entries f64Numeric [(F64.lit (21 / 10), 5, 8), (F64.lit (-35 / 10), 7, 5), (F64.lit (15 / 100), 7, 5)]).getEntry
      f64Numeric 7 5 = F64.lit (15 / 100) ∧
    ((entries f64Numeric [(F64.lit (21 / 10), 5, 8)]).zeroEntry 5 8).getEntry f64Numeric 7 5 = F64.lit 0 := by decide +kernel

/-! ## `matrix/csr_adjacency_matrix.rs` -/

-- 13
example : (adj [(1, 0, 0), (1, 1, 2)]).getEntry 0 0 = 1 ∧ (adj [(1, 0, 0), (1, 1, 2)]).getEntry 1 2 = 1 ∧
    (adj [(1, 0, 0), (1, 1, 2)]).getEntry 2 2 = 0 := by decide +kernel

-- 58, 97, 130, 161
example : ((adj [(1, 5, 2), (1, 5, 10), (1, 5, 11), (1, 9, 5)]).getSparseColVector .id 5).length = 3 ∧
    (∀ x ∈ [2, 10, 11], x ∈ (adj [(1, 5, 2), (1, 5, 10), (1, 5, 11), (1, 9, 5)]).getSparseColVector .id 5) ∧
    (adj [(1, 5, 2), (1, 5, 10), (1, 5, 11), (1, 9, 5)]).colNonzeroEntryCount 5 = 3 ∧
    ((adj [(1, 2, 5), (1, 10, 5), (1, 11, 5), (1, 5, 9)]).getSparseRowVector .id 5).length = 3 ∧
    (∀ x ∈ [2, 10, 11], x ∈ (adj [(1, 2, 5), (1, 10, 5), (1, 11, 5), (1, 5, 9)]).getSparseRowVector .id 5) ∧
    (adj [(1, 2, 5), (1, 10, 5), (1, 11, 5), (1, 5, 9)]).rowNonzeroEntryCount 5 = 3 := by decide +kernel

-- 304
example : gives ((adj [(1, 0, 0), (1, 1, 2), (1, 2, 1), (1, 1, 0)]).toText exP)
    "[ 1, 1, 0 ]\r\n[ 0, 0, 1 ]\r\n[ 0, 1, 0 ]" := by decide +kernel

/-! ## `matrix/csr_square_matrix.rs` -/

-- 15, 43
example : (entries f64Numeric [(F64.lit (57 / 10), 0, 0), (F64.lit (-171 / 10), 1, 2)]).getEntry f64Numeric 0 0 = F64.lit (57 / 10) ∧
    (entries f64Numeric [(F64.lit (57 / 10), 0, 0), (F64.lit (-171 / 10), 1, 2)]).getEntry f64Numeric 1 2 = F64.lit (-171 / 10) ∧
    (entries f64Numeric [(F64.lit (57 / 10), 0, 0), (F64.lit (-171 / 10), 1, 2)]).getEntry f64Numeric 2 2 = F64.lit 0 ∧
    (entries f64Numeric []).dimension = 0 ∧ (entries f64Numeric []).entryCount = 0 := by decide +kernel

-- 60
example : okAnd ((entries f64Numeric []).incrementEntry f64Numeric exP 3 4) fun m => m.getEntry f64Numeric 3 4 == F64.lit 1 &&
    okAnd (m.incrementEntry f64Numeric exP 3 4) fun m => m.getEntry f64Numeric 3 4 == F64.lit 2 && m.entryCount == 1 &&
      m.dimension == 5 && okAnd ((m.setEntry f64Numeric (F64.lit (32 / 10)) 0 1).incrementEntry f64Numeric exP 0 1) fun m =>
        m.getEntry f64Numeric 0 1 == F64.lit (42 / 10) := by decide +kernel

def textDoc : SqMatrix F64 := entries f64Numeric [(F64.lit (13 / 10), 0, 0), (F64.lit 1, 1, 2), (F64.lit (847724 / 1000000), 2, 1),
  (F64.lit (17 / 10), 1, 0)]

-- 118
example : gives (textDoc.toStringWithPrecision exP f64Fmt .id .id 3)
      "[ 1.300, 1.700, 0.000 ]\r\n[ 0.000, 0.000, 0.848 ]\r\n[ 0.000, 1.000, 0.000 ]" ∧
    gives ((textDoc.setEntry f64Numeric (F64.lit (-1012 / 100)) 2 2).toStringWithPrecision exP f64Fmt .id .id 1)
      "[   1.3,   1.7,   0.0 ]\r\n[   0.0,   0.0,   0.8 ]\r\n[   0.0,   1.0, -10.1 ]" := by decide +kernel

-- 399
example : gives ((entries f64Numeric [(F64.lit (13 / 10), 0, 0), (F64.lit 1, 1, 2), (F64.lit (847724 / 1000000), 2, 1),
      (F64.lit (107 / 10), 1, 0)]).toText exP f64Fmt .id .id)
      "[  1.30, 10.70,  0.00 ]\r\n[  0.00,  0.00,  0.85 ]\r\n[  0.00,  1.00,  0.00 ]" ∧
    gives ((entries i32.toNumeric [(1, 0, 0), (7, 1, 2), (-5, 2, 1), (10, 1, 0)]).toText exP i32 .id .id)
      "[  1, 10,  0 ]\r\n[  0,  0, -5 ]\r\n[  0,  7,  0 ]" := by decide +kernel

-- 462
example : ((entries f64Numeric [(F64.lit (55 / 10), 0, 0), (F64.lit (-78 / 10), 1, 2)]).items .id).length = 2 ∧
    (F64.lit (55 / 10), 0, 0) ∈ (entries f64Numeric [(F64.lit (55 / 10), 0, 0), (F64.lit (-78 / 10), 1, 2)]).items .id ∧
    (F64.lit (-78 / 10), 1, 2) ∈ (entries f64Numeric [(F64.lit (55 / 10), 0, 0), (F64.lit (-78 / 10), 1, 2)]).items .id := by
  decide +kernel

end Verif.Validation
