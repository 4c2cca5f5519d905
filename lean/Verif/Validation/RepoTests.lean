import Verif.Model.Display
import Verif.Model.Pool
import Verif.Props.Codec

/-!
# The repository's own unit tests, run on the model

These are tests of the model, not theorems about the code.  Each `example` follows the `#[test]` of `/repo` named above it:
the inputs and expected values are the ones written there.  Assertions are condensed (often only the later states of a test are
checked, and neighbouring tests share an `example`).  Not translated: assertions comparing an accessor with its own field, and the
assertions of `builder_finish` that compare fields before and after (`finish` is the identity here).  Where Rust checks a pooled
value by `(x * 100.0).round() / 100.0`, the example compares the text printed with two decimals.  Iteration uses one order,
`.id`; Rust's is arbitrary.
-/

namespace Verif.Validation
open Verif Props

/-- The text of a successful result. -/
def gives (r : Res (List Char)) (s : String) : Bool := okAnd r fun t => t == s.toList

/-- `is_err()`: an error, not a panic. -/
def isErr {α : Type} : Res α → Bool
  | .err _ => true
  | _ => false

/-- `edges` added one by one. -/
def edges (g : Graph) (l : List (Nat × Nat)) : Graph := l.foldl (fun g e => g.addEdge e.1 e.2) g

/-- Entries set one by one. -/
def entries {T : Type} (N : Numeric T) (l : List (T × Nat × Nat)) : SqMatrix T :=
  l.foldl (fun m e => m.setEntry N e.1 e.2.1 e.2.2) .new

/-- Blocks added one by one, computing the weight. -/
def blocks (u : Bool) (n lv : Nat) (l : List (Nat × Nat × Nat)) : CGraph :=
  l.foldl (fun g e => g.builderAdd e.1 e.2.1 e.2.2 none) (CGraph.builderNew u n lv)

def i32 : NumFmt Int := sintFmt (2 ^ 31 - 1) false

/-! ## `matrix/csr_adjacency_matrix.rs` -/

def adj (l : List (Nat × Nat × Nat)) : AdjMatrix := l.foldl (fun m e => m.setEntry e.1 e.2.1 e.2.2) .new

-- test_get_dimension, 439-460
example : (adj [(1, 0, 0)]).dimension = 1 ∧ (adj [(1, 0, 0), (1, 4, 7), (1, 4, 7)]).dimension = 8 ∧
    (adj [(1, 0, 0), (1, 4, 7), (1, 4, 7), (0, 100, 1)]).dimension = 101 := by decide +kernel

-- test_get_entry_count, 463-492
example : (adj [(0, 5, 8), (0, 0, 0), (0, 27, 13)]).entryCount = 0 ∧
    (adj [(0, 5, 8), (0, 0, 0), (0, 27, 13), (1, 0, 0), (1, 100, 1), (1, 100, 1), (1, 100, 2), (1, 1, 99)]).entryCount = 4 := by
  decide +kernel

-- test_new_matrix, 424-436; test_get_entry, 495-508
example : AdjMatrix.new.dimension = 0 ∧ AdjMatrix.new.entryCount = 0 ∧ AdjMatrix.new.edgesTable.size = 0 ∧
    AdjMatrix.new.getEntry 5 8 = 0 ∧ (adj [(0, 5, 8)]).getEntry 5 8 = 0 ∧ (adj [(0, 5, 8), (1, 5, 8)]).getEntry 5 8 = 1 ∧
    (adj [(0, 5, 8), (1, 5, 8)]).getEntry 8 5 = 0 ∧ (adj [(0, 5, 8), (1, 5, 8), (1, 8, 5)]).getEntry 8 5 = 1 := by
  decide +kernel

-- test_get_sparse_col_vector, 511-529; test_get_sparse_row_vector, 532-550
example : ((adj [(1, 3, 0), (1, 3, 8), (1, 3, 10), (1, 3, 42), (1, 3, 100), (1, 9, 5)]).getSparseColVector .id 3).length = 5 ∧
    ∀ x ∈ [0, 8, 10, 42, 100],
      x ∈ (adj [(1, 3, 0), (1, 3, 8), (1, 3, 10), (1, 3, 42), (1, 3, 100), (1, 9, 5)]).getSparseColVector .id 3 := by
  decide +kernel
example : ((adj [(1, 0, 3), (1, 8, 3), (1, 10, 3), (1, 42, 3), (1, 100, 3), (1, 3, 9)]).getSparseRowVector .id 3).length = 5 ∧
    ∀ x ∈ [0, 8, 10, 42, 100],
      x ∈ (adj [(1, 0, 3), (1, 8, 3), (1, 10, 3), (1, 42, 3), (1, 100, 3), (1, 3, 9)]).getSparseRowVector .id 3 := by
  decide +kernel

-- test_col_nonzero_entry_count, 553-562; test_row_nonzero_entry_count, 565-574
example : (adj [(1, 5, 2), (1, 5, 10), (1, 5, 11), (1, 9, 5)]).colNonzeroEntryCount 5 = 3 ∧
    (adj [(1, 2, 5), (1, 10, 5), (1, 11, 5), (1, 5, 9)]).rowNonzeroEntryCount 5 = 3 := by decide +kernel

-- test_set_entry, 577-606; test_zero_entry, 609-625
example : (adj [(0, 5, 8)]).edgesTable.size = 0 ∧ (adj [(0, 5, 8), (1, 5, 8)]).edgesTable.size = 1 ∧
    ((adj [(0, 5, 8), (1, 5, 8), (1, 5, 9)]).edgesTable.get? 5).map HMap.size = some 2 ∧
    ((adj [(1, 5, 8)]).zeroEntry 5 8).edgesTable.size = 1 ∧ ((adj [(1, 5, 8)]).zeroEntry 5 8).entryCount = 0 ∧
    (((adj [(1, 5, 8)]).zeroEntry 5 8).edgesTable.get? 5).map HMap.size = some 0 := by decide +kernel

-- test_adjacency_matrix_to_string, 628-643
example : gives ((adj [(1, 0, 0), (1, 1, 1), (1, 1, 2), (1, 2, 1), (1, 1, 0)]).toText exP)
      "[ 1, 1, 0 ]\r\n[ 0, 1, 1 ]\r\n[ 0, 1, 0 ]" ∧
    gives (((adj [(1, 0, 0), (1, 1, 1), (1, 1, 2), (1, 2, 1), (1, 1, 0)]).zeroEntry 1 1).toText exP)
      "[ 1, 1, 0 ]\r\n[ 0, 0, 1 ]\r\n[ 0, 1, 0 ]" := by decide +kernel

def adj5 : AdjMatrix := adj [(1, 0, 0), (1, 1, 1), (1, 1, 2), (1, 2, 1), (1, 1, 0)]

-- test_adjacency_matrix_ref_iterator, 646-674
example : (adj5.items .id).length = adj5.entryCount ∧
    (∀ p ∈ [(0, 0), (1, 1), (1, 2), (2, 1), (1, 0)], p ∈ adj5.items .id) ∧
    ((adj5.zeroEntry 1 1).items .id).length = (adj5.zeroEntry 1 1).entryCount ∧
    (1, 1) ∉ (adj5.zeroEntry 1 1).items .id ∧
    ∀ p ∈ [(0, 0), (1, 2), (2, 1), (1, 0)], p ∈ (adj5.zeroEntry 1 1).items .id := by decide +kernel

/-! ## `matrix/csr_square_matrix.rs` -/

-- test_new_matrix, 540-552; test_get_dimension, 555-576; test_get_entry_count, 579-608; test_get_entry, 611-624
example : (SqMatrix.new : SqMatrix Int).dimension = 0 ∧ (SqMatrix.new : SqMatrix Int).entryCount = 0 ∧
    (entries f64Numeric [(F64.lit (5 / 2), 0, 0)]).dimension = 1 ∧
    (entries f64Numeric [(F64.lit (5 / 2), 0, 0), (F64.lit 1, 4, 7), (F64.lit (11 / 10), 4, 7)]).dimension = 8 ∧
    (entries f64Numeric [(F64.lit (5 / 2), 0, 0), (F64.lit 1, 4, 7), (F64.lit (11 / 10), 4, 7),
      (F64.lit 0, 100, 1)]).dimension = 101 ∧
    (entries i32.toNumeric [(0, 5, 8), (0, 0, 0), (0, 27, 13)]).entryCount = 0 ∧
    (entries i32.toNumeric [(0, 5, 8), (0, 0, 0), (0, 27, 13), (1, 0, 0), (1, 100, 1), (1, 100, 1), (1, 100, 2),
      (1, 1, 99)]).entryCount = 4 ∧
    (entries f64Numeric [(F64.lit 0, 5, 8)]).getEntry f64Numeric 5 8 = F64.lit 0 ∧
    (entries f64Numeric [(F64.lit 0, 5, 8), (F64.lit (3 / 2), 5, 8)]).getEntry f64Numeric 5 8 = F64.lit (3 / 2) ∧
    (entries f64Numeric [(F64.lit 0, 5, 8), (F64.lit (3 / 2), 5, 8)]).getEntry f64Numeric 8 5 = F64.lit 0 := by
  decide +kernel

-- test_set_entry, 627-663
example : (entries i32.toNumeric [(0, 5, 8), (7, 5, 8), (2, 5, 9), (3, 5, 9)]).getEntry i32.toNumeric 5 9 = 3 ∧
    (entries i32.toNumeric [(0, 5, 8), (7, 5, 8), (2, 5, 9), (3, 5, 9)]).entryCount = 2 ∧
    (entries i32.toNumeric [(0, 5, 8), (7, 5, 8), (2, 5, 9), (3, 5, 9)]).dimension = 10 := by decide +kernel

-- test_increment_entry, 666-696: 78.7 + 1.0 is 79.7
example : okAnd ((SqMatrix.new.incrementEntry f64Numeric exP 5 8).bind fun m => m.incrementEntry f64Numeric exP 5 8)
      (fun m => m.getEntry f64Numeric 5 8 == F64.lit 2 && m.entryCount == 1 && m.dimension == 9) ∧
    okAnd ((entries f64Numeric [(F64.lit (787 / 10), 100, 20)]).incrementEntry f64Numeric exP 100 20)
      (fun m => m.getEntry f64Numeric 100 20 == F64.lit (797 / 10)) := by decide +kernel

-- test_zero_entry, 699-715
example : ((entries i32.toNumeric [(9, 5, 8)]).zeroEntry 5 8).entryCount = 0 ∧
    ((entries i32.toNumeric [(9, 5, 8)]).zeroEntry 5 8).edgesTable.size = 1 := by decide +kernel

def fm : SqMatrix F64 := entries f64Numeric [(F64.lit (13 / 10), 0, 0), (F64.lit (27 / 10), 1, 1), (F64.lit 1, 1, 2),
  (F64.lit (847324 / 1000000), 2, 1), (F64.lit (17 / 10), 1, 0)]

-- test_matrix_to_string, 718-785
example : gives ((entries i32.toNumeric [(1, 0, 0), (1, 1, 1), (9, 1, 2), (1, 2, 1), (1, 1, 0)]).toText exP i32 .id .id)
      "[ 1, 1, 0 ]\r\n[ 0, 1, 1 ]\r\n[ 0, 9, 0 ]" ∧
    gives (((entries i32.toNumeric [(1, 0, 0), (1, 1, 1), (9, 1, 2), (1, 2, 1), (1, 1, 0)]).zeroEntry 1 1).toText exP i32 .id .id)
      "[ 1, 1, 0 ]\r\n[ 0, 0, 1 ]\r\n[ 0, 9, 0 ]" := by decide +kernel
example : gives (fm.toText exP f64Fmt .id .id)
      "[ 1.30, 1.70, 0.00 ]\r\n[ 0.00, 2.70, 0.85 ]\r\n[ 0.00, 1.00, 0.00 ]" := by decide +kernel
example : gives ((fm.zeroEntry 1 1).toText exP f64Fmt .id .id)
      "[ 1.30, 1.70, 0.00 ]\r\n[ 0.00, 0.00, 0.85 ]\r\n[ 0.00, 1.00, 0.00 ]" := by decide +kernel
example : gives (((fm.zeroEntry 1 1).setEntry f64Numeric (F64.lit (1012 / 100)) 2 2).toText exP f64Fmt .id .id)
      "[  1.30,  1.70,  0.00 ]\r\n[  0.00,  0.00,  0.85 ]\r\n[  0.00,  1.00, 10.12 ]" := by decide +kernel
example : gives ((entries i32.toNumeric [(-100, 1, 1), (8, 2, 1)]).toText exP i32 .id .id)
      "[    0,    0,    0 ]\r\n[    0, -100,    8 ]\r\n[    0,    0,    0 ]" ∧
    gives ((entries i32.toNumeric [(10, 0, 0), (11, 0, 1), (12, 1, 0), (13, 1, 1)]).toText exP i32 .id .id)
      "[ 10, 12 ]\r\n[ 11, 13 ]" ∧
    gives ((entries i32.toNumeric [(-1, 1, 0)]).toText exP i32 .id .id) "[  0, -1 ]\r\n[  0,  0 ]" ∧
    gives ((entries f64Numeric []).toText exP f64Fmt .id .id) "" := by decide +kernel

-- test_matrix_to_string_with_precision, 788-883
example : gives ((entries i32.toNumeric [(1, 0, 0), (1, 1, 1), (9, 1, 2), (1, 2, 1), (1, 1, 0)]).toStringWithPrecision exP i32
      .id .id 1) "[ 1.0, 1.0, 0.0 ]\r\n[ 0.0, 1.0, 1.0 ]\r\n[ 0.0, 9.0, 0.0 ]" ∧
    gives ((entries i32.toNumeric [(1, 0, 0), (1, 1, 1), (9, 1, 2), (1, 2, 1), (1, 1, 0)]).toStringWithPrecision exP i32
      .id .id 3) "[ 1.000, 1.000, 0.000 ]\r\n[ 0.000, 1.000, 1.000 ]\r\n[ 0.000, 9.000, 0.000 ]" := by decide +kernel
example : gives ((fm.zeroEntry 1 1).toStringWithPrecision exP f64Fmt .id .id 3)
      "[ 1.300, 1.700, 0.000 ]\r\n[ 0.000, 0.000, 0.847 ]\r\n[ 0.000, 1.000, 0.000 ]" := by decide +kernel
example : gives (((fm.zeroEntry 1 1).setEntry f64Numeric (F64.lit (-1012 / 100)) 2 2).toStringWithPrecision exP f64Fmt .id .id 1)
      "[   1.3,   1.7,   0.0 ]\r\n[   0.0,   0.0,   0.8 ]\r\n[   0.0,   1.0, -10.1 ]" := by decide +kernel

-- the rest of test_matrix_to_string_with_precision
example : gives (((entries i32.toNumeric [(1, 0, 0), (1, 1, 1), (9, 1, 2), (1, 2, 1), (1, 1, 0)]).zeroEntry 1 1
      ).toStringWithPrecision exP i32 .id .id 0) "[ 1, 1, 0 ]\r\n[ 0, 0, 1 ]\r\n[ 0, 9, 0 ]" ∧
    gives ((entries i32.toNumeric [(10, 0, 0), (11, 0, 1), (12, 1, 0), (13, 1, 1)]).toStringWithPrecision exP i32 .id .id 0)
      "[ 10, 12 ]\r\n[ 11, 13 ]" ∧
    gives ((entries i32.toNumeric [(-1, 1, 0)]).toStringWithPrecision exP i32 .id .id 0) "[  0, -1 ]\r\n[  0,  0 ]" ∧
    gives ((entries f64Numeric []).toStringWithPrecision exP f64Fmt .id .id 4) "" ∧
    gives ((entries u64Fmt.toNumeric []).toStringWithPrecision exP u64Fmt .id .id 4) "" := by decide +kernel
example : gives (fm.toStringWithPrecision exP f64Fmt .id .id 2)
      "[ 1.30, 1.70, 0.00 ]\r\n[ 0.00, 2.70, 0.85 ]\r\n[ 0.00, 1.00, 0.00 ]" := by decide +kernel

def itm : SqMatrix F64 := entries f64Numeric [(F64.lit (12 / 10), 0, 0), (F64.lit (15 / 10), 1, 1), (F64.lit (98 / 10), 1, 2),
  (F64.lit (11 / 10), 2, 1), (F64.lit (11 / 10), 1, 0)]

-- test_matrix_ref_iterator, 886-913
example : (itm.items .id).length = itm.entryCount ∧
    (∀ x ∈ [(F64.lit (12 / 10), 0, 0), (F64.lit (15 / 10), 1, 1), (F64.lit (98 / 10), 1, 2), (F64.lit (11 / 10), 2, 1),
      (F64.lit (11 / 10), 1, 0)], x ∈ itm.items .id) ∧
    ((itm.zeroEntry 1 1).items .id).length = (itm.zeroEntry 1 1).entryCount ∧
    ∀ x ∈ [(F64.lit (12 / 10), 0, 0), (F64.lit (98 / 10), 1, 2), (F64.lit (11 / 10), 2, 1), (F64.lit (11 / 10), 1, 0)],
      x ∈ (itm.zeroEntry 1 1).items .id := by decide +kernel

/-! ## `graph/standard.rs` -/

-- test_standard_graph_new, 915-921; test_standard_graph_directed_from, 924-939; …_undirected_from_unchecked, 965-981;
-- test_standard_graph_vertex_count, 993-1002
example : Graph.newUndirected.isUndirected = true ∧ Graph.newDirected.isUndirected = false ∧
    (Graph.directedFrom (adj [(1, 0, 0), (1, 1, 2)])).isUndirected = false ∧
    (Graph.directedFrom (adj [(1, 0, 0), (1, 1, 2)])).edgeCount = 2 ∧
    (Graph.directedFrom (adj [(1, 0, 0), (1, 1, 2)])).vertexCount = 3 ∧
    (∀ e ∈ (adj [(1, 0, 0), (1, 1, 2)]).items .id,
      (Graph.directedFrom (adj [(1, 0, 0), (1, 1, 2)])).doesEdgeExist e.1 e.2 = true) ∧
    (Graph.undirectedFromUnchecked (adj [(1, 0, 0), (1, 1, 2), (1, 2, 1)])).isUndirected = true ∧
    (Graph.undirectedFromUnchecked (adj [(1, 0, 0), (1, 1, 2), (1, 2, 1)])).edgeCount = 3 ∧
    (Graph.undirectedFromUnchecked (adj [(1, 0, 0), (1, 1, 2), (1, 2, 1)])).vertexCount = 3 ∧
    Graph.newUndirected.vertexCount = 0 ∧ (Graph.newUndirected.addVertex 10 none).vertexCount = 11 ∧
    (edges (Graph.newUndirected.addVertex 10 none) [(12, 13)]).vertexCount = 14 := by decide +kernel

-- test_standard_graph_undirected_from, 942-962
example : okAnd (Graph.undirectedFrom .id (adj [(1, 0, 0), (1, 1, 2), (1, 2, 1)]))
      (fun g => g.isUndirected && g.edgeCount == 3 && g.vertexCount == 3) ∧
    isErr (Graph.undirectedFrom .id (adj [(1, 0, 0), (1, 1, 2), (1, 2, 1), (1, 0, 1)])) := by decide +kernel

-- test_standard_graph_edge_count, 1005-1026
example : (edges .newUndirected [(1, 3), (1, 3), (3, 1)]).edgeCount = 2 ∧
    (edges .newUndirected [(1, 3), (1, 3), (3, 1), (0, 3)]).edgeCount = 4 ∧
    (edges .newDirected [(1, 3), (1, 3), (0, 3)]).edgeCount = 2 := by decide +kernel

-- test_standard_graph_matrix_string, 1029-1043
example : gives ((edges .newDirected [(1, 2), (1, 0), (0, 2), (2, 2)]).matrixString exP)
      "[ 0, 1, 0 ]\r\n[ 0, 0, 0 ]\r\n[ 1, 1, 1 ]" ∧
    gives (((edges .newDirected [(1, 2), (1, 0), (0, 2), (2, 2)]).addVertex 3 none).matrixString exP)
      "[ 0, 1, 0, 0 ]\r\n[ 0, 0, 0, 0 ]\r\n[ 1, 1, 1, 0 ]\r\n[ 0, 0, 0, 0 ]" := by decide +kernel

-- test_standard_graph_does_edge_exist, 1046-1061
example : Graph.newDirected.doesEdgeExist 0 0 = false ∧ Graph.newDirected.doesEdgeExist 0 1 = false ∧
    (edges .newDirected [(0, 0), (5, 1)]).doesEdgeExist 0 0 = true ∧
    (edges .newDirected [(0, 0), (5, 1)]).doesEdgeExist 5 1 = true ∧
    ((edges .newDirected [(0, 0), (5, 1)]).deleteEdge 0 0).doesEdgeExist 0 0 = false ∧
    ((edges .newDirected [(0, 0), (5, 1)]).deleteEdge 0 0).doesEdgeExist 5 1 = true := by decide +kernel

-- test_standard_graph_to_from_bytes, 1064-1091; test_standard_graph_from_invalid_bytes, 1094-1113
example : okAnd ((edges .newDirected [(1, 2), (1, 0), (0, 2), (2, 2)]).toBytes exP .id) fun b =>
    b.length == 26 + 8 * 2 * 4 && okAnd (Graph.tryFrom exP b) fun g => !g.isUndirected && (g.items .id).length == 4 &&
      (g.items .id).all fun e => (edges .newDirected [(1, 2), (1, 0), (0, 2), (2, 2)]).doesEdgeExist e.1 e.2 := by
  decide +kernel
example : isErr (Graph.tryFrom exP []) ∧
    isErr (Graph.tryFrom exP (toBE 4 Graph.MAGIC ++ toBE 4 Graph.VERSION ++ toBE 8 0 ++ toBE 8 1 ++ [0, 0] ++ toBE 8 0 ++
      toBE 8 0)) ∧
    okAnd ((edges .newDirected [(0, 0)]).toBytes exP .id)
      (fun b => isErr (Graph.tryFrom exP (b.set 24 2))) := by decide +kernel

-- test_standard_graph_add_vertex, 1116-1158
example : (Graph.newUndirected.addVertex 3 (some [2, 5, 3, 8, 1])).edgeCount = 9 ∧
    (Graph.newUndirected.addVertex 3 (some [2, 5, 3, 8, 1])).vertexCount = 9 ∧
    ((Graph.newUndirected.addVertex 3 (some [2, 5, 3, 8, 1])).addVertex 100 none).vertexCount = 101 ∧
    (Graph.newDirected.addVertex 3 (some [2, 5, 3, 8, 1])).edgeCount = 5 ∧
    ((Graph.newDirected.addVertex 3 (some [2, 5, 3, 8, 1])).addVertex 101 none).vertexCount = 102 := by decide +kernel

example : (∀ x ∈ [2, 5, 3, 8, 1], (Graph.newUndirected.addVertex 3 (some [2, 5, 3, 8, 1])).doesEdgeExist 3 x = true ∧
      (Graph.newUndirected.addVertex 3 (some [2, 5, 3, 8, 1])).doesEdgeExist x 3 = true) ∧
    ∀ x ∈ [2, 5, 3, 8, 1], (Graph.newDirected.addVertex 3 (some [2, 5, 3, 8, 1])).doesEdgeExist 3 x = true := by
  decide +kernel

/-- Edge count and vertex count. -/
def counts (g : Graph) : Nat × Nat := (g.edgeCount, g.vertexCount)

-- test_standard_graph_add_edge, 1161-1209
example : counts (edges .newUndirected [(0, 7)]) = (2, 8) ∧ counts (edges .newUndirected [(0, 7), (4, 3)]) = (4, 8) ∧
    counts (edges .newUndirected [(0, 7), (4, 3), (9, 9)]) = (5, 10) ∧
    (∀ e ∈ [(0, 7), (7, 0), (4, 3), (3, 4), (9, 9)],
      (edges .newUndirected [(0, 7), (4, 3), (9, 9)]).doesEdgeExist e.1 e.2 = true) ∧
    counts (edges .newDirected [(0, 7)]) = (1, 8) ∧ counts (edges .newDirected [(0, 7), (4, 3)]) = (2, 8) ∧
    counts (edges .newDirected [(0, 7), (4, 3), (9, 9)]) = (3, 10) := by decide +kernel

def del1 : Graph := (edges ((edges .newUndirected [(2, 5)]).deleteEdge 5 2) [(1, 5)]).deleteEdge 100 100
def del2 : Graph := ((edges .newDirected [(1, 5)]).deleteEdge 1 5).deleteEdge 100 100

example : counts del1 = (2, 6) ∧ del1.doesEdgeExist 1 5 = true ∧ del1.doesEdgeExist 5 1 = true ∧
    counts (del1.deleteEdge 1 5) = (0, 6) ∧ counts ((del1.deleteEdge 1 5).addEdge 8 8) = (1, 9) ∧
    counts (((del1.deleteEdge 1 5).addEdge 8 8).deleteEdge 8 8) = (0, 9) ∧ counts del2 = (0, 6) ∧
    counts (del2.addEdge 8 8) = (1, 9) ∧ counts ((del2.addEdge 8 8).deleteEdge 8 8) = (0, 9) := by decide +kernel

-- test_standard_graph_delete_edge, 1212-1282
example : ((edges .newUndirected [(2, 5)]).deleteEdge 5 2).edgeCount = 0 ∧
    ((edges .newUndirected [(2, 5)]).deleteEdge 5 2).vertexCount = 6 ∧
    ((edges ((edges .newUndirected [(2, 5)]).deleteEdge 5 2) [(1, 5)]).deleteEdge 100 100).edgeCount = 2 := by decide +kernel

-- test_get_vertex_in_edges … test_get_vertex_out_degree, 1285-1388
example : ((edges .newDirected [(2, 5), (10, 5), (11, 5), (5, 9)]).getVertexInEdges .id 5).length = 3 ∧
    ((edges .newUndirected [(2, 5), (10, 5), (11, 5), (5, 9)]).getVertexInEdges .id 5).length = 4 ∧
    ((edges .newDirected [(5, 2), (5, 10), (5, 11), (9, 5)]).getVertexOutEdges .id 5).length = 3 ∧
    ((edges .newUndirected [(5, 2), (5, 10), (5, 11), (9, 5)]).getVertexOutEdges .id 5).length = 4 ∧
    (edges .newDirected [(2, 5), (10, 5), (11, 5), (5, 9)]).getVertexInDegree 5 = 3 ∧
    (edges .newUndirected [(2, 5), (10, 5), (11, 5), (5, 9)]).getVertexInDegree 5 = 4 ∧
    (edges .newDirected [(5, 2), (5, 10), (5, 11), (9, 5)]).getVertexOutDegree 5 = 3 ∧
    (edges .newUndirected [(5, 2), (5, 10), (5, 11), (9, 5)]).getVertexOutDegree 5 = 4 := by decide +kernel

def poolU : Graph := edges ((Graph.newUndirected.addVertex 1 (some [0, 2, 4, 7, 3])).addVertex 5 (some [6, 8, 0, 1, 5, 4, 2]))
  [(7, 8)]
def poolD : Graph := edges .newDirected [(0, 1), (1, 1), (2, 1), (2, 0), (3, 2), (3, 1), (3, 4), (0, 6), (6, 6)]

-- test_find_avg_pool_matrix, 1391-1544, printed with two decimals
example : okAnd (poolU.findAvgPoolMatrix exP .id 5) fun m => m.entryCount == 4 &&
    gives (m.toText exP f64Fmt .id .id) "[ 0.32, 0.20 ]\r\n[ 0.20, 0.28 ]" := by decide +kernel
example : okAnd (poolD.findAvgPoolMatrix exP .id 3) fun m => m.entryCount == 5 &&
    gives (m.toText exP f64Fmt .id .id) "[ 0.44, 0.22, 0.00 ]\r\n[ 0.00, 0.11, 0.00 ]\r\n[ 0.11, 0.00, 0.11 ]" := by
  decide +kernel
example : okAnd ((poolD.addVertex 8 none).findAvgPoolMatrix exP .id 3) (fun m => m.dimension == 3 && m.entryCount == 5) ∧
    okAnd ((poolD.addVertex 9 none).findAvgPoolMatrix exP .id 3) (fun m => m.dimension == 4 && m.entryCount == 5) ∧
    okAnd (Graph.newDirected.findAvgPoolMatrix exP .id 4) (fun m => m.dimension == 0 && m.entryCount == 0) ∧
    okAnd ((Graph.newDirected.addVertex 5 none).findAvgPoolMatrix exP .id 6) (fun m => m.dimension == 1 && m.entryCount == 0) ∧
    okAnd ((edges .newUndirected [(0, 1)]).findAvgPoolMatrix exP .id 0)
      (fun m => m.dimension == 2 && m.entryCount == 2 && m.getEntry f64Numeric 0 1 == F64.lit 1) := by decide +kernel

/-- The edges of a successful approximation, as a grid. -/
def approxIs (g : Graph) (b : Nat) (t : ℚ) (s : String) : Bool :=
  okAnd (g.approximate exP .id .id b (F64.lit t)) fun a => a.isUndirected == g.isUndirected && gives (a.matrixString exP) s

-- test_approximate, 1547-1663
example : approxIs poolU 5 (1 / 4) "[ 1, 0 ]\r\n[ 0, 1 ]" ∧
    approxIs poolD 3 (2 / 10) "[ 1, 1, 0 ]\r\n[ 0, 0, 0 ]\r\n[ 0, 0, 0 ]" := by decide +kernel
example : approxIs poolD 3 (507 / 10) "[ 0, 0, 0 ]\r\n[ 0, 0, 0 ]\r\n[ 0, 0, 0 ]" ∧
    approxIs poolD 3 (-27174 / 100) "[ 1, 1, 0 ]\r\n[ 0, 1, 0 ]\r\n[ 1, 0, 1 ]" := by decide +kernel
example : approxIs (poolD.addVertex 8 none) 3 (2 / 10) "[ 1, 1, 0 ]\r\n[ 0, 0, 0 ]\r\n[ 0, 0, 0 ]" ∧
    approxIs (poolD.addVertex 9 none) 3 (2 / 10) "[ 1, 1, 0, 0 ]\r\n[ 0, 0, 0, 0 ]\r\n[ 0, 0, 0, 0 ]\r\n[ 0, 0, 0, 0 ]" ∧
    approxIs .newDirected 4 (4 / 10) "" ∧ approxIs (Graph.newDirected.addVertex 5 none) 6 0 "[ 0 ]" ∧
    approxIs (edges .newUndirected [(0, 1)]) 1 1 "[ 0, 1 ]\r\n[ 1, 0 ]" := by decide +kernel

-- lines 1625-1633: block dimension 0
example : okAnd ((poolD.addVertex 8 none).addVertex 9 none |>.approximate exP .id .id 0 (F64.lit (2 / 10))) fun a =>
    !a.isUndirected && a.vertexCount == 10 && a.edgeCount == 9 &&
      (poolD.items .id).all fun e => a.doesEdgeExist e.1 e.2 := by decide +kernel

-- test_standard_graph_ref_iterator, 1874-1908
example : ((Graph.directedFrom adj5).items .id).length = 5 ∧
    (∀ p ∈ [(0, 0), (1, 1), (1, 2), (2, 1), (1, 0)],
      p ∈ (edges .newDirected [(0, 0), (1, 1), (1, 2), (2, 1), (1, 0)]).items .id) ∧
    (1, 1) ∉ ((edges .newDirected [(0, 0), (1, 1), (1, 2), (2, 1), (1, 0)]).deleteEdge 1 1).items .id ∧
    ∀ p ∈ [(0, 0), (1, 2), (2, 1), (1, 0)],
      p ∈ ((edges .newDirected [(0, 0), (1, 1), (1, 2), (2, 1), (1, 0)]).deleteEdge 1 1).items .id := by decide +kernel

/-- All pairs of `[a, b) × [c, d)`. -/
def rect (a b c d : Nat) : List (Nat × Nat) :=
  ((List.range (b - a)).map (· + a)).flatMap fun i => ((List.range (d - c)).map (· + c)).map fun j => (i, j)
def compD : Graph := edges (Graph.newDirected.addVertex 23 none) (rect 8 16 8 16 ++ rect 0 8 0 4 ++ [(22, 18), (15, 18)])
def compU : Graph := edges (Graph.newUndirected.addVertex 23 none) (rect 8 16 8 16 ++ rect 8 16 0 4 ++ [(22, 18), (15, 18)])

/-- Level, edge count and some entries of a successful compression. -/
def compIs (g : Graph) (lv level count : Nat) (es : List (Nat × Nat × Nat)) : Bool :=
  okAnd (g.compress exP .id .id lv) fun c => c.isUndirected == g.isUndirected && c.compressionLevel == level &&
    c.vertexCount == 24 && c.edgeCount == count && es.all fun e => c.getCompressedMatrixEntry e.2.1 e.2.2 == e.1

-- test_standard_graph_compress, 1666-1871
example : compIs compD 8 8 96 [(0x00000000ffffffff, 0, 0), (U64_MAX, 1, 1)] := by decide +kernel
example : compIs compD 4 4 96 [(0x00000000ffffffff, 0, 0), (U64_MAX, 1, 1)] := by decide +kernel
example : compIs compD 38 38 64 [(U64_MAX, 1, 1)] := by decide +kernel
example : compIs compD 64 64 64 [(U64_MAX, 1, 1)] := by decide +kernel
example : compIs compD 233 64 64 [(U64_MAX, 1, 1)] := by decide +kernel
example : compIs compD 0 1 98 [(U64_MAX, 1, 1)] := by decide +kernel
example : okAnd (compD.compress exP .id .id 0) fun c => c.doesEdgeExist 22 18 && c.doesEdgeExist 15 18 := by decide +kernel
example : compIs (compD.deleteEdge 10 10) 64 64 0 [] := by decide +kernel
example : compIs compU 32 32 128 [(0x00000000ffffffff, 1, 0), (0x0f0f0f0f0f0f0f0f, 0, 1), (U64_MAX, 1, 1)] := by decide +kernel
example : okAnd ((compU.compress exP .id .id 4).bind fun c => c.decompress exP .id) fun d =>
    d.isUndirected && d.edgeCount == compU.edgeCount - 4 && d.vertexCount == 24 &&
    (rect 8 16 8 16 ++ rect 8 16 0 4).all fun e => d.doesEdgeExist e.1 e.2 := by decide +kernel
example : okAnd ((compD.compress exP .id .id 4).bind fun c => c.decompress exP .id) fun d =>
    !d.isUndirected && d.edgeCount == compD.edgeCount - 2 && d.vertexCount == 24 &&
    !d.doesEdgeExist 22 18 && !d.doesEdgeExist 15 18 &&
    (rect 8 16 8 16 ++ rect 0 8 0 4).all fun e => d.doesEdgeExist e.1 e.2 := by decide +kernel

/-! ## `graph/compressed.rs` -/

-- test_compressed_graph_edge_count, 672-677; test_compressed_graph_compression_level, 680-689
example : (blocks false 15 42 [(U64_MAX, 1, 1)]).edgeCount = 64 ∧ (blocks true 9 43 []).compressionLevel = 43 ∧
    (blocks true 9 0 []).compressionLevel = 1 ∧ (blocks true 9 65 []).compressionLevel = 64 := by decide +kernel

-- test_compressed_graph_is_undirected, 654-660; …_vertex_count, 663-669; …_get_compressed_matrix_entry, 692-702
example : (blocks true 8 7 []).isUndirected = true ∧ (blocks false 9 8 []).isUndirected = false ∧
    (blocks true 8 8 []).vertexCount = 8 ∧ (blocks false 100 15 []).vertexCount = 100 ∧
    (blocks false 15 5 [(42, 0, 0), (67, 0, 1), (U64_MAX, 1, 1)]).getCompressedMatrixEntry 0 0 = 42 ∧
    (blocks false 15 5 [(42, 0, 0), (67, 0, 1), (U64_MAX, 1, 1)]).getCompressedMatrixEntry 0 1 = 67 ∧
    (blocks false 15 5 [(42, 0, 0), (67, 0, 1), (U64_MAX, 1, 1)]).getCompressedMatrixEntry 1 1 = U64_MAX := by decide +kernel

-- test_compressed_graph_matrix_string, 705-722
example : gives ((blocks false 16 9 [(300, 1, 1), (10, 2, 1)]).matrixString exP .id .id)
      "[   0,   0,   0 ]\r\n[   0, 300,  10 ]\r\n[   0,   0,   0 ]" ∧
    gives ((blocks false 27 6 [(9, 1, 1)]).matrixString exP .id .id)
      "[ 0, 0, 0, 0 ]\r\n[ 0, 9, 0, 0 ]\r\n[ 0, 0, 0, 0 ]\r\n[ 0, 0, 0, 0 ]" := by decide +kernel

-- test_compressed_graph_does_edge_exist, 725-747
example : ([(8, 8), (15, 15), (15, 8), (8, 15), (10, 8), (10, 10), (14, 15)].all fun e =>
      (blocks false 16 13 [(U64_MAX, 1, 1)]).doesEdgeExist e.1 e.2) ∧
    [(8, 7), (7, 8), (15, 16), (16, 15), (7, 15), (8, 16), (15, 7), (16, 8)].all fun e =>
      !(blocks false 16 13 [(U64_MAX, 1, 1)]).doesEdgeExist e.1 e.2 := by decide +kernel

-- test_compressed_graph_to_from_bytes, 750-787
example : okAnd ((blocks false 100 18 [(300, 1, 1), (10, 2, 1), (8, 4, 3)]).toBytes exP .id) fun b =>
    okAnd (CGraph.tryFrom exP b) fun c => !c.isUndirected && c.compressionLevel == 18 && c.edgeCount == 7 &&
      c.vertexCount == 100 && c.adjacencyMatrix.dimension == 13 && c.adjacencyMatrix.entryCount == 3 &&
      (c.adjacencyMatrix.items .id).all fun e => e ∈ [(300, 1, 1), (10, 2, 1), (8, 4, 3)] := by decide +kernel

-- test_compressed_graph_from_invalid_bytes, 790-809
example : isErr (CGraph.tryFrom exP []) ∧
    okAnd ((blocks false 16 18 [(1, 0, 0)]).toBytes exP .id) (fun b => isErr (CGraph.tryFrom exP (b.set 40 2))) ∧
    okAnd ((blocks false 16 18 [(1, 0, 0)]).toBytes exP .id)
      (fun b => isErr (CGraph.tryFrom exP (b.take 24 ++ toBE 8 999 ++ b.drop 32))) ∧
    okAnd ((blocks false 1 18 [(2, 0, 0)]).toBytes exP .id) (fun b => isErr (CGraph.tryFrom exP b)) := by
  decide +kernel

-- test_compressed_graph_decompress, 812-830
example : okAnd ((blocks false 16 20 [(U64_MAX, 1, 1)]).decompress exP .id) fun d => d.vertexCount == 16 &&
    (d.items .id).length == 64 && (d.items .id).all fun e => (blocks false 16 20 [(U64_MAX, 1, 1)]).doesEdgeExist e.1 e.2 := by
  decide +kernel

-- test_compressed_graph_builder_new, 833-849; test_compressed_graph_builder_add_compressed_matrix_entry, 852-869
example : (blocks true 47 30 []).adjacencyMatrix.dimension = 47 / 8 + 1 ∧ (blocks true 47 200 []).compressionLevel = 64 ∧
    ((blocks false 10 29 [(0xff, 2, 1)]).builderAdd 0xff001 0 1 (some 9)).edgeCount = 17 ∧
    ((blocks false 10 29 [(0xff, 2, 1)]).builderAdd 0xff001 0 1 (some 9)).getCompressedMatrixEntry 0 1 = 0xff001 := by
  decide +kernel

-- test_compressed_graph_builder_finish, 872-909: vertices past the vertex count are not rejected
example : ([(8, 8), (15, 15), (15, 8), (8, 15), (10, 8), (10, 10), (14, 15)].all fun e =>
      (blocks false 10 2 [(U64_MAX, 1, 1)]).doesEdgeExist e.1 e.2) ∧
    [(8, 7), (7, 8), (15, 16), (16, 15), (7, 15), (8, 16), (15, 7), (16, 8)].all fun e =>
      !(blocks false 10 2 [(U64_MAX, 1, 1)]).doesEdgeExist e.1 e.2 := by decide +kernel

-- test_find_hamming_weight, 912-929
example : [0, 1, 2, 3, 4, 5, 6, 7, 8, 9, 0x1111111111111111, 0x2222222222222222, 0x3333333333333333, 0x7777777777777777,
    0xeeeeeeeeeeeeeeee, U64_MAX].map popCount = [0, 1, 1, 2, 1, 2, 2, 3, 1, 2, 16, 16, 32, 48, 48, 64] := by decide +kernel

end Verif.Validation
