import Verif.Model.Std

/-!
# Model of `CsrAdjacencyMatrix` (`/repo/graphrox-rs/src/matrix/csr_adjacency_matrix.rs`)
-/

namespace Verif

/-- `CsrAdjacencyMatrix`. `csr_adjacency_matrix.rs:26-30`.  `entry_count: u64` is a `Nat`; C58 shows that
it cannot leave the u64 range in fewer than 2^63 edits. -/
structure AdjMatrix where
  dimension : Nat
  edgesTable : HMap (HMap Unit)
  entryCount : Nat

namespace AdjMatrix

/-- `CsrAdjacencyMatrix::new`. `csr_adjacency_matrix.rs:48-54`. -/
def new : AdjMatrix := ⟨0, HMap.empty, 0⟩

/-- `get_sparse_col_vector`. `csr_adjacency_matrix.rs:75-85`. -/
def getSparseColVector (o : HashOrder) (m : AdjMatrix) (col : Nat) : List Nat :=
  match m.edgesTable.get? col with
  | none => []
  | some rowSet => (o.rows col rowSet.entries).map Prod.fst

/-- `get_sparse_row_vector`. `csr_adjacency_matrix.rs:114-126`: the loop pushes each column whose row
set contains `row`, in iteration order. -/
def getSparseRowVector (o : HashOrder) (m : AdjMatrix) (row : Nat) : List Nat :=
  (o.cols m.edgesTable.entries).foldl
    (fun vector e => if e.2.contains row then vector ++ [e.1] else vector) []

/-- `col_nonzero_entry_count`. `csr_adjacency_matrix.rs:142-149`. -/
def colNonzeroEntryCount (m : AdjMatrix) (col : Nat) : Nat :=
  match m.edgesTable.get? col with
  | none => 0
  | some rowSet => rowSet.size

/-- `row_nonzero_entry_count`. `csr_adjacency_matrix.rs:173-178` (`count` does not depend on the order). -/
def rowNonzeroEntryCount (m : AdjMatrix) (row : Nat) : Nat :=
  (m.edgesTable.entries.filter (fun e => e.2.contains row)).length

/-- `get_entry`. `csr_adjacency_matrix.rs:250-257`. -/
def getEntry (m : AdjMatrix) (col row : Nat) : Nat :=
  match m.edgesTable.get? col with
  | none => 0
  | some rowSet => if rowSet.contains row then 1 else 0

/-- The two `if`s that grow the dimension. `csr_adjacency_matrix.rs:267-273`. -/
def growDimension (dimension colDimension rowDimension : Nat) : Nat :=
  let dimension := if colDimension > dimension then colDimension else dimension
  if rowDimension > dimension then rowDimension else dimension

/-- `set_entry`. `csr_adjacency_matrix.rs:259-285`. -/
def setEntry (m : AdjMatrix) (entry : Nat) (col row : Nat) : AdjMatrix :=
  match checkedAdd col 1 with
  | none => m
  | some colDimension =>
    match checkedAdd row 1 with
    | none => m
    | some rowDimension =>
      let dimension := growDimension m.dimension colDimension rowDimension
      if entry = 0 then { m with dimension := dimension }
      else
        let rowSet := (m.edgesTable.get? col).getD HMap.empty
        let wasAdded := !rowSet.contains row
        { dimension := dimension
          edgesTable := m.edgesTable.insert col (rowSet.insert row ())
          entryCount := if wasAdded then m.entryCount + 1 else m.entryCount }

/-- `zero_entry`. `csr_adjacency_matrix.rs:287-298`.  The column keeps its (possibly empty) set.
`entry_count -= 1` is truncated subtraction here; C58 shows that it is never executed at 0. -/
def zeroEntry (m : AdjMatrix) (col row : Nat) : AdjMatrix :=
  match m.edgesTable.get? col with
  | none => m
  | some rowSet =>
    let wasRemoved := rowSet.contains row
    { dimension := m.dimension
      edgesTable := m.edgesTable.insert col (rowSet.remove row)
      entryCount := if wasRemoved then m.entryCount - 1 else m.entryCount }

/-- `(&matrix).into_iter()`. `csr_adjacency_matrix.rs:333-340`. -/
def intoIter (o : HashOrder) (m : AdjMatrix) : TableIter Unit :=
  { isEmptyMatrix := m.dimension == 0
    order := o
    colIter := o.cols m.edgesTable.entries
    rowIter := none
    currCol := 0 }

/-- The items of `for (col, row) in &matrix`. `csr_adjacency_matrix.rs:329-341, 378-417`. -/
def items (o : HashOrder) (m : AdjMatrix) : List (Nat × Nat) :=
  (m.intoIter o).collect.map (fun x => (x.1, x.2.1))

/-- One row of the text: `"[ "`, the cells, `"]"` and the line break.
`csr_adjacency_matrix.rs:218-234`. -/
def rowChars (m : AdjMatrix) (row : Nat) : List Char :=
  ['[', ' '] ++
  (List.range m.dimension).flatMap (fun col =>
    (if m.getEntry col row = 0 then ['0'] else ['1']) ++
    (if col ≠ m.dimension - 1 then [',', ' '] else [' '])) ++
  [']'] ++ (if row ≠ m.dimension - 1 then ['\r', '\n'] else [])

/-- `try_to_string`. `csr_adjacency_matrix.rs:181-238`.  `try_reserve_exact` is the oracle `P.alloc`;
pushing beyond the reserved capacity would only reallocate. -/
def tryToString (P : Platform) (m : AdjMatrix) : Res (List Char) :=
  if m.dimension = 0 then .ok [] else do
    let dimension ← Res.ofOption (P.usizeTryFrom m.dimension)
      (.CapacityOverflow "Matrix dimension does not fit in platform usize")
    let matrixEntryCount ← Res.ofOption (P.checkedMul dimension dimension)
      (.CapacityOverflow "Matrix string size overflowed")
    let bufferSize ← Res.ofOption
      ((P.checkedMul 4 dimension).bind fun rows =>
        ((P.checkedMul 3 matrixEntryCount).bind fun x => P.checkedAdd x rows).bind fun size =>
          checkedSub size 2)
      (.CapacityOverflow "Matrix string size overflowed")
    if P.alloc bufferSize then
      .ok ((List.range m.dimension).flatMap m.rowChars)
    else .err (.CapacityOverflow "Unable to allocate matrix string")

end AdjMatrix

end Verif
