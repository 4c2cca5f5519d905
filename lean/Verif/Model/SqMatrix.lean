import Verif.Model.Util

/-!
# Model of `CsrSquareMatrix<T>` (`/repo/graphrox-rs/src/matrix/csr_square_matrix.rs`)
-/

namespace Verif

/-- `CsrSquareMatrix<T>`. `csr_square_matrix.rs:28-32`. -/
structure SqMatrix (T : Type) where
  dimension : Nat
  edgesTable : HMap (HMap T)
  entryCount : Nat

namespace SqMatrix

variable {T : Type}

/-- `new` / `default`. `csr_square_matrix.rs:34-56`. -/
def new : SqMatrix T := ⟨0, HMap.empty, 0⟩

/-- The two `if`s that grow the dimension. `csr_square_matrix.rs:87-93` and `360-366`. -/
def growDimension (dimension colDimension rowDimension : Nat) : Nat :=
  let dimension := if colDimension > dimension then colDimension else dimension
  if rowDimension > dimension then rowDimension else dimension

/-- `increment_entry`. `csr_square_matrix.rs:79-105`. -/
def incrementEntry (N : Numeric T) (P : Platform) (m : SqMatrix T) (col row : Nat) : Res (SqMatrix T) :=
  match checkedAdd col 1 with
  | none => .ok m
  | some colDimension =>
    match checkedAdd row 1 with
    | none => .ok m
    | some rowDimension =>
      let dimension := growDimension m.dimension colDimension rowDimension
      let rowTable := (m.edgesTable.get? col).getD HMap.empty
      match rowTable.get? row with
      | none => .ok
          { dimension := dimension
            edgesTable := m.edgesTable.insert col (rowTable.insert row N.one)
            entryCount := m.entryCount + 1 }
      | some e => (N.addOne P e).bind fun e' => .ok
          { dimension := dimension
            edgesTable := m.edgesTable.insert col (rowTable.insert row e')
            entryCount := m.entryCount }

/-- `set_minimum_dimension`. `csr_square_matrix.rs:108-112`. -/
def setMinimumDimension (m : SqMatrix T) (dimension : Nat) : SqMatrix T :=
  if m.dimension < dimension then { m with dimension := dimension } else m

/-- `multiply_entries_by`. `csr_square_matrix.rs:322-328`. -/
def multiplyEntriesBy (m : SqMatrix F64) (multiplier : F64) : SqMatrix F64 :=
  { m with edgesTable := m.edgesTable.mapValues (fun t => t.mapValues (fun e => F64.mul e multiplier)) }

/-- `get_entry`. `csr_square_matrix.rs:340-350`. -/
def getEntry (N : Numeric T) (m : SqMatrix T) (col row : Nat) : T :=
  match m.edgesTable.get? col with
  | none => N.zero
  | some t =>
    match t.get? row with
    | some e => e
    | none => N.zero

/-- `set_entry`. `csr_square_matrix.rs:352-378`. -/
def setEntry (N : Numeric T) (m : SqMatrix T) (entry : T) (col row : Nat) : SqMatrix T :=
  match checkedAdd col 1 with
  | none => m
  | some colDimension =>
    match checkedAdd row 1 with
    | none => m
    | some rowDimension =>
      let dimension := growDimension m.dimension colDimension rowDimension
      if N.eq entry N.zero then { m with dimension := dimension }
      else
        let rowTable := (m.edgesTable.get? col).getD HMap.empty
        let addition := rowTable.get? row
        { dimension := dimension
          edgesTable := m.edgesTable.insert col (rowTable.insert row entry)
          entryCount := if addition.isNone then m.entryCount + 1 else m.entryCount }

/-- `zero_entry`. `csr_square_matrix.rs:380-391`. -/
def zeroEntry (m : SqMatrix T) (col row : Nat) : SqMatrix T :=
  match m.edgesTable.get? col with
  | none => m
  | some rowTable =>
    let removal := rowTable.get? row
    { dimension := m.dimension
      edgesTable := m.edgesTable.insert col (rowTable.remove row)
      entryCount := if removal.isSome then m.entryCount - 1 else m.entryCount }

/-- `(&matrix).into_iter()`. `csr_square_matrix.rs:449-456`. -/
def intoIter (o : HashOrder) (m : SqMatrix T) : TableIter T :=
  { isEmptyMatrix := m.dimension == 0
    order := o
    colIter := o.cols m.edgesTable.entries
    rowIter := none
    currCol := 0 }

/-- The items `(entry, col, row)` of `for … in &matrix`. `csr_square_matrix.rs:445-534`. -/
def items (o : HashOrder) (m : SqMatrix T) : List (T × Nat × Nat) :=
  (m.intoIter o).collect.map (fun x => (x.2.2, x.1, x.2.1))

/-- All values, in the order in which two nested `values()` loops meet them.
`csr_square_matrix.rs:165-171`. -/
def values (o : HashOrder) (m : SqMatrix T) : List T :=
  (o.cols m.edgesTable.entries).flatMap fun e => (o.rows e.1 e.2.entries).map Prod.snd

/-- All `(col, row, value)`, in the order of the two nested loops at `csr_square_matrix.rs:276-277`. -/
def cells (o : HashOrder) (m : SqMatrix T) : List (Nat × Nat × T) :=
  (o.cols m.edgesTable.entries).flatMap fun e => (o.rows e.1 e.2.entries).map fun x => (e.1, x.1, x.2)

/-- `highest` and `lowest`. `csr_square_matrix.rs:162-181`. -/
def extremes (F : NumFmt T) (o : HashOrder) (m : SqMatrix T) : T × T :=
  if m.edgesTable.entries.length = 0 then (F.zero, F.maxV)
  else (values o m).foldl
    (fun hl v => (if F.gt v hl.1 then v else hl.1, if F.lt v hl.2 then v else hl.2)) (F.minV, F.maxV)

/-- `buffer[pos] = c; pos += 1` for each character: a panic if `pos` is outside the buffer.
std semantics of indexing; used at `csr_square_matrix.rs:234-269` and `307-310`. -/
def writeChars : (buffer : List Char) → (pos : Nat) → List Char → Res (List Char)
  | buffer, _, [] => .ok buffer
  | buffer, pos, c :: cs =>
    if pos < buffer.length then writeChars (buffer.set pos c) (pos + 1) cs else .panic

/-- One cell of the template. `csr_square_matrix.rs:241-258`. -/
def templateCell (dimension entrySize entryLeftPadding col : Nat) : List Char :=
  (List.range entrySize).map (fun charPos =>
    if charPos < entryLeftPadding then ' '
    else if charPos = entryLeftPadding + 1 then '.'
    else '0') ++
  (if col ≠ dimension - 1 then [','] else []) ++ [' ']

/-- One row of the template. `csr_square_matrix.rs:234-270`. -/
def templateRow (dimension entrySize entryLeftPadding row : Nat) : List Char :=
  ['[', ' '] ++ (List.range dimension).flatMap (templateCell dimension entrySize entryLeftPadding) ++
  [']'] ++ (if row ≠ dimension - 1 then ['\r', '\n'] else [])

/-- The text of one number. `csr_square_matrix.rs:282-303`; `format!` panics when a run-time width or
precision exceeds `P.fmtMax`. -/
def formatEntry (P : Platform) (F : NumFmt T) (highest lowest : T) (entrySize decimalDigits : Nat)
    (value : T) : Res (List Char) :=
  if !F.hasDecimal && decide (decimalDigits > 0) then do
    let width ← if F.lt lowest F.zero then P.usizeAdd (F.digitCount highest) 1
      else .ok (F.digitCount highest)
    if width > P.fmtMax then .panic
    else .ok (F.fmtW value width ++ ['.'] ++ List.replicate decimalDigits '0')
  else if entrySize > P.fmtMax ∨ decimalDigits > P.fmtMax then .panic
  else .ok (F.fmt value entrySize decimalDigits)

/-- `*x as usize` for a `u64`. std semantics: truncation. -/
def asUsize (P : Platform) (x : Nat) : Nat := x % (P.usizeMax + 1)

/-- Writing one entry over the template. `csr_square_matrix.rs:278-310`. -/
def writeEntry (P : Platform) (F : NumFmt T) (highest lowest : T)
    (entrySize decimalDigits charsPerRow charsPerEntry : Nat)
    (buffer : List Char) (cell : Nat × Nat × T) : Res (List Char) := do
  let rowPos ← P.usizeMul (asUsize P cell.2.1) charsPerRow
  let rowPos ← P.usizeAdd rowPos 2
  let colPos ← P.usizeMul charsPerEntry (asUsize P cell.1)
  let pos ← P.usizeAdd rowPos colPos
  let num ← formatEntry P F highest lowest entrySize decimalDigits cell.2.2
  writeChars buffer pos num

/-- `to_string_with_precision`. `csr_square_matrix.rs:150-317`.  Two hash orders: one for the loop over
`values()`, one for the loop over `iter()`.  The buffer is a list of characters instead of bytes (every
character written is ASCII, so `String::from_utf8` cannot fail); `resize(_, 0)` fills with NUL. -/
def toStringWithPrecision (P : Platform) (F : NumFmt T) (o₁ o₂ : HashOrder) (m : SqMatrix T)
    (decimalDigits : Nat) : Res (List Char) :=
  if m.dimension = 0 then .ok [] else do
    let hl := extremes F o₁ m
    let highest := hl.1
    let lowest := hl.2
    let highestCount := F.digitCount highest
    let lowestCount := F.digitCount lowest
    let entrySize := if highestCount > lowestCount then highestCount else lowestCount
    let entrySize ←
      if F.hasDecimal || decide (decimalDigits > 0) then do
        let x ← P.usizeAdd 1 decimalDigits
        P.usizeAdd entrySize x
      else .ok entrySize
    let smallest ←
      if F.hasDecimal || decide (decimalDigits > 0) then do
        let x ← P.usizeAdd 1 decimalDigits
        P.usizeAdd 1 x
      else P.usizeAdd 1 0
    let entryLeftPadding ← P.usizeSub entrySize smallest
    let charsPerEntry ← P.usizeAdd entrySize 2
    let dimension ← Res.ofOption (P.usizeTryFrom m.dimension)
      (.CapacityOverflow "Matrix dimension does not fit in platform usize")
    let matrixEntryCount ← Res.ofOption (P.checkedMul dimension dimension)
      (.CapacityOverflow "Matrix string size overflowed")
    let bufferSize ← Res.ofOption
      ((P.checkedMul 4 dimension).bind fun rows =>
        ((P.checkedMul charsPerEntry matrixEntryCount).bind fun x => P.checkedAdd x rows).bind fun size =>
          checkedSub size 2)
      (.CapacityOverflow "Matrix string size overflowed")
    if !P.alloc bufferSize then .err (.CapacityOverflow "Unable to allocate matrix string")
    else do
      let buffer := List.replicate bufferSize (Char.ofNat 0)
      let buffer ← writeChars buffer 0
        ((List.range m.dimension).flatMap (templateRow m.dimension entrySize entryLeftPadding))
      let x ← P.usizeMul dimension charsPerEntry
      let charsPerRow ← P.usizeAdd 4 x
      Res.foldl (writeEntry P F highest lowest entrySize decimalDigits charsPerRow charsPerEntry)
        buffer (cells o₂ m)

end SqMatrix

end Verif
