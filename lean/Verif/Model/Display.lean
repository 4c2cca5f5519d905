import Verif.Model.F64Fmt
import Verif.Model.Graph

/-!
# Model of the `Display` implementations of errors and adjacency matrices

`impl Display for CsrSquareMatrix` is `SqMatrix.toText` in `Model/F64Fmt.lean`.
-/

namespace Verif

/-- `impl Display for GraphRoxError`, hence `error.to_string()`. `/repo/graphrox-rs/src/error/mod.rs:26-40`
(writing to a `String` does not fail). -/
def GraphRoxError.display : GraphRoxError → List Char
  | .InvalidFormat s => "GraphRoxError: ".toList ++ s.toList
  | .InvalidInput s => "GraphRoxError: ".toList ++ s.toList
  | .CapacityOverflow s => "GraphRoxError: ".toList ++ s.toList

/-- `GraphRoxError::into_inner`. `/repo/graphrox-rs/src/error/mod.rs:17-23`. -/
def GraphRoxError.intoInner : GraphRoxError → String
  | .InvalidFormat s => s
  | .InvalidInput s => s
  | .CapacityOverflow s => s

/-- `impl Display for CsrAdjacencyMatrix`: what is written to the formatter, `none` for `Err(fmt::Error)`.
`/repo/graphrox-rs/src/matrix/csr_adjacency_matrix.rs:301-327`.  A panic while formatting stays a panic. -/
def AdjMatrix.fmt (P : Platform) (m : AdjMatrix) : Res (Option (List Char)) :=
  match m.tryToString P with
  | .ok s => .ok (some s)
  | .err _ => .ok none
  | .panic => .panic

/-- `ToString::to_string`: std panics when `Display::fmt` returns an error. -/
def AdjMatrix.toText (P : Platform) (m : AdjMatrix) : Res (List Char) :=
  match m.fmt P with
  | .ok (some s) => .ok s
  | .ok none => .panic
  | .err e => .err e
  | .panic => .panic

end Verif
