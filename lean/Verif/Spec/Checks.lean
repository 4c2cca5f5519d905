import Verif.Spec.Format

/-!
# Which complaint a decoder makes

A decoder is described by the ordered list of its checks, each with the text reported when it fails.  The lists
below are written from the byte formats; they do not mention the decoders.
-/

namespace Verif.Spec

/-- The checks made in order: some check fails, it is the first that does, and `msg` is its text. -/
def Reports (checks : List (Prop × String)) (msg : String) : Prop :=
  ∃ before check after, checks = before ++ (check, msg) :: after ∧ (∀ c ∈ before, c.1) ∧ ¬ check

/-- The checks on a graph file, on a machine whose sizes go up to `maxSize`. -/
def graphChecks (maxSize : Nat) (b : List UInt8) : List (Prop × String) :=
  [(26 ≤ b.length, "Slice is too short to contain Graph header"),
   (field b 0 4 = 0x7ae71ffd, "Incorrect magic number"),
   (field b 4 4 = 1, "Unrecognized Graph version"),
   (field b 24 1 = 0 ∨ field b 24 1 = 1, "Invalid graph direction flag"),
   (field b 25 1 = 0, "Weighted graphs are not supported"),
   (field b 8 8 = 0 → field b 16 8 = 0, "Graph with zero dimension cannot contain edges"),
   (26 + 16 * field b 16 8 ≤ maxSize, "Graph byte size overflowed"),
   (26 + 16 * field b 16 8 ≤ b.length, "Slice is too short to contain all expected graph edges"),
   (b.length ≤ 26 + 16 * field b 16 8, "Slice is too long represent the expected graph edges")] ++
  (listedEdges b (field b 16 8)).map (fun e =>
    (e.1 < field b 8 8 ∧ e.2 < field b 8 8, "Graph edge exceeds matrix dimension")) ++
  [((meantEdges (field b 24 1 == 1) (listedEdges b (field b 16 8))).card = field b 16 8,
    "Graph edge count does not match header")]

/-- The checks on the blocks of a compressed graph file for `n` vertices and `dim` blocks per side, after blocks
with `sum` edges: they are made block by block. -/
def blockChecks (dim n : Nat) : (sum : Nat) → List (Nat × Nat × Nat) → List (Prop × String)
  | _, [] => []
  | sum, e :: l =>
    [(e.1 ≠ 0, "CompressedGraph entry cannot be zero"),
     (e.2.1 < dim ∧ e.2.2 < dim, "CompressedGraph entry exceeds matrix dimension"),
     (∀ u v, blockEdge e u v → u < n ∧ v < n, "CompressedGraph entry contains edge outside vertex count"),
     (sum + ones e.1 < 2 ^ 64, "CompressedGraph edge count overflowed")] ++
    blockChecks dim n (sum + ones e.1) l

/-- The checks on a compressed graph file, on a machine whose sizes go up to `maxSize`. -/
def compressedChecks (maxSize : Nat) (b : List UInt8) : List (Prop × String) :=
  [(42 ≤ b.length, "Slice is too short to contain CompressedGraph header"),
   (field b 0 4 = 0x71ff7aed, "Incorrect magic number"),
   (2 ≤ field b 4 4, "Outdated CompressedGraph version"),
   (field b 4 4 = 2, "Unrecognized CompressedGraph version"),
   (field b 40 1 = 0 ∨ field b 40 1 = 1, "Invalid compressed graph direction flag"),
   (1 ≤ field b 41 1 ∧ field b 41 1 ≤ 64, "Invalid compression level"),
   (field b 8 8 = max 1 ((field b 32 8 + 7) / 8),
    "CompressedGraph matrix dimension does not match vertex count"),
   (42 + 24 * field b 16 8 ≤ maxSize, "CompressedGraph byte size overflowed"),
   (42 + 24 * field b 16 8 ≤ b.length, "Slice is too short to contain all expected graph edges"),
   (b.length ≤ 42 + 24 * field b 16 8, "Slice is too long represent the expected graph edges")] ++
  blockChecks (field b 8 8) (field b 32 8) 0 (listedBlocks b (field b 16 8)) ++
  [(((listedBlocks b (field b 16 8)).map fun e => ones e.1).sum = field b 24 8,
    "CompressedGraph edge count does not match header")]

end Verif.Spec
