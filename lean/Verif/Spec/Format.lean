import Mathlib.Data.Finset.Card
import Mathlib.Data.Finset.Lattice.Basic

/-!
# Independent description of the byte formats

Written without the model's readers and writers: positional big-endian values and field offsets.
-/

namespace Verif.Spec

/-- Value of a big-endian byte string. -/
def beValue : List UInt8 → Nat
  | [] => 0
  | x :: xs => x.toNat * 256 ^ xs.length + beValue xs

/-- The `k`-byte big-endian field at offset `off`. -/
def field (b : List UInt8) (off k : Nat) : Nat := beValue ((b.drop off).take k)

/-- `i`-th digit (from the left) of the `k`-byte big-endian representation of `x`. -/
def beByte (k x i : Nat) : UInt8 := UInt8.ofNat (x / 256 ^ (k - 1 - i))

/-- The `k`-byte big-endian representation of `x`. -/
def beBytes (k x : Nat) : List UInt8 := (List.range k).map (beByte k x)

/-- The `i`-th edge listed in a graph file: two 8-byte fields after the 26-byte header. -/
def listedEdge (b : List UInt8) (i : Nat) : Nat × Nat :=
  (field b (26 + 16 * i) 8, field b (26 + 16 * i + 8) 8)

/-- The edges listed in a graph file that announces `count` edges. -/
def listedEdges (b : List UInt8) (count : Nat) : List (Nat × Nat) :=
  (List.range count).map (listedEdge b)

/-- The file for a graph: header, then the edges in the order given. -/
def graphFile (undirected : Bool) (vertexCount : Nat) (edges : List (Nat × Nat)) : List UInt8 :=
  beBytes 4 0x7ae71ffd ++ beBytes 4 1 ++ beBytes 8 vertexCount ++ beBytes 8 edges.length ++
  [if undirected then 1 else 0, 0] ++ edges.flatMap (fun e => beBytes 8 e.1 ++ beBytes 8 e.2)

/-- The edges meant by a list of pairs: also the reversed pairs if the graph is undirected. -/
def meantEdges (undirected : Bool) (l : List (Nat × Nat)) : Finset (Nat × Nat) :=
  if undirected then (l ++ l.map Prod.swap).toFinset else l.toFinset

/-- A well-formed graph file. -/
structure ValidGraphFile (b : List UInt8) : Prop where
  magic : field b 0 4 = 0x7ae71ffd
  version : field b 4 4 = 1
  direction : field b 24 1 = 0 ∨ field b 24 1 = 1
  unweighted : field b 25 1 = 0
  length : b.length = 26 + 16 * field b 16 8
  inRange : ∀ e ∈ listedEdges b (field b 16 8), e.1 < field b 8 8 ∧ e.2 < field b 8 8
  distinct : (meantEdges (field b 24 1 == 1) (listedEdges b (field b 16 8))).card = field b 16 8

/-- The `i`-th block listed in a compressed graph file: entry, column, row. -/
def listedBlock (b : List UInt8) (i : Nat) : Nat × Nat × Nat :=
  (field b (42 + 24 * i) 8, field b (42 + 24 * i + 8) 8, field b (42 + 24 * i + 16) 8)

/-- The blocks listed in a compressed graph file that announces `count` blocks. -/
def listedBlocks (b : List UInt8) (count : Nat) : List (Nat × Nat × Nat) :=
  (List.range count).map (listedBlock b)

/-- The file for a compressed graph: header, then the blocks `(entry, col, row)` in the order given. -/
def compressedFile (undirected : Bool) (level dimension edgeCount vertexCount : Nat)
    (blocks : List (Nat × Nat × Nat)) : List UInt8 :=
  beBytes 4 0x71ff7aed ++ beBytes 4 2 ++ beBytes 8 dimension ++ beBytes 8 blocks.length ++
  beBytes 8 edgeCount ++ beBytes 8 vertexCount ++
  [if undirected then 1 else 0, UInt8.ofNat level] ++
  blocks.flatMap (fun e => beBytes 8 e.1 ++ beBytes 8 e.2.1 ++ beBytes 8 e.2.2)

/-- Number of ones among the 64 low bits. -/
def ones (e : Nat) : Nat := ((Finset.range 64).filter fun i => e.testBit i = true).card

/-- The edges `(from, to)` meant by the block `(entry, col, row)`: bit `8 * j + i` of the entry is the edge from
`8 * col + i` to `8 * row + j`. -/
def blockEdge (e : Nat × Nat × Nat) (u v : Nat) : Prop :=
  u / 8 = e.2.1 ∧ v / 8 = e.2.2 ∧ e.1.testBit (8 * (v % 8) + u % 8) = true

/-- A well-formed compressed graph file, as far as the decoder checks. -/
structure ValidCompressedFile (b : List UInt8) : Prop where
  magic : field b 0 4 = 0x71ff7aed
  version : field b 4 4 = 2
  direction : field b 40 1 = 0 ∨ field b 40 1 = 1
  level : 1 ≤ field b 41 1 ∧ field b 41 1 ≤ 64
  dimension : field b 8 8 = max 1 ((field b 32 8 + 7) / 8)
  length : b.length = 42 + 24 * field b 16 8
  nonzero : ∀ e ∈ listedBlocks b (field b 16 8), e.1 ≠ 0
  inRange : ∀ e ∈ listedBlocks b (field b 16 8), ∀ u v, blockEdge e u v → u < field b 32 8 ∧ v < field b 32 8
  edgeCount : ((listedBlocks b (field b 16 8)).map fun e => ones e.1).sum = field b 24 8

end Verif.Spec
