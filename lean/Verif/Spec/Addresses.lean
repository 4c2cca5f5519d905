import Verif.Spec.Threads

/-!
# Specification: programs that do not know addresses

A program names its objects by numbers: the `k`-th command gives the name `k` to the address it obtains (null if it obtains none).  Names that have
not been given stand for null.  What the program can see does not include the addresses themselves, only whether they are null or equal to each
other.
-/

namespace Verif.Spec

/-- Replaces the addresses in a call. -/
def _root_.Verif.Call.mapPtr (f : Ptr → Ptr) : Call → Call
  | .freeString p => .freeString (f p)
  | .freeBytes p n => .freeBytes (f p) n
  | .freeGraph p => .freeGraph (f p)
  | .freeEdgeList p n => .freeEdgeList (f p) n
  | .freeVertexList p n => .freeVertexList (f p) n
  | .newUndirected => .newUndirected
  | .newDirected => .newDirected
  | .fromBytes buffer size error => .fromBytes (f buffer) size (f error)
  | .duplicate p => .duplicate (f p)
  | .matrixString p => .matrixString (f p)
  | .toBytes p size => .toBytes (f p) (f size)
  | .isUndirected p => .isUndirected (f p)
  | .vertexCount p => .vertexCount (f p)
  | .edgeCount p => .edgeCount (f p)
  | .doesEdgeExist p u v => .doesEdgeExist (f p) u v
  | .findAvgPoolMatrix p b => .findAvgPoolMatrix (f p) b
  | .approximate p b t => .approximate (f p) b t
  | .compress p level => .compress (f p) level
  | .getEdgeList p length => .getEdgeList (f p) (f length)
  | .addVertex p v tos toLen => .addVertex (f p) v (f tos) toLen
  | .addEdge p u v => .addEdge (f p) u v
  | .deleteEdge p u v => .deleteEdge (f p) u v
  | .getInEdgesList p v length => .getInEdgesList (f p) v (f length)
  | .getOutEdgesList p v length => .getOutEdgesList (f p) v (f length)
  | .getInDegree p v => .getInDegree (f p) v
  | .getOutDegree p v => .getOutDegree (f p) v
  | .freeCGraph p => .freeCGraph (f p)
  | .cDuplicate p => .cDuplicate (f p)
  | .cCompressionLevel p => .cCompressionLevel (f p)
  | .cIsUndirected p => .cIsUndirected (f p)
  | .cVertexCount p => .cVertexCount (f p)
  | .cEdgeCount p => .cEdgeCount (f p)
  | .cDoesEdgeExist p u v => .cDoesEdgeExist (f p) u v
  | .cGetEntry p col row => .cGetEntry (f p) col row
  | .cMatrixString p => .cMatrixString (f p)
  | .cToBytes p size => .cToBytes (f p) (f size)
  | .cFromBytes buffer size error => .cFromBytes (f buffer) size (f error)
  | .decompress p => .decompress (f p)
  | .freeMatrix p => .freeMatrix (f p)
  | .mDuplicate p => .mDuplicate (f p)
  | .freeEntryList p n => .freeEntryList (f p) n
  | .mDimension p => .mDimension (f p)
  | .mEntryCount p => .mEntryCount (f p)
  | .mGetEntry p col row => .mGetEntry (f p) col row
  | .mToString p => .mToString (f p)
  | .mToStringWithPrecision p d => .mToStringWithPrecision (f p) d
  | .mGetEntryList p length => .mGetEntryList (f p) (f length)

/-- Commands; the pointers in a call and the numbers in the other commands are names. -/
inductive Cmd where
  /-- a call of the library -/
  | call (c : Call)
  /-- the program allocates memory of its own -/
  | own (x : Obj)
  /-- the program writes to memory of its own -/
  | set (n : Nat) (x : Obj)
  /-- the program frees memory of its own -/
  | drop (n : Nat)
  /-- the program looks at what is at an address -/
  | read (n : Nat)
  /-- the program compares two addresses -/
  | same (i j : Nat)

/-- What the program sees of a command. -/
inductive Obs where
  | nothing
  | null
  | address
  | num (n : Nat)
  | f64 (x : F64)
  | content (x : Obj)
  | equal (b : Bool)
  | undefined
  | aborted

/-- What the program sees of a returned value. -/
def seen : Val → Obs
  | .unit => .nothing
  | .ptr q => if q = 0 then .null else .address
  | .num n => .num n
  | .f64 x => .f64 x

/-- The address that a returned value gives. -/
def addressOf : Val → Ptr
  | .ptr q => q
  | _ => 0

/-- The address that a name stands for. -/
def addr (ν : List Ptr) (n : Nat) : Ptr := ν.getD n 0

/-- One command: what is seen, and the address obtained and the memory afterwards unless the program has ended. -/
def Cmd.step (E : Ctx) (ν : List Ptr) (h : Heap) : Cmd → Obs × Option (Ptr × Heap)
  | .call c =>
    match (c.mapPtr (addr ν)).exec E h with
    | .ok v h' => (seen v, some (addressOf v, h'))
    | .ub => (.undefined, none)
    | .abort => (.aborted, none)
  | .own x => if x.isCaller then (.address, some (E.fresh h, h.insert (E.fresh h) x)) else (.undefined, none)
  | .set n x =>
    match h.get? (addr ν n) with
    | some y => if addr ν n ≠ 0 ∧ x.isCaller ∧ y.isCaller then (.nothing, some (0, h.insert (addr ν n) x)) else (.undefined, none)
    | none => (.undefined, none)
  | .drop n =>
    match h.get? (addr ν n) with
    | some y => if addr ν n ≠ 0 ∧ y.isCaller then (.nothing, some (0, h.remove (addr ν n))) else (.undefined, none)
    | none => (.undefined, none)
  | .read n =>
    match h.get? (addr ν n) with
    | some y => if addr ν n ≠ 0 then (.content y, some (0, h)) else (.undefined, none)
    | none => (.undefined, none)
  | .same i j => (.equal (addr ν i = addr ν j), some (0, h))

/-- All that the program sees, command by command; the environment may be another one for each command. -/
def observe (E : Nat → Ctx) (ν : List Ptr) (h : Heap) : List Cmd → List Obs
  | [] => []
  | c :: t =>
    match c.step (E ν.length) ν h with
    | (o, some (q, h')) => o :: observe E (ν ++ [q]) h' t
    | (o, none) => [o]

/-- The names that a command uses. -/
def Cmd.names : Cmd → List Nat
  | .call c => c.pointers
  | .own _ => []
  | .set n _ | .drop n | .read n => [n]
  | .same i j => [i, j]

/-- The names that a command frees. -/
def Cmd.frees : Cmd → List Nat
  | .call (.freeString p) | .call (.freeBytes p _) | .call (.freeGraph p) | .call (.freeEdgeList p _)
  | .call (.freeVertexList p _) | .call (.freeCGraph p) | .call (.freeMatrix p) | .call (.freeEntryList p _) | .drop p => [p]
  | _ => []

/-- No name is used after it has been freed. -/
def NoUseAfterFree (t : List Cmd) : Prop := t.Pairwise fun c d => ∀ n ∈ c.frees, n ∉ d.names

end Verif.Spec
