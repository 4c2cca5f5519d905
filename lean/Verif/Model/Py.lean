import Verif.Model.CApi

/-!
# Model of the Python wrapper (`/repo/graphrox-py/graphrox/__init__.py`)

Python objects own C objects through handles; every method is a sequence of C calls on the memory of `Model/CApi.lean`.
`ctypes` converts a Python integer to a C integer by reducing it modulo the range of the type, without any check.  Temporary
`ctypes` objects (`c_size_t()`, arrays) are memory cells that live until the method returns.

Simplifications: integer arguments are Python integers and thresholds are floats (`Model/PyArgs.lean` is for arguments of any type);
an object is collected (`__del__`) at some time after the last reference to it is gone, which is an event of its own
(`PyCall.collect`); the private parameters `_c_graph` etc. are only used by the module itself, so that the `isinstance`
checks of the constructors succeed; loading the library (lines 5-34) is in `Model/Packaging.lean`; the declarations of argument types (lines
84-248) are not modelled beyond the conversions they cause.
-/

namespace Verif

/-- Python exceptions. -/
inductive PyExc where
  | IndexError | ValueError | TypeError | AttributeError | ZeroDivisionError | StopIteration | NameError | ArgumentError
  | OverflowError
  deriving DecidableEq

/-- Python objects of the module with their fields; lists own `p`, iterators keep a reference to their list.
`__init__.py:251, 463, 494, 519, 550, 575, 676, 735, 765`. -/
inductive PyObj where
  | graph (p : Ptr)
  | cgraph (p : Ptr)
  | matrix (p : Ptr)
  | edgeList (p : Ptr) (size : Nat)
  | vertexList (p : Ptr) (size : Nat)
  | entryList (p : Ptr) (size : Nat)
  | edgeIter (p : Ptr) (size pos : Nat) (list : Nat)
  | vertexIter (p : Ptr) (size pos : Nat) (list : Nat)
  | entryIter (p : Ptr) (size pos : Nat) (list : Nat)

/-- Values that methods return; `ref i` is the object number `i`. -/
inductive PyVal where
  | none
  | bool (b : Bool)
  | int (n : Nat)
  | float (x : F64)
  | str (s : List Char)
  | bytes (b : Bytes)
  | edge (u v : Nat)
  | entry (x : F64) (col row : Nat)
  | ref (i : Nat)

/-- Outcome of Python code in state `σ`: a value, an exception, undefined behaviour in the library, or an abort of the
interpreter. -/
inductive PyRes (σ α : Type) where
  | ok (a : α) (w : σ)
  | raised (e : PyExc) (w : σ)
  | ub
  | abort

/-- Python code that works on the memory. -/
def PM (α : Type) := Heap → PyRes Heap α

/-- Sequencing. -/
def PM.bind {α β : Type} (x : PM α) (f : α → PM β) : PM β := fun h =>
  match x h with
  | .ok a h' => f a h'
  | .raised e h' => .raised e h'
  | .ub => .ub
  | .abort => .abort

instance : Monad PM where
  pure a := fun h => .ok a h
  bind := PM.bind

/-- What a method gives back: a value, a new object, or a value together with a new state of the object itself. -/
inductive PyOut where
  | val (v : PyVal)
  | new (o : PyObj)
  | step (o : PyObj) (v : PyVal)

namespace Py

/-- Conversion to `ctypes.c_uint64`: no overflow check. -/
def u64 (i : Int) : Nat := (i % 2 ^ 64).toNat

/-- Conversion to `ctypes.c_uint8`. -/
def u8 (i : Int) : Nat := (i % 2 ^ 8).toNat

/-- Conversion to `ctypes.c_size_t`. -/
def usize (P : Platform) (i : Int) : Nat := (i % (P.usizeMax + 1)).toNat

/-- `raise`. -/
def raise {α : Type} (e : PyExc) : PM α := fun h => .raised e h

/-- A call of the library. -/
def call (E : Ctx) (c : Call) : PM Val := fun h =>
  match c.exec E h with
  | .ok v h' => .ok v h'
  | .ub => .ub
  | .abort => .abort

/-- A result declared as a pointer or handle (`restype`). -/
def asPtr (v : Val) : PM Ptr := fun h => match v with | .ptr p => .ok p h | _ => .ub
/-- A result declared as an integer. -/
def asNum (v : Val) : PM Nat := fun h => match v with | .num n => .ok n h | _ => .ub
/-- A result declared as a double. -/
def asF64 (v : Val) : PM F64 := fun h => match v with | .f64 x => .ok x h | _ => .ub

/-- A new `ctypes` object. -/
def alloc (E : Ctx) (x : Obj) : PM Ptr := fun h => .ok (E.fresh h) (h.insert (E.fresh h) x)
/-- The end of a local `ctypes` object. -/
def dealloc (p : Ptr) : PM Unit := fun h => .ok () (h.remove p)

/-- `size.value`. -/
def readUsize (p : Ptr) : PM Nat := fun h => match h.get? p with | some (.callerUsize n) => .ok n h | _ => .ub
/-- `error.value`. -/
def readU8 (p : Ptr) : PM Nat := fun h => match h.get? p with | some (.callerU8 n) => .ok n h | _ => .ub

/-- `bytes(ptr[:n])`. -/
def sliceBytes (p : Ptr) (n : Nat) : PM Bytes := fun h =>
  if n = 0 then .ok [] h else
    match h.get? p with
    | some (.bytes b) => if n ≤ b.length then .ok (b.take n) h else .ub
    | _ => .ub

/-- `ctypes.cast(ptr, ctypes.c_char_p).value`; `None` for a null pointer. -/
def readStr (p : Ptr) : PM (Option (List Char)) := fun h =>
  if p = 0 then .ok none h else
    match h.get? p with
    | some (.cstring s) => .ok (some s) h
    | _ => .ub

/-- `ptr[i]` for an edge list. -/
def edgeAt (p : Ptr) (i : Nat) : PM (Nat × Nat) := fun h =>
  match h.get? p with
  | some (.edges l) => match l[i]? with | some x => .ok x h | none => .ub
  | _ => .ub
/-- `ptr[i]` for a vertex list. -/
def vertexAt (p : Ptr) (i : Nat) : PM Nat := fun h =>
  match h.get? p with
  | some (.vertices l) => match l[i]? with | some x => .ok x h | none => .ub
  | _ => .ub
/-- `ptr[i]` for a list of matrix entries. -/
def entryAt (p : Ptr) (i : Nat) : PM (F64 × Nat × Nat) := fun h =>
  match h.get? p with
  | some (.entries l) => match l[i]? with | some x => .ok x h | none => .ub
  | _ => .ub

/-! ### `class Graph` -/

/-- `Graph.__init__` without `_c_graph`; `is_undirected` is `False` by default. `__init__.py:253-267`. -/
def graphInit (E : Ctx) (isUndirected : Bool := false) : PM PyObj := do
  let p ← asPtr (← call E (if isUndirected then .newUndirected else .newDirected))
  pure (.graph p)

/-- `Graph.__del__`. `__init__.py:269-270`. -/
def graphDel (E : Ctx) (p : Ptr) : PM Unit := do
  let _ ← call E (.freeGraph p)

/-- `Graph.__bytes__`. `__init__.py:272-279`. -/
def graphBytes (E : Ctx) (p : Ptr) : PM PyOut := do
  let size ← alloc E (.callerUsize 0)
  let q ← asPtr (← call E (.toBytes p size))
  let n ← readUsize size
  let b ← sliceBytes q n
  let _ ← call E (.freeBytes q n)
  dealloc size
  pure (.val (.bytes b))

/-- `Graph.from_bytes`. `__init__.py:281-296`.  `Graph.__name__()` in the error path calls a string: `TypeError`. -/
def graphFromBytes (E : Ctx) (b : Bytes) : PM PyObj := do
  let arr ← alloc E (.callerBytes b)
  let error ← alloc E (.callerU8 0)
  let p ← asPtr (← call E (.fromBytes arr b.length error))
  let e ← readU8 error
  dealloc error
  dealloc arr
  if e ≠ 0 then raise .TypeError else pure (.graph p)

/-- `Graph.duplicate`. `__init__.py:298-301`. -/
def graphDuplicate (E : Ctx) (p : Ptr) : PM PyOut := do
  let q ← asPtr (← call E (.duplicate p))
  pure (.new (.graph q))

/-- The end of the string methods: read, free, decode. `__init__.py:306-308, 626-628, 720-722`. -/
def takeString (E : Ctx) (q : Ptr) : PM PyOut := do
  let s ← readStr q
  let _ ← call E (.freeString q)
  match s with
  | some s => pure (.val (.str s))
  | none => raise .AttributeError

/-- `Graph.matrix_string`. `__init__.py:303-308`. -/
def graphMatrixString (E : Ctx) (p : Ptr) : PM PyOut := do
  let q ← asPtr (← call E (.matrixString p))
  takeString E q

/-- `Graph.is_undirected`. `__init__.py:310-312`. -/
def graphIsUndirected (E : Ctx) (p : Ptr) : PM PyOut := do
  let n ← asNum (← call E (.isUndirected p))
  pure (.val (.bool (n != 0)))

/-- `Graph.vertex_count`. `__init__.py:314-316`. -/
def graphVertexCount (E : Ctx) (p : Ptr) : PM PyOut := do
  let n ← asNum (← call E (.vertexCount p))
  pure (.val (.int n))

/-- `Graph.edge_count`. `__init__.py:318-325`. -/
def graphEdgeCount (E : Ctx) (p : Ptr) : PM PyOut := do
  let n ← asNum (← call E (.edgeCount p))
  pure (.val (.int n))

/-- `Graph.does_edge_exist`. `__init__.py:327-331`. -/
def graphDoesEdgeExist (E : Ctx) (p : Ptr) (u v : Int) : PM PyOut := do
  let n ← asNum (← call E (.doesEdgeExist p (u64 u) (u64 v)))
  pure (.val (.bool (n != 0)))

/-- `Graph.add_vertex`. `__init__.py:333-345`. -/
def graphAddVertex (E : Ctx) (p : Ptr) (v : Int) (tos : Option (List Int)) : PM PyOut := do
  let ts := tos.getD []
  if ts.length = 0 then
    let _ ← call E (.addVertex p (u64 v) 0 0)
    pure (.val .none)
  else
    let edges ← alloc E (.callerU64s (ts.map u64))
    let _ ← call E (.addVertex p (u64 v) edges ts.length)
    dealloc edges
    pure (.val .none)

/-- `Graph.add_edge`. `__init__.py:347-353`. -/
def graphAddEdge (E : Ctx) (p : Ptr) (u v : Int) : PM PyOut := do
  let _ ← call E (.addEdge p (u64 u) (u64 v))
  pure (.val .none)

/-- `Graph.delete_edge`. `__init__.py:355-357`. -/
def graphDeleteEdge (E : Ctx) (p : Ptr) (u v : Int) : PM PyOut := do
  let _ ← call E (.deleteEdge p (u64 u) (u64 v))
  pure (.val .none)

/-- `Graph.find_avg_pool_matrix`. `__init__.py:359-367`. -/
def graphFindAvgPoolMatrix (E : Ctx) (p : Ptr) (b : Int) : PM PyOut := do
  let q ← asPtr (← call E (.findAvgPoolMatrix p (u64 b)))
  pure (.new (.matrix q))

/-- `Graph.approximate`. `__init__.py:369-394`. -/
def graphApproximate (E : Ctx) (p : Ptr) (b : Int) (t : F64) : PM PyOut := do
  let q ← asPtr (← call E (.approximate p (u64 b) t))
  pure (.new (.graph q))

/-- The level passed on by `Graph.compress`. `__init__.py:412-415`. -/
def compressLevel (l : Int) : Int := if l > 64 then 64 else if l < 1 then 1 else l

/-- `Graph.compress`. `__init__.py:396-418`. -/
def graphCompress (E : Ctx) (p : Ptr) (l : Int) : PM PyOut := do
  let q ← asPtr (← call E (.compress p (u8 (compressLevel l))))
  pure (.new (.cgraph q))

/-- The constructors of the list classes look at `.contents`, which raises `ValueError` for a null pointer.
`__init__.py:465-472, 521-528, 736-743`. -/
def listInit (q : Ptr) (o : PyObj) : PM PyOut := if q = 0 then raise .ValueError else pure (.new o)

/-- `Graph.edge_list`. `__init__.py:420-430`. -/
def graphEdgeList (E : Ctx) (p : Ptr) : PM PyOut := do
  let size ← alloc E (.callerUsize 0)
  let q ← asPtr (← call E (.getEdgeList p size))
  let n ← readUsize size
  dealloc size
  listInit q (.edgeList q n)

/-- `Graph.vertex_in_edges`. `__init__.py:432-441`. -/
def graphVertexInEdges (E : Ctx) (p : Ptr) (v : Int) : PM PyOut := do
  let size ← alloc E (.callerUsize 0)
  let q ← asPtr (← call E (.getInEdgesList p (u64 v) size))
  let n ← readUsize size
  dealloc size
  listInit q (.vertexList q n)

/-- `Graph.vertex_out_edges`. `__init__.py:443-447`. -/
def graphVertexOutEdges (E : Ctx) (p : Ptr) (v : Int) : PM PyOut := do
  let size ← alloc E (.callerUsize 0)
  let q ← asPtr (← call E (.getOutEdgesList p (u64 v) size))
  let n ← readUsize size
  dealloc size
  listInit q (.vertexList q n)

/-- `Graph.vertex_in_degree`. `__init__.py:449-456`. -/
def graphVertexInDegree (E : Ctx) (p : Ptr) (v : Int) : PM PyOut := do
  let n ← asNum (← call E (.getInDegree p (u64 v)))
  pure (.val (.int n))

/-- `Graph.vertex_out_degree`. `__init__.py:458-460`. -/
def graphVertexOutDegree (E : Ctx) (p : Ptr) (v : Int) : PM PyOut := do
  let n ← asNum (← call E (.getOutDegree p (u64 v)))
  pure (.val (.int n))

/-! ### The list classes and their iterators -/

/-- The index computation of `__getitem__`; `% 0` raises `ZeroDivisionError`. `__init__.py:478-482, 534-538, 749-753`. -/
def index (size : Nat) (idx : Int) : PM Nat :=
  if idx ≥ size then raise .IndexError
  else if idx < 0 then
    if size = 0 then raise .ZeroDivisionError
    else pure (size - max (idx.natAbs % size) 1)
  else pure idx.toNat

/-- `_GraphEdgeList.__del__`. `__init__.py:474-475`. -/
def edgeListDel (E : Ctx) (p : Ptr) (size : Nat) : PM Unit := do
  let _ ← call E (.freeEdgeList p size)

/-- `_GraphEdgeList.__getitem__`. `__init__.py:477-485`. -/
def edgeListGetitem (p : Ptr) (size : Nat) (idx : Int) : PM PyOut := do
  let item ← edgeAt p (← index size idx)
  pure (.val (.edge item.1 item.2))

/-- `_GraphEdgeList.__iter__`. `__init__.py:487-488, 495-507`. -/
def edgeListIter (p : Ptr) (size : Nat) (self : Nat) : PM PyOut := listInit p (.edgeIter p size 0 self)

/-- `__len__` of the three list classes. `__init__.py:490-491, 546-547, 761-762`. -/
def listLen (size : Nat) : PM PyOut := pure (.val (.int size))

/-- `_GraphEdgeListIterator.__next__`. `__init__.py:509-516`. -/
def edgeIterNext (p : Ptr) (size pos : Nat) (list : Nat) : PM PyOut := do
  if pos = size then raise .StopIteration
  else
    let curr ← edgeAt p pos
    pure (.step (.edgeIter p size (pos + 1) list) (.edge curr.1 curr.2))

/-- `_GraphVertexList.__del__`. `__init__.py:530-531`. -/
def vertexListDel (E : Ctx) (p : Ptr) (size : Nat) : PM Unit := do
  let _ ← call E (.freeVertexList p size)

/-- `_GraphVertexList.__getitem__`. `__init__.py:533-541`. -/
def vertexListGetitem (p : Ptr) (size : Nat) (idx : Int) : PM PyOut := do
  let item ← vertexAt p (← index size idx)
  pure (.val (.int item))

/-- `_GraphVertexList.__iter__`. `__init__.py:543-544, 551-563`. -/
def vertexListIter (p : Ptr) (size : Nat) (self : Nat) : PM PyOut := listInit p (.vertexIter p size 0 self)

/-- `_GraphVertexListIterator.__next__`. `__init__.py:565-572`. -/
def vertexIterNext (p : Ptr) (size pos : Nat) (list : Nat) : PM PyOut := do
  if pos = size then raise .StopIteration
  else
    let curr ← vertexAt p pos
    pure (.step (.vertexIter p size (pos + 1) list) (.int curr))

/-! ### `class CompressedGraph` -/

/-- `CompressedGraph.__del__`. `__init__.py:584-585`. -/
def cgraphDel (E : Ctx) (p : Ptr) : PM Unit := do
  let _ ← call E (.freeCGraph p)

/-- `CompressedGraph.__bytes__`. `__init__.py:587-594`. -/
def cgraphBytes (E : Ctx) (p : Ptr) : PM PyOut := do
  let size ← alloc E (.callerUsize 0)
  let q ← asPtr (← call E (.cToBytes p size))
  let n ← readUsize size
  let b ← sliceBytes q n
  let _ ← call E (.freeBytes q n)
  dealloc size
  pure (.val (.bytes b))

/-- `CompressedGraph.from_bytes`. `__init__.py:596-611`. -/
def cgraphFromBytes (E : Ctx) (b : Bytes) : PM PyObj := do
  let arr ← alloc E (.callerBytes b)
  let error ← alloc E (.callerU8 0)
  let p ← asPtr (← call E (.cFromBytes arr b.length error))
  let e ← readU8 error
  dealloc error
  dealloc arr
  if e ≠ 0 then raise .TypeError else pure (.cgraph p)

/-- `CompressedGraph.duplicate`. `__init__.py:613-616`. -/
def cgraphDuplicate (E : Ctx) (p : Ptr) : PM PyOut := do
  let q ← asPtr (← call E (.cDuplicate p))
  pure (.new (.cgraph q))

/-- `CompressedGraph.matrix_string`. `__init__.py:618-628`. -/
def cgraphMatrixString (E : Ctx) (p : Ptr) : PM PyOut := do
  let q ← asPtr (← call E (.cMatrixString p))
  takeString E q

/-- `CompressedGraph.decompress`. `__init__.py:630-633`. -/
def cgraphDecompress (E : Ctx) (p : Ptr) : PM PyOut := do
  let q ← asPtr (← call E (.decompress p))
  pure (.new (.graph q))

/-- `CompressedGraph.compression_level`, converted to a float. `__init__.py:635-641`. -/
def cgraphCompressionLevel (E : Ctx) (p : Ptr) : PM PyOut := do
  let n ← asNum (← call E (.cCompressionLevel p))
  pure (.val (.float (F64.ofNat n)))

/-- `CompressedGraph.is_undirected`. `__init__.py:643-645`. -/
def cgraphIsUndirected (E : Ctx) (p : Ptr) : PM PyOut := do
  let n ← asNum (← call E (.cIsUndirected p))
  pure (.val (.bool (n != 0)))

/-- `CompressedGraph.vertex_count`. `__init__.py:647-649`. -/
def cgraphVertexCount (E : Ctx) (p : Ptr) : PM PyOut := do
  let n ← asNum (← call E (.cVertexCount p))
  pure (.val (.int n))

/-- `CompressedGraph.edge_count`. `__init__.py:651-658`. -/
def cgraphEdgeCount (E : Ctx) (p : Ptr) : PM PyOut := do
  let n ← asNum (← call E (.cEdgeCount p))
  pure (.val (.int n))

/-- `CompressedGraph.does_edge_exist`. `__init__.py:660-664`. -/
def cgraphDoesEdgeExist (E : Ctx) (p : Ptr) (u v : Int) : PM PyOut := do
  let n ← asNum (← call E (.cDoesEdgeExist p (u64 u) (u64 v)))
  pure (.val (.bool (n != 0)))

/-- `CompressedGraph.get_compressed_matrix_entry`. `__init__.py:666-673`. -/
def cgraphGetEntry (E : Ctx) (p : Ptr) (col row : Int) : PM PyOut := do
  let n ← asNum (← call E (.cGetEntry p (u64 col) (u64 row)))
  pure (.val (.int n))

/-! ### `class CsrSquareMatrix` -/

/-- `CsrSquareMatrix.__del__`. `__init__.py:690-691`. -/
def matrixDel (E : Ctx) (p : Ptr) : PM Unit := do
  let _ ← call E (.freeMatrix p)

/-- `CsrSquareMatrix.duplicate`. `__init__.py:696-699`. -/
def matrixDuplicate (E : Ctx) (p : Ptr) : PM PyOut := do
  let q ← asPtr (← call E (.mDuplicate p))
  pure (.new (.matrix q))

/-- `CsrSquareMatrix.dimension`. `__init__.py:701-703`. -/
def matrixDimension (E : Ctx) (p : Ptr) : PM PyOut := do
  let n ← asNum (← call E (.mDimension p))
  pure (.val (.int n))

/-- `CsrSquareMatrix.entry_count`. `__init__.py:705-707`. -/
def matrixEntryCount (E : Ctx) (p : Ptr) : PM PyOut := do
  let n ← asNum (← call E (.mEntryCount p))
  pure (.val (.int n))

/-- `CsrSquareMatrix.get_entry`. `__init__.py:709-711`. -/
def matrixGetEntry (E : Ctx) (p : Ptr) (col row : Int) : PM PyOut := do
  let x ← asF64 (← call E (.mGetEntry p (u64 col) (u64 row)))
  pure (.val (.float x))

/-- `CsrSquareMatrix.to_string`; `decimal_digits` is 2 by default. `__init__.py:713-722`. -/
def matrixToString (E : Ctx) (p : Ptr) (decimalDigits : Int := 2) : PM PyOut := do
  let q ← asPtr (← call E (.mToStringWithPrecision p (usize E.P decimalDigits)))
  takeString E q

/-- `CsrSquareMatrix.__str__`. `__init__.py:693-694`. -/
def matrixStr (E : Ctx) (p : Ptr) : PM PyOut := matrixToString E p

/-- `CsrSquareMatrix.entry_list`. `__init__.py:724-732`. -/
def matrixEntryList (E : Ctx) (p : Ptr) : PM PyOut := do
  let size ← alloc E (.callerUsize 0)
  let q ← asPtr (← call E (.mGetEntryList p size))
  let n ← readUsize size
  dealloc size
  listInit q (.entryList q n)

/-- `_CsrSquareMatrixEntryList.__del__`. `__init__.py:745-746`. -/
def entryListDel (E : Ctx) (p : Ptr) (size : Nat) : PM Unit := do
  let _ ← call E (.freeEntryList p size)

/-- `_CsrSquareMatrixEntryList.__getitem__`. `__init__.py:748-756`. -/
def entryListGetitem (p : Ptr) (size : Nat) (idx : Int) : PM PyOut := do
  let item ← entryAt p (← index size idx)
  pure (.val (.entry item.1 item.2.1 item.2.2))

/-- `_CsrSquareMatrixEntryList.__iter__`. `__init__.py:758-759, 766-778`. -/
def entryListIter (p : Ptr) (size : Nat) (self : Nat) : PM PyOut := listInit p (.entryIter p size 0 self)

/-- `_CsrSquareMatrixEntryListIterator.__next__`. `__init__.py:780-787`. -/
def entryIterNext (p : Ptr) (size pos : Nat) (list : Nat) : PM PyOut := do
  if pos = size then raise .StopIteration
  else
    let curr ← entryAt p pos
    pure (.step (.entryIter p size (pos + 1) list) (.entry curr.1 curr.2.1 curr.2.2))

end Py

/-- The methods of the classes with their arguments. -/
inductive Method where
  | bytes
  | duplicate
  | matrixString
  | isUndirected
  | vertexCount
  | edgeCount
  | doesEdgeExist (u v : Int)
  | addVertex (v : Int) (tos : Option (List Int))
  | addEdge (u v : Int)
  | deleteEdge (u v : Int)
  | findAvgPoolMatrix (b : Int)
  | approximate (b : Int) (t : F64)
  | compress (l : Int)
  | edgeList
  | vertexInEdges (v : Int)
  | vertexOutEdges (v : Int)
  | vertexInDegree (v : Int)
  | vertexOutDegree (v : Int)
  | decompress
  | compressionLevel
  | getCompressedMatrixEntry (col row : Int)
  | str
  | dimension
  | entryCount
  | getEntry (col row : Int)
  | toString (decimalDigits : Int)
  | entryList
  | getitem (idx : Int)
  | iter
  | len
  | next

/-- Calling a method of the object number `self`; an object without that method raises `AttributeError`. -/
def PyObj.method (E : Ctx) (self : Nat) : PyObj → Method → PM PyOut
  | .graph p, .bytes => Py.graphBytes E p
  | .graph p, .duplicate => Py.graphDuplicate E p
  | .graph p, .matrixString => Py.graphMatrixString E p
  | .graph p, .isUndirected => Py.graphIsUndirected E p
  | .graph p, .vertexCount => Py.graphVertexCount E p
  | .graph p, .edgeCount => Py.graphEdgeCount E p
  | .graph p, .doesEdgeExist u v => Py.graphDoesEdgeExist E p u v
  | .graph p, .addVertex v tos => Py.graphAddVertex E p v tos
  | .graph p, .addEdge u v => Py.graphAddEdge E p u v
  | .graph p, .deleteEdge u v => Py.graphDeleteEdge E p u v
  | .graph p, .findAvgPoolMatrix b => Py.graphFindAvgPoolMatrix E p b
  | .graph p, .approximate b t => Py.graphApproximate E p b t
  | .graph p, .compress l => Py.graphCompress E p l
  | .graph p, .edgeList => Py.graphEdgeList E p
  | .graph p, .vertexInEdges v => Py.graphVertexInEdges E p v
  | .graph p, .vertexOutEdges v => Py.graphVertexOutEdges E p v
  | .graph p, .vertexInDegree v => Py.graphVertexInDegree E p v
  | .graph p, .vertexOutDegree v => Py.graphVertexOutDegree E p v
  | .cgraph p, .bytes => Py.cgraphBytes E p
  | .cgraph p, .duplicate => Py.cgraphDuplicate E p
  | .cgraph p, .matrixString => Py.cgraphMatrixString E p
  | .cgraph p, .decompress => Py.cgraphDecompress E p
  | .cgraph p, .compressionLevel => Py.cgraphCompressionLevel E p
  | .cgraph p, .isUndirected => Py.cgraphIsUndirected E p
  | .cgraph p, .vertexCount => Py.cgraphVertexCount E p
  | .cgraph p, .edgeCount => Py.cgraphEdgeCount E p
  | .cgraph p, .doesEdgeExist u v => Py.cgraphDoesEdgeExist E p u v
  | .cgraph p, .getCompressedMatrixEntry c r => Py.cgraphGetEntry E p c r
  | .matrix p, .str => Py.matrixStr E p
  | .matrix p, .duplicate => Py.matrixDuplicate E p
  | .matrix p, .dimension => Py.matrixDimension E p
  | .matrix p, .entryCount => Py.matrixEntryCount E p
  | .matrix p, .getEntry c r => Py.matrixGetEntry E p c r
  | .matrix p, .toString d => Py.matrixToString E p d
  | .matrix p, .entryList => Py.matrixEntryList E p
  | .edgeList p n, .getitem i => Py.edgeListGetitem p n i
  | .edgeList p n, .iter => Py.edgeListIter p n self
  | .edgeList _ n, .len => Py.listLen n
  | .vertexList p n, .getitem i => Py.vertexListGetitem p n i
  | .vertexList p n, .iter => Py.vertexListIter p n self
  | .vertexList _ n, .len => Py.listLen n
  | .entryList p n, .getitem i => Py.entryListGetitem p n i
  | .entryList p n, .iter => Py.entryListIter p n self
  | .entryList _ n, .len => Py.listLen n
  | .edgeIter p n pos l, .next => Py.edgeIterNext p n pos l
  | .vertexIter p n pos l, .next => Py.vertexIterNext p n pos l
  | .entryIter p n pos l, .next => Py.entryIterNext p n pos l
  | _, _ => Py.raise .AttributeError

/-- `__del__`; iterators have none. -/
def PyObj.del (E : Ctx) : PyObj → PM Unit
  | .graph p => Py.graphDel E p
  | .cgraph p => Py.cgraphDel E p
  | .matrix p => Py.matrixDel E p
  | .edgeList p n => Py.edgeListDel E p n
  | .vertexList p n => Py.vertexListDel E p n
  | .entryList p n => Py.entryListDel E p n
  | .edgeIter _ _ _ _ | .vertexIter _ _ _ _ | .entryIter _ _ _ _ => pure ()

/-- The list that an iterator keeps alive (`_list_ref`). `__init__.py:507, 563, 778`. -/
def PyObj.listRef : PyObj → Option Nat
  | .edgeIter _ _ _ l | .vertexIter _ _ _ l | .entryIter _ _ _ l => some l
  | _ => none

/-- The state of a Python program that uses the module: the memory and the objects created so far (`none`: collected). -/
structure PyWorld where
  mem : Heap
  objs : List (Option PyObj)

/-- One step of a Python program. -/
inductive PyCall where
  /-- `Graph(is_undirected)` -/
  | newGraph (isUndirected : Bool)
  /-- `Graph.from_bytes(b)` -/
  | graphFromBytes (b : Bytes)
  /-- `CompressedGraph.from_bytes(b)` -/
  | cgraphFromBytes (b : Bytes)
  /-- a method of object `i` -/
  | call (i : Nat) (m : Method)
  /-- the program has dropped its references to object `i`: it is collected if no iterator refers to it -/
  | collect (i : Nat)

namespace PyWorld

/-- Adding an object. -/
def create (w : PyWorld) (x : PyRes Heap PyObj) : PyRes PyWorld PyVal :=
  match x with
  | .ok o h => .ok (.ref w.objs.length) ⟨h, w.objs ++ [some o]⟩
  | .raised e h => .raised e ⟨h, w.objs⟩
  | .ub => .ub
  | .abort => .abort

/-- Storing the result of a method of object `i`. -/
def finish (w : PyWorld) (i : Nat) (x : PyRes Heap PyOut) : PyRes PyWorld PyVal :=
  match x with
  | .ok (.val v) h => .ok v ⟨h, w.objs⟩
  | .ok (.new o) h => .ok (.ref w.objs.length) ⟨h, w.objs ++ [some o]⟩
  | .ok (.step o v) h => .ok v ⟨h, w.objs.set i (some o)⟩
  | .raised e h => .raised e ⟨h, w.objs⟩
  | .ub => .ub
  | .abort => .abort

/-- Is the object referred to by an iterator? -/
def referenced (w : PyWorld) (i : Nat) : Bool := w.objs.any fun o =>
  match o with
  | some o => o.listRef == some i
  | none => false

/-- Executing one step.  A program cannot name an object that does not exist (`NameError`). -/
def exec (E : Ctx) (c : PyCall) (w : PyWorld) : PyRes PyWorld PyVal :=
  match c with
  | .newGraph u => w.create (Py.graphInit E u w.mem)
  | .graphFromBytes b => w.create (Py.graphFromBytes E b w.mem)
  | .cgraphFromBytes b => w.create (Py.cgraphFromBytes E b w.mem)
  | .call i m =>
    match w.objs[i]?.join with
    | some o => w.finish i (o.method E i m w.mem)
    | none => .raised .NameError w
  | .collect i =>
    match w.objs[i]?.join with
    | some o =>
      if w.referenced i then .ok .none w else
        match o.del E w.mem with
        | .ok _ h => .ok .none ⟨h, w.objs.set i none⟩
        | .raised e h => .raised e ⟨h, w.objs⟩
        | .ub => .ub
        | .abort => .abort
    | none => .raised .NameError w

end PyWorld

end Verif
