import Verif.Model.F64Fmt
import Verif.Model.Pool

/-!
# Model of the C interface (`/repo/graphrox-c/src/lib.rs`)

Memory is a finite map from addresses to objects.  A pointer is a number, 0 is null.  Using a pointer that is
neither null nor the address of a live object of the right kind is undefined behaviour (`CRes.ub`); a panic that
would leave an `extern "C"` function aborts the process (`CRes.abort`).

Simplifications: an empty boxed slice is an object with its own address (in Rust it is a dangling non-null pointer that
owns no memory); pointers into the middle of an object are not modelled, except that a shorter length is allowed when
reading; reading a buffer as one of another kind (a string as bytes, edges as numbers) counts as undefined; `Box::new` and `Vec` abort the process if memory is exhausted, which is not modelled.
-/

namespace Verif

/-- A C pointer; 0 is null. -/
abbrev Ptr := Nat

/-- What can live at an address: the objects behind the handles and lists of `lib.rs:48-88`, the buffers handed
out by the library (`lib.rs:39-46, 213, 358, 434, 782`), and memory of the calling program (`caller…`). -/
inductive Obj where
  | graph (g : Graph)
  | cgraph (g : CGraph)
  | matrix (m : SqMatrix F64)
  | cstring (s : List Char)
  | bytes (b : Bytes)
  | edges (l : List (Nat × Nat))
  | vertices (l : List Nat)
  | entries (l : List (F64 × Nat × Nat))
  | callerUsize (n : Nat)
  | callerU8 (n : Nat)
  | callerBytes (b : Bytes)
  | callerU64s (l : List Nat)

/-- The memory. -/
abbrev Heap := HMap Obj

/-- Outcome of a C call: a value and the new memory, undefined behaviour, or an abort. -/
inductive CRes (α : Type) where
  | ok (a : α) (h : Heap)
  | ub
  | abort

/-- Computations on the memory. -/
def CM (α : Type) := Heap → CRes α

/-- Sequencing. -/
def CM.bind {α β : Type} (x : CM α) (f : α → CM β) : CM β := fun h =>
  match x h with
  | .ok a h' => f a h'
  | .ub => .ub
  | .abort => .abort

instance : Monad CM where
  pure a := fun h => .ok a h
  bind := CM.bind

/-- The environment of one call: platform, allocator (any function returning unused non-null addresses), and the
hash orders of the maps iterated during the call. -/
structure Ctx where
  P : Platform
  fresh : Heap → Ptr
  fresh_ne : ∀ h : Heap, fresh h ≠ 0
  fresh_free : ∀ h : Heap, h.get? (fresh h) = none
  o₁ : HashOrder
  o₂ : HashOrder

namespace CApi

/-- `GPHRX_ERROR_INVALID_FORMAT`. `lib.rs:12`. -/
def ERROR_INVALID_FORMAT : Nat := 1

/-- `C_TRUE` / `C_FALSE`. `lib.rs:14-16`. -/
def cBool (b : Bool) : Nat := if b then 1 else 0

/-- `graph_ref` (and `graph_mut`). `lib.rs:18-26`. -/
def graphRef (p : Ptr) : CM (Option Graph) := fun h =>
  if p = 0 then .ok none h else
    match h.get? p with
    | some (.graph g) => .ok (some g) h
    | _ => .ub

/-- `compressed_graph_ref`. `lib.rs:28-31`. -/
def cgraphRef (p : Ptr) : CM (Option CGraph) := fun h =>
  if p = 0 then .ok none h else
    match h.get? p with
    | some (.cgraph g) => .ok (some g) h
    | _ => .ub

/-- `matrix_ref`. `lib.rs:33-36`. -/
def matrixRef (p : Ptr) : CM (Option (SqMatrix F64)) := fun h =>
  if p = 0 then .ok none h else
    match h.get? p with
    | some (.matrix m) => .ok (some m) h
    | _ => .ub

/-- `if !p.is_null() { *p = n; }` for a `*mut usize`. `lib.rs:40-44, 220-222, 340-342`. -/
def setUsize (p : Ptr) (n : Nat) : CM Unit := fun h =>
  if p = 0 then .ok () h else
    match h.get? p with
    | some (.callerUsize _) => .ok () (h.insert p (.callerUsize n))
    | _ => .ub

/-- `if !p.is_null() { *p = n; }` for a `*mut u8`. `lib.rs:155-161`. -/
def setU8 (p : Ptr) (n : Nat) : CM Unit := fun h =>
  if p = 0 then .ok () h else
    match h.get? p with
    | some (.callerU8 _) => .ok () (h.insert p (.callerU8 n))
    | _ => .ub

/-- `slice::from_raw_parts` for bytes. `lib.rs:170`. -/
def readBytes (p : Ptr) (n : Nat) : CM Bytes := fun h =>
  match h.get? p with
  | some (.callerBytes b) => if n ≤ b.length then .ok (b.take n) h else .ub
  | some (.bytes b) => if n ≤ b.length then .ok (b.take n) h else .ub
  | _ => .ub

/-- `slice::from_raw_parts` for `u64`s. `lib.rs:377`. -/
def readU64s (p : Ptr) (n : Nat) : CM (List Nat) := fun h =>
  match h.get? p with
  | some (.callerU64s l) => if n ≤ l.length then .ok (l.take n) h else .ub
  | some (.vertices l) => if n ≤ l.length then .ok (l.take n) h else .ub
  | _ => .ub

/-- `Box::into_raw(Box::new(…))` and its relatives: a new object. `lib.rs:138` and elsewhere. -/
def boxNew (E : Ctx) (x : Obj) : CM Ptr := fun h => .ok (E.fresh h) (h.insert (E.fresh h) x)

/-- Writing through a `&mut Graph`. `lib.rs:380, 396, 409`. -/
def writeGraph (p : Ptr) (g : Graph) : CM Unit := fun h => .ok () (h.insert p (.graph g))

/-- A Rust call inside an `extern "C"` function: `None` for `Err`, abort for a panic. -/
def rust {α : Type} (x : Res α) : CM (Option α) := fun h =>
  match x with
  | .ok a => .ok (some a) h
  | .err _ => .ok none h
  | .panic => .abort

/-- A Rust call that cannot return `Err` (by its type); aborts if it panics. -/
def rustTotal {α : Type} (x : Res α) : CM α := fun h =>
  match x with
  | .ok a => .ok a h
  | .err _ => .abort
  | .panic => .abort

/-- `CString::new(s).ok()` followed by `into_raw`, or null. `lib.rs:208-215`. -/
def cstringOrNull (E : Ctx) (s : Option (List Char)) : CM Ptr :=
  match s with
  | some s => if s.contains (Char.ofNat 0) then pure 0 else boxNew E (.cstring s)
  | none => pure 0

/-- `boxed_bytes_to_raw`. `lib.rs:38-46`. -/
def boxedBytesToRaw (E : Ctx) (b : Bytes) (size : Ptr) : CM Ptr := do
  setUsize size b.length
  boxNew E (.bytes b)

/-- Freeing an object of the kind recognised by `ok`; null is ignored. -/
def freeObj (ok : Obj → Bool) (p : Ptr) : CM Unit := fun h =>
  if p = 0 then .ok () h else
    match h.get? p with
    | some x => if ok x then .ok () (h.remove p) else .ub
    | none => .ub

/-- `free_gphrx_string_buffer`. `lib.rs:92-97`. -/
def freeString (p : Ptr) : CM Unit := freeObj (fun x => match x with | .cstring _ => true | _ => false) p

/-- `free_gphrx_bytes_buffer`. `lib.rs:100-108`: the length must be that of the allocation. -/
def freeBytes (p : Ptr) (n : Nat) : CM Unit :=
  freeObj (fun x => match x with | .bytes b => b.length == n | _ => false) p

/-- `free_gphrx_graph`. `lib.rs:112-117`. -/
def freeGraph (p : Ptr) : CM Unit := freeObj (fun x => match x with | .graph _ => true | _ => false) p

/-- `free_gphrx_edge_list`. `lib.rs:120-125`. -/
def freeEdgeList (p : Ptr) (n : Nat) : CM Unit :=
  freeObj (fun x => match x with | .edges l => l.length == n | _ => false) p

/-- `free_gphrx_vertex_list`. `lib.rs:128-133`. -/
def freeVertexList (p : Ptr) (n : Nat) : CM Unit :=
  freeObj (fun x => match x with | .vertices l => l.length == n | _ => false) p

/-- `gphrx_new_undirected`. `lib.rs:136-140`. -/
def newUndirected (E : Ctx) : CM Ptr := boxNew E (.graph Graph.newUndirected)

/-- `gphrx_new_directed`. `lib.rs:143-147`. -/
def newDirected (E : Ctx) : CM Ptr := boxNew E (.graph Graph.newDirected)

/-- The buffer of the two `from_bytes` functions. `lib.rs:167-171, 629-633`. -/
def inputBytes (buffer : Ptr) (size : Nat) : CM Bytes :=
  if size = 0 then pure [] else readBytes buffer size

/-- `gphrx_from_bytes`. `lib.rs:150-188`. -/
def fromBytes (E : Ctx) (buffer : Ptr) (size : Nat) (error : Ptr) : CM Ptr := do
  setU8 error 0
  if buffer = 0 ∧ size ≠ 0 then
    setU8 error ERROR_INVALID_FORMAT
    pure 0
  else
    let b ← inputBytes buffer size
    match ← rust (Graph.tryFrom E.P b) with
    | some g => boxNew E (.graph g)
    | none =>
      setU8 error ERROR_INVALID_FORMAT
      pure 0

/-- `gphrx_duplicate`. `lib.rs:191-201`. -/
def duplicate (E : Ctx) (p : Ptr) : CM Ptr := do
  match ← graphRef p with
  | none => pure 0
  | some g => boxNew E (.graph g)

/-- `gphrx_matrix_string`. `lib.rs:204-216`. -/
def matrixString (E : Ctx) (p : Ptr) : CM Ptr := do
  match ← graphRef p with
  | none => pure 0
  | some g => cstringOrNull E (← rust (g.matrixString E.P))

/-- `gphrx_to_bytes`. `lib.rs:219-230`. -/
def toBytes (E : Ctx) (p : Ptr) (size : Ptr) : CM Ptr := do
  setUsize size 0
  match ← graphRef p with
  | none => pure 0
  | some g =>
    match ← rust (g.toBytes E.P E.o₁) with
    | some b => boxedBytesToRaw E b size
    | none => pure 0

/-- `gphrx_is_undirected`. `lib.rs:233-243`. -/
def isUndirected (p : Ptr) : CM Nat := do
  match ← graphRef p with
  | none => pure (cBool false)
  | some g => pure (cBool g.isUndirected)

/-- `gphrx_vertex_count`. `lib.rs:246-252`. -/
def vertexCount (p : Ptr) : CM Nat := do
  match ← graphRef p with
  | none => pure 0
  | some g => pure g.vertexCount

/-- `gphrx_edge_count`. `lib.rs:255-261`. -/
def edgeCount (p : Ptr) : CM Nat := do
  match ← graphRef p with
  | none => pure 0
  | some g => pure g.edgeCount

/-- `gphrx_does_edge_exist`. `lib.rs:264-278`. -/
def doesEdgeExist (p : Ptr) (u v : Nat) : CM Nat := do
  match ← graphRef p with
  | none => pure (cBool false)
  | some g => pure (cBool (g.doesEdgeExist u v))

/-- `gphrx_find_avg_pool_matrix`. `lib.rs:281-296`. -/
def findAvgPoolMatrix (E : Ctx) (p : Ptr) (b : Nat) : CM Ptr := do
  match ← graphRef p with
  | none => pure 0
  | some g => boxNew E (.matrix (← rustTotal (g.findAvgPoolMatrix E.P E.o₁ b)))

/-- `gphrx_approximate`. `lib.rs:299-315`. -/
def approximate (E : Ctx) (p : Ptr) (b : Nat) (t : F64) : CM Ptr := do
  match ← graphRef p with
  | none => pure 0
  | some g => boxNew E (.graph (← rustTotal (g.approximate E.P E.o₁ E.o₂ b t)))

/-- `gphrx_compress`. `lib.rs:318-333`. -/
def compress (E : Ctx) (p : Ptr) (level : Nat) : CM Ptr := do
  match ← graphRef p with
  | none => pure 0
  | some g => boxNew E (.cgraph (← rustTotal (g.compress E.P E.o₁ E.o₂ level)))

/-- `gphrx_get_edge_list`. `lib.rs:336-359`. -/
def getEdgeList (E : Ctx) (p : Ptr) (length : Ptr) : CM Ptr := do
  setUsize length 0
  match ← graphRef p with
  | none => pure 0
  | some g =>
    let edges := g.items E.o₁
    setUsize length edges.length
    boxNew E (.edges edges)

/-- `gphrx_add_vertex`. `lib.rs:362-388`. -/
def addVertex (p : Ptr) (v : Nat) (tos : Ptr) (toLen : Nat) : CM Unit := do
  match ← graphRef p with
  | none => pure ()
  | some g =>
    if tos = 0 ∧ toLen ≠ 0 then pure ()
    else if toLen = 0 then writeGraph p (g.addVertex v none)
    else do
      let l ← readU64s tos toLen
      writeGraph p (g.addVertex v (some l))

/-- `gphrx_add_edge`. `lib.rs:391-397`. -/
def addEdge (p : Ptr) (u v : Nat) : CM Unit := do
  match ← graphRef p with
  | none => pure ()
  | some g => writeGraph p (g.addEdge u v)

/-- `gphrx_delete_edge`. `lib.rs:400-410`. -/
def deleteEdge (p : Ptr) (u v : Nat) : CM Unit := do
  match ← graphRef p with
  | none => pure ()
  | some g => writeGraph p (g.deleteEdge u v)

/-- `gphrx_get_vertex_in_edges_list`. `lib.rs:413-435`. -/
def getInEdgesList (E : Ctx) (p : Ptr) (v : Nat) (length : Ptr) : CM Ptr := do
  setUsize length 0
  match ← graphRef p with
  | none => pure 0
  | some g =>
    let l := g.getVertexInEdges E.o₁ v
    setUsize length l.length
    boxNew E (.vertices l)

/-- `gphrx_get_vertex_out_edges_list`. `lib.rs:438-460`. -/
def getOutEdgesList (E : Ctx) (p : Ptr) (v : Nat) (length : Ptr) : CM Ptr := do
  setUsize length 0
  match ← graphRef p with
  | none => pure 0
  | some g =>
    let l := g.getVertexOutEdges E.o₁ v
    setUsize length l.length
    boxNew E (.vertices l)

/-- `gphrx_get_vertex_in_degree`. `lib.rs:463-469`. -/
def getInDegree (p : Ptr) (v : Nat) : CM Nat := do
  match ← graphRef p with
  | none => pure 0
  | some g => pure (g.getVertexInDegree v)

/-- `gphrx_get_vertex_out_degree`. `lib.rs:472-478`. -/
def getOutDegree (p : Ptr) (v : Nat) : CM Nat := do
  match ← graphRef p with
  | none => pure 0
  | some g => pure (g.getVertexOutDegree v)

/-- `free_gphrx_compressed_graph`. `lib.rs:482-487`. -/
def freeCGraph (p : Ptr) : CM Unit := freeObj (fun x => match x with | .cgraph _ => true | _ => false) p

/-- `gphrx_compressed_graph_duplicate`. `lib.rs:490-502`. -/
def cDuplicate (E : Ctx) (p : Ptr) : CM Ptr := do
  match ← cgraphRef p with
  | none => pure 0
  | some g => boxNew E (.cgraph g)

/-- `gphrx_compressed_graph_compression_level`. `lib.rs:505-513`. -/
def cCompressionLevel (p : Ptr) : CM Nat := do
  match ← cgraphRef p with
  | none => pure 0
  | some g => pure g.compressionLevel

/-- `gphrx_compressed_graph_is_undirected`. `lib.rs:516-528`. -/
def cIsUndirected (p : Ptr) : CM Nat := do
  match ← cgraphRef p with
  | none => pure (cBool false)
  | some g => pure (cBool g.isUndirected)

/-- `gphrx_compressed_graph_vertex_count`. `lib.rs:531-537`. -/
def cVertexCount (p : Ptr) : CM Nat := do
  match ← cgraphRef p with
  | none => pure 0
  | some g => pure g.vertexCount

/-- `gphrx_compressed_graph_edge_count`. `lib.rs:540-546`. -/
def cEdgeCount (p : Ptr) : CM Nat := do
  match ← cgraphRef p with
  | none => pure 0
  | some g => pure g.edgeCount

/-- `gphrx_compressed_graph_does_edge_exist`. `lib.rs:549-563`. -/
def cDoesEdgeExist (p : Ptr) (u v : Nat) : CM Nat := do
  match ← cgraphRef p with
  | none => pure (cBool false)
  | some g => pure (cBool (g.doesEdgeExist u v))

/-- `gphrx_get_compressed_matrix_entry`. `lib.rs:566-576`. -/
def cGetEntry (p : Ptr) (col row : Nat) : CM Nat := do
  match ← cgraphRef p with
  | none => pure 0
  | some g => pure (g.getCompressedMatrixEntry col row)

/-- `gphrx_compressed_graph_matrix_string`. `lib.rs:579-593`. -/
def cMatrixString (E : Ctx) (p : Ptr) : CM Ptr := do
  match ← cgraphRef p with
  | none => pure 0
  | some g => cstringOrNull E (← rust (g.matrixString E.P E.o₁ E.o₂))

/-- `gphrx_compressed_graph_to_bytes`. `lib.rs:596-610`. -/
def cToBytes (E : Ctx) (p : Ptr) (size : Ptr) : CM Ptr := do
  setUsize size 0
  match ← cgraphRef p with
  | none => pure 0
  | some g =>
    match ← rust (g.toBytes E.P E.o₁) with
    | some b => boxedBytesToRaw E b size
    | none => pure 0

/-- `gphrx_compressed_graph_from_bytes`. `lib.rs:613-650`. -/
def cFromBytes (E : Ctx) (buffer : Ptr) (size : Nat) (error : Ptr) : CM Ptr := do
  setU8 error 0
  if buffer = 0 ∧ size ≠ 0 then
    setU8 error ERROR_INVALID_FORMAT
    pure 0
  else
    let b ← inputBytes buffer size
    match ← rust (CGraph.tryFrom E.P b) with
    | some g => boxNew E (.cgraph g)
    | none =>
      setU8 error ERROR_INVALID_FORMAT
      pure 0

/-- `gphrx_decompress`. `lib.rs:653-665`. -/
def decompress (E : Ctx) (p : Ptr) : CM Ptr := do
  match ← cgraphRef p with
  | none => pure 0
  | some g => boxNew E (.graph (← rustTotal (g.decompress E.P E.o₁)))

/-- `free_gphrx_matrix`. `lib.rs:669-677`. -/
def freeMatrix (p : Ptr) : CM Unit := freeObj (fun x => match x with | .matrix _ => true | _ => false) p

/-- `gphrx_matrix_duplicate`. `lib.rs:680-692`. -/
def mDuplicate (E : Ctx) (p : Ptr) : CM Ptr := do
  match ← matrixRef p with
  | none => pure 0
  | some m => boxNew E (.matrix m)

/-- `free_gphrx_matrix_entry_list`. `lib.rs:695-700`. -/
def freeEntryList (p : Ptr) (n : Nat) : CM Unit :=
  freeObj (fun x => match x with | .entries l => l.length == n | _ => false) p

/-- `gphrx_matrix_dimension`. `lib.rs:703-709`. -/
def mDimension (p : Ptr) : CM Nat := do
  match ← matrixRef p with
  | none => pure 0
  | some m => pure m.dimension

/-- `gphrx_matrix_entry_count`. `lib.rs:712-718`. -/
def mEntryCount (p : Ptr) : CM Nat := do
  match ← matrixRef p with
  | none => pure 0
  | some m => pure m.entryCount

/-- `gphrx_matrix_get_entry`. `lib.rs:721-731`. -/
def mGetEntry (p : Ptr) (col row : Nat) : CM F64 := do
  match ← matrixRef p with
  | none => pure (F64.lit 0)
  | some m => pure (m.getEntry f64Numeric col row)

/-- `gphrx_matrix_to_string`. `lib.rs:734-742`. -/
def mToString (E : Ctx) (p : Ptr) : CM Ptr := do
  match ← matrixRef p with
  | none => pure 0
  | some m => cstringOrNull E (some (← rustTotal (m.toText E.P f64Fmt E.o₁ E.o₂)))

/-- `gphrx_matrix_to_string_with_precision`. `lib.rs:745-760`. -/
def mToStringWithPrecision (E : Ctx) (p : Ptr) (d : Nat) : CM Ptr := do
  match ← matrixRef p with
  | none => pure 0
  | some m => cstringOrNull E (← rust (m.toStringWithPrecision E.P f64Fmt E.o₁ E.o₂ d))

/-- `gphrx_matrix_get_entry_list`. `lib.rs:763-783`. -/
def mGetEntryList (E : Ctx) (p : Ptr) (length : Ptr) : CM Ptr := do
  setUsize length 0
  match ← matrixRef p with
  | none => pure 0
  | some m =>
    let l := m.items E.o₁
    setUsize length l.length
    boxNew E (.entries l)

end CApi

/-- What a C function returns: nothing, a pointer (or handle), an integer, a double. -/
inductive Val where
  | unit
  | ptr (p : Ptr)
  | num (n : Nat)
  | f64 (x : F64)

/-- One call of a function of the C interface with its arguments. All functions of `lib.rs:90-783`. -/
inductive Call where
  | freeString (p : Ptr)
  | freeBytes (p : Ptr) (n : Nat)
  | freeGraph (p : Ptr)
  | freeEdgeList (p : Ptr) (n : Nat)
  | freeVertexList (p : Ptr) (n : Nat)
  | newUndirected
  | newDirected
  | fromBytes (buffer : Ptr) (size : Nat) (error : Ptr)
  | duplicate (p : Ptr)
  | matrixString (p : Ptr)
  | toBytes (p : Ptr) (size : Ptr)
  | isUndirected (p : Ptr)
  | vertexCount (p : Ptr)
  | edgeCount (p : Ptr)
  | doesEdgeExist (p : Ptr) (u : Nat) (v : Nat)
  | findAvgPoolMatrix (p : Ptr) (b : Nat)
  | approximate (p : Ptr) (b : Nat) (t : F64)
  | compress (p : Ptr) (level : Nat)
  | getEdgeList (p : Ptr) (length : Ptr)
  | addVertex (p : Ptr) (v : Nat) (tos : Ptr) (toLen : Nat)
  | addEdge (p : Ptr) (u : Nat) (v : Nat)
  | deleteEdge (p : Ptr) (u : Nat) (v : Nat)
  | getInEdgesList (p : Ptr) (v : Nat) (length : Ptr)
  | getOutEdgesList (p : Ptr) (v : Nat) (length : Ptr)
  | getInDegree (p : Ptr) (v : Nat)
  | getOutDegree (p : Ptr) (v : Nat)
  | freeCGraph (p : Ptr)
  | cDuplicate (p : Ptr)
  | cCompressionLevel (p : Ptr)
  | cIsUndirected (p : Ptr)
  | cVertexCount (p : Ptr)
  | cEdgeCount (p : Ptr)
  | cDoesEdgeExist (p : Ptr) (u : Nat) (v : Nat)
  | cGetEntry (p : Ptr) (col : Nat) (row : Nat)
  | cMatrixString (p : Ptr)
  | cToBytes (p : Ptr) (size : Ptr)
  | cFromBytes (buffer : Ptr) (size : Nat) (error : Ptr)
  | decompress (p : Ptr)
  | freeMatrix (p : Ptr)
  | mDuplicate (p : Ptr)
  | freeEntryList (p : Ptr) (n : Nat)
  | mDimension (p : Ptr)
  | mEntryCount (p : Ptr)
  | mGetEntry (p : Ptr) (col : Nat) (row : Nat)
  | mToString (p : Ptr)
  | mToStringWithPrecision (p : Ptr) (d : Nat)
  | mGetEntryList (p : Ptr) (length : Ptr)

/-- Wraps the result of a call. -/
def CM.ret {α : Type} (f : α → Val) (x : CM α) : CM Val := fun h =>
  match x h with
  | .ok a h' => .ok (f a) h'
  | .ub => .ub
  | .abort => .abort

/-- Executing a call: dispatch to the functions above. -/
def Call.exec (E : Ctx) : Call → CM Val
  | .freeString p => (CApi.freeString p).ret (fun _ => .unit)
  | .freeBytes p n => (CApi.freeBytes p n).ret (fun _ => .unit)
  | .freeGraph p => (CApi.freeGraph p).ret (fun _ => .unit)
  | .freeEdgeList p n => (CApi.freeEdgeList p n).ret (fun _ => .unit)
  | .freeVertexList p n => (CApi.freeVertexList p n).ret (fun _ => .unit)
  | .newUndirected => (CApi.newUndirected E).ret .ptr
  | .newDirected => (CApi.newDirected E).ret .ptr
  | .fromBytes buffer size error => (CApi.fromBytes E buffer size error).ret .ptr
  | .duplicate p => (CApi.duplicate E p).ret .ptr
  | .matrixString p => (CApi.matrixString E p).ret .ptr
  | .toBytes p size => (CApi.toBytes E p size).ret .ptr
  | .isUndirected p => (CApi.isUndirected p).ret .num
  | .vertexCount p => (CApi.vertexCount p).ret .num
  | .edgeCount p => (CApi.edgeCount p).ret .num
  | .doesEdgeExist p u v => (CApi.doesEdgeExist p u v).ret .num
  | .findAvgPoolMatrix p b => (CApi.findAvgPoolMatrix E p b).ret .ptr
  | .approximate p b t => (CApi.approximate E p b t).ret .ptr
  | .compress p level => (CApi.compress E p level).ret .ptr
  | .getEdgeList p length => (CApi.getEdgeList E p length).ret .ptr
  | .addVertex p v tos toLen => (CApi.addVertex p v tos toLen).ret (fun _ => .unit)
  | .addEdge p u v => (CApi.addEdge p u v).ret (fun _ => .unit)
  | .deleteEdge p u v => (CApi.deleteEdge p u v).ret (fun _ => .unit)
  | .getInEdgesList p v length => (CApi.getInEdgesList E p v length).ret .ptr
  | .getOutEdgesList p v length => (CApi.getOutEdgesList E p v length).ret .ptr
  | .getInDegree p v => (CApi.getInDegree p v).ret .num
  | .getOutDegree p v => (CApi.getOutDegree p v).ret .num
  | .freeCGraph p => (CApi.freeCGraph p).ret (fun _ => .unit)
  | .cDuplicate p => (CApi.cDuplicate E p).ret .ptr
  | .cCompressionLevel p => (CApi.cCompressionLevel p).ret .num
  | .cIsUndirected p => (CApi.cIsUndirected p).ret .num
  | .cVertexCount p => (CApi.cVertexCount p).ret .num
  | .cEdgeCount p => (CApi.cEdgeCount p).ret .num
  | .cDoesEdgeExist p u v => (CApi.cDoesEdgeExist p u v).ret .num
  | .cGetEntry p col row => (CApi.cGetEntry p col row).ret .num
  | .cMatrixString p => (CApi.cMatrixString E p).ret .ptr
  | .cToBytes p size => (CApi.cToBytes E p size).ret .ptr
  | .cFromBytes buffer size error => (CApi.cFromBytes E buffer size error).ret .ptr
  | .decompress p => (CApi.decompress E p).ret .ptr
  | .freeMatrix p => (CApi.freeMatrix p).ret (fun _ => .unit)
  | .mDuplicate p => (CApi.mDuplicate E p).ret .ptr
  | .freeEntryList p n => (CApi.freeEntryList p n).ret (fun _ => .unit)
  | .mDimension p => (CApi.mDimension p).ret .num
  | .mEntryCount p => (CApi.mEntryCount p).ret .num
  | .mGetEntry p col row => (CApi.mGetEntry p col row).ret .f64
  | .mToString p => (CApi.mToString E p).ret .ptr
  | .mToStringWithPrecision p d => (CApi.mToStringWithPrecision E p d).ret .ptr
  | .mGetEntryList p length => (CApi.mGetEntryList E p length).ret .ptr

end Verif
