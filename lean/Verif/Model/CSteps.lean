import Verif.Model.CApi

/-!
# Model of the C interface, step by step (`/repo/graphrox-c/src/lib.rs`)

The functions of `Model/CApi.lean` once more, as programs whose single accesses to memory are visible, so that calls of several
threads can overlap in time.  The source lines are those cited there; `C129_same` proves that a program that runs without
interruption does what the function of `Model/CApi.lean` does.

Simplification: one object (a graph with all its tables, a buffer) is one cell.  That Rust reads and changes it in many small steps
is taken into account by `Spec.Path`: reads may be repeated, and before the final content any number of others may be stored.
-/

namespace Verif

/-- A computation in single steps on the memory. -/
inductive Prog (α : Type) where
  | ret (a : α)
  | ub
  | abort
  | load (p : Ptr) (k : Option Obj → Prog α)
  | store (p : Ptr) (x : Obj) (k : Prog α)
  | free (p : Ptr) (k : Prog α)
  | alloc (x : Obj) (k : Ptr → Prog α)

/-- Sequencing. -/
def Prog.bind {α β : Type} : Prog α → (α → Prog β) → Prog β
  | .ret a, f => f a
  | .ub, _ => .ub
  | .abort, _ => .abort
  | .load p k, f => .load p fun x => (k x).bind f
  | .store p x k, f => .store p x (k.bind f)
  | .free p k, f => .free p (k.bind f)
  | .alloc x k, f => .alloc x fun q => (k q).bind f

instance : Monad Prog where
  pure := .ret
  bind := Prog.bind

/-- Running without interruption, with the allocator of `E`. -/
def Prog.run {α : Type} (E : Ctx) : Prog α → CM α
  | .ret a => fun h => .ok a h
  | .ub => fun _ => .ub
  | .abort => fun _ => .abort
  | .load p k => fun h => (k (h.get? p)).run E h
  | .store p x k => fun h => k.run E (h.insert p x)
  | .free p k => fun h => k.run E (h.remove p)
  | .alloc x k => fun h => (k (E.fresh h)).run E (h.insert (E.fresh h) x)

/-- Wraps the result of a call. -/
def Prog.map {α : Type} (f : α → Val) (x : Prog α) : Prog Val := x.bind fun a => .ret (f a)

namespace CSteps

/-- `graph_ref` (and `graph_mut`). `lib.rs:18-26`. -/
def graphRef (p : Ptr) : Prog (Option Graph) :=
  if p = 0 then .ret none else
    .load p fun
      | some (.graph g) => .ret (some g)
      | _ => .ub

/-- `compressed_graph_ref`. `lib.rs:28-31`. -/
def cgraphRef (p : Ptr) : Prog (Option CGraph) :=
  if p = 0 then .ret none else
    .load p fun
      | some (.cgraph g) => .ret (some g)
      | _ => .ub

/-- `matrix_ref`. `lib.rs:33-36`. -/
def matrixRef (p : Ptr) : Prog (Option (SqMatrix F64)) :=
  if p = 0 then .ret none else
    .load p fun
      | some (.matrix m) => .ret (some m)
      | _ => .ub

/-- `if !p.is_null() { *p = n; }` for a `*mut usize`; the first step stands for the requirement that there is such a cell.
`lib.rs:40-44, 220-222, 340-342`. -/
def setUsize (p : Ptr) (n : Nat) : Prog Unit :=
  if p = 0 then .ret () else
    .load p fun
      | some (.callerUsize _) => .store p (.callerUsize n) (.ret ())
      | _ => .ub

/-- `if !p.is_null() { *p = n; }` for a `*mut u8`. `lib.rs:155-161`. -/
def setU8 (p : Ptr) (n : Nat) : Prog Unit :=
  if p = 0 then .ret () else
    .load p fun
      | some (.callerU8 _) => .store p (.callerU8 n) (.ret ())
      | _ => .ub

/-- `slice::from_raw_parts` for bytes. `lib.rs:170`. -/
def readBytes (p : Ptr) (n : Nat) : Prog Bytes :=
  .load p fun
    | some (.callerBytes b) => if n ≤ b.length then .ret (b.take n) else .ub
    | some (.bytes b) => if n ≤ b.length then .ret (b.take n) else .ub
    | _ => .ub

/-- `slice::from_raw_parts` for `u64`s. `lib.rs:377`. -/
def readU64s (p : Ptr) (n : Nat) : Prog (List Nat) :=
  .load p fun
    | some (.callerU64s l) => if n ≤ l.length then .ret (l.take n) else .ub
    | some (.vertices l) => if n ≤ l.length then .ret (l.take n) else .ub
    | _ => .ub

/-- `Box::into_raw(Box::new(…))` and its relatives: a new object. `lib.rs:138` and elsewhere. -/
def boxNew (x : Obj) : Prog Ptr := .alloc x .ret

/-- Writing through a `&mut Graph`. `lib.rs:380, 396, 409`. -/
def writeGraph (p : Ptr) (g : Graph) : Prog Unit := .store p (.graph g) (.ret ())

/-- A Rust call inside an `extern "C"` function: `None` for `Err`, abort for a panic. It works on the object loaded before. -/
def rust {α : Type} : Res α → Prog (Option α)
  | .ok a => .ret (some a)
  | .err _ => .ret none
  | .panic => .abort

/-- A Rust call that cannot return `Err` (by its type); aborts if it panics. -/
def rustTotal {α : Type} : Res α → Prog α
  | .ok a => .ret a
  | .err _ => .abort
  | .panic => .abort

/-- Freeing an object of the kind recognised by `ok`; null is ignored. -/
def freeObj (ok : Obj → Bool) (p : Ptr) : Prog Unit :=
  if p = 0 then .ret () else
    .load p fun
      | some x => if ok x then .free p (.ret ()) else .ub
      | none => .ub

/-- `CString::new(s).ok()` followed by `into_raw`, or null. `lib.rs:208-215`. -/
def cstringOrNull (s : Option (List Char)) : Prog Ptr :=
  match s with
  | some s => if s.contains (Char.ofNat 0) then pure 0 else boxNew (.cstring s)
  | none => pure 0

/-- `boxed_bytes_to_raw`. `lib.rs:38-46`. -/
def boxedBytesToRaw (b : Bytes) (size : Ptr) : Prog Ptr := do
  setUsize size b.length
  boxNew (.bytes b)

/-- `free_gphrx_string_buffer`. `lib.rs:92-97`. -/
def freeString (p : Ptr) : Prog Unit := freeObj (fun x => match x with | .cstring _ => true | _ => false) p

/-- `free_gphrx_bytes_buffer`. `lib.rs:100-108`: the length must be that of the allocation. -/
def freeBytes (p : Ptr) (n : Nat) : Prog Unit :=
  freeObj (fun x => match x with | .bytes b => b.length == n | _ => false) p

/-- `free_gphrx_graph`. `lib.rs:112-117`. -/
def freeGraph (p : Ptr) : Prog Unit := freeObj (fun x => match x with | .graph _ => true | _ => false) p

/-- `free_gphrx_edge_list`. `lib.rs:120-125`. -/
def freeEdgeList (p : Ptr) (n : Nat) : Prog Unit :=
  freeObj (fun x => match x with | .edges l => l.length == n | _ => false) p

/-- `free_gphrx_vertex_list`. `lib.rs:128-133`. -/
def freeVertexList (p : Ptr) (n : Nat) : Prog Unit :=
  freeObj (fun x => match x with | .vertices l => l.length == n | _ => false) p

/-- `gphrx_new_undirected`. `lib.rs:136-140`. -/
def newUndirected : Prog Ptr := boxNew (.graph Graph.newUndirected)

/-- `gphrx_new_directed`. `lib.rs:143-147`. -/
def newDirected : Prog Ptr := boxNew (.graph Graph.newDirected)

/-- The buffer of the two `from_bytes` functions. `lib.rs:167-171, 629-633`. -/
def inputBytes (buffer : Ptr) (size : Nat) : Prog Bytes :=
  if size = 0 then pure [] else readBytes buffer size

/-- `gphrx_from_bytes`. `lib.rs:150-188`. -/
def fromBytes (E : Ctx) (buffer : Ptr) (size : Nat) (error : Ptr) : Prog Ptr := do
  setU8 error 0
  if buffer = 0 ∧ size ≠ 0 then
    setU8 error CApi.ERROR_INVALID_FORMAT
    pure 0
  else
    let b ← inputBytes buffer size
    match ← rust (Graph.tryFrom E.P b) with
    | some g => boxNew (.graph g)
    | none =>
      setU8 error CApi.ERROR_INVALID_FORMAT
      pure 0

/-- `gphrx_duplicate`. `lib.rs:191-201`. -/
def duplicate (p : Ptr) : Prog Ptr := do
  match ← graphRef p with
  | none => pure 0
  | some g => boxNew (.graph g)

/-- `gphrx_matrix_string`. `lib.rs:204-216`. -/
def matrixString (E : Ctx) (p : Ptr) : Prog Ptr := do
  match ← graphRef p with
  | none => pure 0
  | some g => cstringOrNull (← rust (g.matrixString E.P))

/-- `gphrx_to_bytes`. `lib.rs:219-230`. -/
def toBytes (E : Ctx) (p : Ptr) (size : Ptr) : Prog Ptr := do
  setUsize size 0
  match ← graphRef p with
  | none => pure 0
  | some g =>
    match ← rust (g.toBytes E.P E.o₁) with
    | some b => boxedBytesToRaw b size
    | none => pure 0

/-- `gphrx_is_undirected`. `lib.rs:233-243`. -/
def isUndirected (p : Ptr) : Prog Nat := do
  match ← graphRef p with
  | none => pure (CApi.cBool false)
  | some g => pure (CApi.cBool g.isUndirected)

/-- `gphrx_vertex_count`. `lib.rs:246-252`. -/
def vertexCount (p : Ptr) : Prog Nat := do
  match ← graphRef p with
  | none => pure 0
  | some g => pure g.vertexCount

/-- `gphrx_edge_count`. `lib.rs:255-261`. -/
def edgeCount (p : Ptr) : Prog Nat := do
  match ← graphRef p with
  | none => pure 0
  | some g => pure g.edgeCount

/-- `gphrx_does_edge_exist`. `lib.rs:264-278`. -/
def doesEdgeExist (p : Ptr) (u v : Nat) : Prog Nat := do
  match ← graphRef p with
  | none => pure (CApi.cBool false)
  | some g => pure (CApi.cBool (g.doesEdgeExist u v))

/-- `gphrx_find_avg_pool_matrix`. `lib.rs:281-296`. -/
def findAvgPoolMatrix (E : Ctx) (p : Ptr) (b : Nat) : Prog Ptr := do
  match ← graphRef p with
  | none => pure 0
  | some g => boxNew (.matrix (← rustTotal (g.findAvgPoolMatrix E.P E.o₁ b)))

/-- `gphrx_approximate`. `lib.rs:299-315`. -/
def approximate (E : Ctx) (p : Ptr) (b : Nat) (t : F64) : Prog Ptr := do
  match ← graphRef p with
  | none => pure 0
  | some g => boxNew (.graph (← rustTotal (g.approximate E.P E.o₁ E.o₂ b t)))

/-- `gphrx_compress`. `lib.rs:318-333`. -/
def compress (E : Ctx) (p : Ptr) (level : Nat) : Prog Ptr := do
  match ← graphRef p with
  | none => pure 0
  | some g => boxNew (.cgraph (← rustTotal (g.compress E.P E.o₁ E.o₂ level)))

/-- `gphrx_get_edge_list`. `lib.rs:336-359`. -/
def getEdgeList (E : Ctx) (p : Ptr) (length : Ptr) : Prog Ptr := do
  setUsize length 0
  match ← graphRef p with
  | none => pure 0
  | some g =>
    let edges := g.items E.o₁
    setUsize length edges.length
    boxNew (.edges edges)

/-- `gphrx_add_vertex`. `lib.rs:362-388`. -/
def addVertex (p : Ptr) (v : Nat) (tos : Ptr) (toLen : Nat) : Prog Unit := do
  match ← graphRef p with
  | none => pure ()
  | some g =>
    if tos = 0 ∧ toLen ≠ 0 then pure ()
    else if toLen = 0 then writeGraph p (g.addVertex v none)
    else do
      let l ← readU64s tos toLen
      writeGraph p (g.addVertex v (some l))

/-- `gphrx_add_edge`. `lib.rs:391-397`. -/
def addEdge (p : Ptr) (u v : Nat) : Prog Unit := do
  match ← graphRef p with
  | none => pure ()
  | some g => writeGraph p (g.addEdge u v)

/-- `gphrx_delete_edge`. `lib.rs:400-410`. -/
def deleteEdge (p : Ptr) (u v : Nat) : Prog Unit := do
  match ← graphRef p with
  | none => pure ()
  | some g => writeGraph p (g.deleteEdge u v)

/-- `gphrx_get_vertex_in_edges_list`. `lib.rs:413-435`. -/
def getInEdgesList (E : Ctx) (p : Ptr) (v : Nat) (length : Ptr) : Prog Ptr := do
  setUsize length 0
  match ← graphRef p with
  | none => pure 0
  | some g =>
    let l := g.getVertexInEdges E.o₁ v
    setUsize length l.length
    boxNew (.vertices l)

/-- `gphrx_get_vertex_out_edges_list`. `lib.rs:438-460`. -/
def getOutEdgesList (E : Ctx) (p : Ptr) (v : Nat) (length : Ptr) : Prog Ptr := do
  setUsize length 0
  match ← graphRef p with
  | none => pure 0
  | some g =>
    let l := g.getVertexOutEdges E.o₁ v
    setUsize length l.length
    boxNew (.vertices l)

/-- `gphrx_get_vertex_in_degree`. `lib.rs:463-469`. -/
def getInDegree (p : Ptr) (v : Nat) : Prog Nat := do
  match ← graphRef p with
  | none => pure 0
  | some g => pure (g.getVertexInDegree v)

/-- `gphrx_get_vertex_out_degree`. `lib.rs:472-478`. -/
def getOutDegree (p : Ptr) (v : Nat) : Prog Nat := do
  match ← graphRef p with
  | none => pure 0
  | some g => pure (g.getVertexOutDegree v)

/-- `free_gphrx_compressed_graph`. `lib.rs:482-487`. -/
def freeCGraph (p : Ptr) : Prog Unit := freeObj (fun x => match x with | .cgraph _ => true | _ => false) p

/-- `gphrx_compressed_graph_duplicate`. `lib.rs:490-502`. -/
def cDuplicate (p : Ptr) : Prog Ptr := do
  match ← cgraphRef p with
  | none => pure 0
  | some g => boxNew (.cgraph g)

/-- `gphrx_compressed_graph_compression_level`. `lib.rs:505-513`. -/
def cCompressionLevel (p : Ptr) : Prog Nat := do
  match ← cgraphRef p with
  | none => pure 0
  | some g => pure g.compressionLevel

/-- `gphrx_compressed_graph_is_undirected`. `lib.rs:516-528`. -/
def cIsUndirected (p : Ptr) : Prog Nat := do
  match ← cgraphRef p with
  | none => pure (CApi.cBool false)
  | some g => pure (CApi.cBool g.isUndirected)

/-- `gphrx_compressed_graph_vertex_count`. `lib.rs:531-537`. -/
def cVertexCount (p : Ptr) : Prog Nat := do
  match ← cgraphRef p with
  | none => pure 0
  | some g => pure g.vertexCount

/-- `gphrx_compressed_graph_edge_count`. `lib.rs:540-546`. -/
def cEdgeCount (p : Ptr) : Prog Nat := do
  match ← cgraphRef p with
  | none => pure 0
  | some g => pure g.edgeCount

/-- `gphrx_compressed_graph_does_edge_exist`. `lib.rs:549-563`. -/
def cDoesEdgeExist (p : Ptr) (u v : Nat) : Prog Nat := do
  match ← cgraphRef p with
  | none => pure (CApi.cBool false)
  | some g => pure (CApi.cBool (g.doesEdgeExist u v))

/-- `gphrx_get_compressed_matrix_entry`. `lib.rs:566-576`. -/
def cGetEntry (p : Ptr) (col row : Nat) : Prog Nat := do
  match ← cgraphRef p with
  | none => pure 0
  | some g => pure (g.getCompressedMatrixEntry col row)

/-- `gphrx_compressed_graph_matrix_string`. `lib.rs:579-593`. -/
def cMatrixString (E : Ctx) (p : Ptr) : Prog Ptr := do
  match ← cgraphRef p with
  | none => pure 0
  | some g => cstringOrNull (← rust (g.matrixString E.P E.o₁ E.o₂))

/-- `gphrx_compressed_graph_to_bytes`. `lib.rs:596-610`. -/
def cToBytes (E : Ctx) (p : Ptr) (size : Ptr) : Prog Ptr := do
  setUsize size 0
  match ← cgraphRef p with
  | none => pure 0
  | some g =>
    match ← rust (g.toBytes E.P E.o₁) with
    | some b => boxedBytesToRaw b size
    | none => pure 0

/-- `gphrx_compressed_graph_from_bytes`. `lib.rs:613-650`. -/
def cFromBytes (E : Ctx) (buffer : Ptr) (size : Nat) (error : Ptr) : Prog Ptr := do
  setU8 error 0
  if buffer = 0 ∧ size ≠ 0 then
    setU8 error CApi.ERROR_INVALID_FORMAT
    pure 0
  else
    let b ← inputBytes buffer size
    match ← rust (CGraph.tryFrom E.P b) with
    | some g => boxNew (.cgraph g)
    | none =>
      setU8 error CApi.ERROR_INVALID_FORMAT
      pure 0

/-- `gphrx_decompress`. `lib.rs:653-665`. -/
def decompress (E : Ctx) (p : Ptr) : Prog Ptr := do
  match ← cgraphRef p with
  | none => pure 0
  | some g => boxNew (.graph (← rustTotal (g.decompress E.P E.o₁)))

/-- `free_gphrx_matrix`. `lib.rs:669-677`. -/
def freeMatrix (p : Ptr) : Prog Unit := freeObj (fun x => match x with | .matrix _ => true | _ => false) p

/-- `gphrx_matrix_duplicate`. `lib.rs:680-692`. -/
def mDuplicate (p : Ptr) : Prog Ptr := do
  match ← matrixRef p with
  | none => pure 0
  | some m => boxNew (.matrix m)

/-- `free_gphrx_matrix_entry_list`. `lib.rs:695-700`. -/
def freeEntryList (p : Ptr) (n : Nat) : Prog Unit :=
  freeObj (fun x => match x with | .entries l => l.length == n | _ => false) p

/-- `gphrx_matrix_dimension`. `lib.rs:703-709`. -/
def mDimension (p : Ptr) : Prog Nat := do
  match ← matrixRef p with
  | none => pure 0
  | some m => pure m.dimension

/-- `gphrx_matrix_entry_count`. `lib.rs:712-718`. -/
def mEntryCount (p : Ptr) : Prog Nat := do
  match ← matrixRef p with
  | none => pure 0
  | some m => pure m.entryCount

/-- `gphrx_matrix_get_entry`. `lib.rs:721-731`. -/
def mGetEntry (p : Ptr) (col row : Nat) : Prog F64 := do
  match ← matrixRef p with
  | none => pure (F64.lit 0)
  | some m => pure (m.getEntry f64Numeric col row)

/-- `gphrx_matrix_to_string`. `lib.rs:734-742`. -/
def mToString (E : Ctx) (p : Ptr) : Prog Ptr := do
  match ← matrixRef p with
  | none => pure 0
  | some m => cstringOrNull (some (← rustTotal (m.toText E.P f64Fmt E.o₁ E.o₂)))

/-- `gphrx_matrix_to_string_with_precision`. `lib.rs:745-760`. -/
def mToStringWithPrecision (E : Ctx) (p : Ptr) (d : Nat) : Prog Ptr := do
  match ← matrixRef p with
  | none => pure 0
  | some m => cstringOrNull (← rust (m.toStringWithPrecision E.P f64Fmt E.o₁ E.o₂ d))

/-- `gphrx_matrix_get_entry_list`. `lib.rs:763-783`. -/
def mGetEntryList (E : Ctx) (p : Ptr) (length : Ptr) : Prog Ptr := do
  setUsize length 0
  match ← matrixRef p with
  | none => pure 0
  | some m =>
    let l := m.items E.o₁
    setUsize length l.length
    boxNew (.entries l)

end CSteps

/-- The steps of a call: dispatch to the functions above. -/
def Call.prog (E : Ctx) : Call → Prog Val
  | .freeString p => (CSteps.freeString p).map (fun _ => .unit)
  | .freeBytes p n => (CSteps.freeBytes p n).map (fun _ => .unit)
  | .freeGraph p => (CSteps.freeGraph p).map (fun _ => .unit)
  | .freeEdgeList p n => (CSteps.freeEdgeList p n).map (fun _ => .unit)
  | .freeVertexList p n => (CSteps.freeVertexList p n).map (fun _ => .unit)
  | .newUndirected => CSteps.newUndirected.map .ptr
  | .newDirected => CSteps.newDirected.map .ptr
  | .fromBytes buffer size error => (CSteps.fromBytes E buffer size error).map .ptr
  | .duplicate p => (CSteps.duplicate p).map .ptr
  | .matrixString p => (CSteps.matrixString E p).map .ptr
  | .toBytes p size => (CSteps.toBytes E p size).map .ptr
  | .isUndirected p => (CSteps.isUndirected p).map .num
  | .vertexCount p => (CSteps.vertexCount p).map .num
  | .edgeCount p => (CSteps.edgeCount p).map .num
  | .doesEdgeExist p u v => (CSteps.doesEdgeExist p u v).map .num
  | .findAvgPoolMatrix p b => (CSteps.findAvgPoolMatrix E p b).map .ptr
  | .approximate p b t => (CSteps.approximate E p b t).map .ptr
  | .compress p level => (CSteps.compress E p level).map .ptr
  | .getEdgeList p length => (CSteps.getEdgeList E p length).map .ptr
  | .addVertex p v tos toLen => (CSteps.addVertex p v tos toLen).map (fun _ => .unit)
  | .addEdge p u v => (CSteps.addEdge p u v).map (fun _ => .unit)
  | .deleteEdge p u v => (CSteps.deleteEdge p u v).map (fun _ => .unit)
  | .getInEdgesList p v length => (CSteps.getInEdgesList E p v length).map .ptr
  | .getOutEdgesList p v length => (CSteps.getOutEdgesList E p v length).map .ptr
  | .getInDegree p v => (CSteps.getInDegree p v).map .num
  | .getOutDegree p v => (CSteps.getOutDegree p v).map .num
  | .freeCGraph p => (CSteps.freeCGraph p).map (fun _ => .unit)
  | .cDuplicate p => (CSteps.cDuplicate p).map .ptr
  | .cCompressionLevel p => (CSteps.cCompressionLevel p).map .num
  | .cIsUndirected p => (CSteps.cIsUndirected p).map .num
  | .cVertexCount p => (CSteps.cVertexCount p).map .num
  | .cEdgeCount p => (CSteps.cEdgeCount p).map .num
  | .cDoesEdgeExist p u v => (CSteps.cDoesEdgeExist p u v).map .num
  | .cGetEntry p col row => (CSteps.cGetEntry p col row).map .num
  | .cMatrixString p => (CSteps.cMatrixString E p).map .ptr
  | .cToBytes p size => (CSteps.cToBytes E p size).map .ptr
  | .cFromBytes buffer size error => (CSteps.cFromBytes E buffer size error).map .ptr
  | .decompress p => (CSteps.decompress E p).map .ptr
  | .freeMatrix p => (CSteps.freeMatrix p).map (fun _ => .unit)
  | .mDuplicate p => (CSteps.mDuplicate p).map .ptr
  | .freeEntryList p n => (CSteps.freeEntryList p n).map (fun _ => .unit)
  | .mDimension p => (CSteps.mDimension p).map .num
  | .mEntryCount p => (CSteps.mEntryCount p).map .num
  | .mGetEntry p col row => (CSteps.mGetEntry p col row).map .f64
  | .mToString p => (CSteps.mToString E p).map .ptr
  | .mToStringWithPrecision p d => (CSteps.mToStringWithPrecision E p d).map .ptr
  | .mGetEntryList p length => (CSteps.mGetEntryList E p length).map .ptr


end Verif
