import Verif.Model.CApi
import Verif.Spec.AGraph

/-!
# Specification of the C interface

A memory is a partial function from addresses to objects.  Three tables say which value a query has (`answer`), which
object a call creates (`makes`) and which edit it performs (`edit?`), in terms of the Rust interface; `Meaning` says what that
does to the memory.
-/

namespace Verif.Spec

/-- Abstract memory. -/
abbrev Mem := Ptr → Option Obj

/-- Changing one address. -/
def Mem.put (M : Mem) (p : Ptr) (x : Option Obj) : Mem := fun q => if q = p then x else M q

/-- Writing a number to an out-parameter, unless it is null. -/
def Mem.putSize (M : Mem) (out : Ptr) (n : Nat) : Mem := if out = 0 then M else M.put out (some (.callerUsize n))

/-- Writing an error code, unless the pointer is null. -/
def Mem.putError (M : Mem) (out : Ptr) (n : Nat) : Mem := if out = 0 then M else M.put out (some (.callerU8 n))

/-- Memory that belongs to the calling program. -/
def _root_.Verif.Obj.isCaller : Obj → Bool
  | .callerUsize _ | .callerU8 _ | .callerBytes _ | .callerU64s _ => true
  | _ => false

/-- Kinds of handles. -/
inductive Kind where
  | graph | cgraph | matrix
  deriving DecidableEq

/-- The kind of an object that lives behind a handle. -/
def _root_.Verif.Obj.kind : Obj → Option Kind
  | .graph _ => some .graph
  | .cgraph _ => some .cgraph
  | .matrix _ => some .matrix
  | _ => none

/-- Number of elements of a buffer. -/
def _root_.Verif.Obj.size : Obj → Nat
  | .bytes b => b.length
  | .edges l => l.length
  | .vertices l => l.length
  | .entries l => l.length
  | _ => 0

/-- The handle a call works on, and its kind (frees and constructors have none). -/
def _root_.Verif.Call.handle : Call → Option (Ptr × Kind)
  | .duplicate p => some (p, .graph)
  | .matrixString p => some (p, .graph)
  | .toBytes p _ => some (p, .graph)
  | .isUndirected p => some (p, .graph)
  | .vertexCount p => some (p, .graph)
  | .edgeCount p => some (p, .graph)
  | .doesEdgeExist p _ _ => some (p, .graph)
  | .findAvgPoolMatrix p _ => some (p, .graph)
  | .approximate p _ _ => some (p, .graph)
  | .compress p _ => some (p, .graph)
  | .getEdgeList p _ => some (p, .graph)
  | .addVertex p _ _ _ => some (p, .graph)
  | .addEdge p _ _ => some (p, .graph)
  | .deleteEdge p _ _ => some (p, .graph)
  | .getInEdgesList p _ _ => some (p, .graph)
  | .getOutEdgesList p _ _ => some (p, .graph)
  | .getInDegree p _ => some (p, .graph)
  | .getOutDegree p _ => some (p, .graph)
  | .cDuplicate p => some (p, .cgraph)
  | .cCompressionLevel p => some (p, .cgraph)
  | .cIsUndirected p => some (p, .cgraph)
  | .cVertexCount p => some (p, .cgraph)
  | .cEdgeCount p => some (p, .cgraph)
  | .cDoesEdgeExist p _ _ => some (p, .cgraph)
  | .cGetEntry p _ _ => some (p, .cgraph)
  | .cMatrixString p => some (p, .cgraph)
  | .cToBytes p _ => some (p, .cgraph)
  | .decompress p => some (p, .cgraph)
  | .mDuplicate p => some (p, .matrix)
  | .mDimension p => some (p, .matrix)
  | .mEntryCount p => some (p, .matrix)
  | .mGetEntry p _ _ => some (p, .matrix)
  | .mToString p => some (p, .matrix)
  | .mToStringWithPrecision p _ => some (p, .matrix)
  | .mGetEntryList p _ => some (p, .matrix)
  | _ => none

/-- The size or length out-parameter (null if there is none). -/
def _root_.Verif.Call.out : Call → Ptr
  | .toBytes _ out => out
  | .getEdgeList _ out => out
  | .getInEdgesList _ _ out => out
  | .getOutEdgesList _ _ out => out
  | .cToBytes _ out => out
  | .mGetEntryList _ out => out
  | _ => 0

/-- The value returned for a null handle. -/
def _root_.Verif.Call.neutral : Call → Val
  | .isUndirected _ => .num 0
  | .vertexCount _ => .num 0
  | .edgeCount _ => .num 0
  | .doesEdgeExist _ _ _ => .num 0
  | .addVertex _ _ _ _ => .unit
  | .addEdge _ _ _ => .unit
  | .deleteEdge _ _ _ => .unit
  | .getInDegree _ _ => .num 0
  | .getOutDegree _ _ => .num 0
  | .cCompressionLevel _ => .num 0
  | .cIsUndirected _ => .num 0
  | .cVertexCount _ => .num 0
  | .cEdgeCount _ => .num 0
  | .cDoesEdgeExist _ _ _ => .num 0
  | .cGetEntry _ _ _ => .num 0
  | .mDimension _ => .num 0
  | .mEntryCount _ => .num 0
  | .mGetEntry _ _ _ => .f64 (.fin 0)
  | _ => .ptr 0

/-- The C booleans. -/
def cbool : Bool → Val
  | true => .num 1
  | false => .num 0

/-- Queries with a plain value: what the Rust method returns. -/
def _root_.Verif.Call.answer : Call → Obj → Option Val
  | .isUndirected _, .graph g => some (cbool g.isUndirected)
  | .vertexCount _, .graph g => some (.num g.vertexCount)
  | .edgeCount _, .graph g => some (.num g.edgeCount)
  | .doesEdgeExist _ u v, .graph g => some (cbool (g.doesEdgeExist u v))
  | .getInDegree _ v, .graph g => some (.num (g.getVertexInDegree v))
  | .getOutDegree _ v, .graph g => some (.num (g.getVertexOutDegree v))
  | .cCompressionLevel _, .cgraph g => some (.num g.compressionLevel)
  | .cIsUndirected _, .cgraph g => some (cbool g.isUndirected)
  | .cVertexCount _, .cgraph g => some (.num g.vertexCount)
  | .cEdgeCount _, .cgraph g => some (.num g.edgeCount)
  | .cDoesEdgeExist _ u v, .cgraph g => some (cbool (g.doesEdgeExist u v))
  | .cGetEntry _ c r, .cgraph g => some (.num (g.getCompressedMatrixEntry c r))
  | .mDimension _, .matrix m => some (.num m.dimension)
  | .mEntryCount _, .matrix m => some (.num m.entryCount)
  | .mGetEntry _ c r, .matrix m => some (.f64 (m.getEntry f64Numeric c r))
  | _, _ => none

/-- A Rust string becomes a C string, if it contains no zero character. -/
def cstr (s : Res (List Char)) : Res Obj :=
  match s with
  | .ok s => if Char.ofNat 0 ∈ s then .err (.InvalidFormat "") else .ok (.cstring s)
  | .err e => .err e
  | .panic => .panic

/-- `to_string()` has no error case. -/
def plainText (x : Res (List Char)) : Res (List Char) :=
  match x with
  | .ok a => .ok a
  | _ => .panic

/-- Rust methods whose type has no error case. -/
def plain {α : Type} (f : α → Obj) (x : Res α) : Res Obj :=
  match x with
  | .ok a => .ok (f a)
  | _ => .panic

/-- Calls returning a new object: what the Rust method returns. -/
def _root_.Verif.Call.makes (E : Ctx) : Call → Obj → Option (Res Obj)
  | .duplicate _, .graph g => some (.ok (.graph g))
  | .matrixString _, .graph g => some (cstr (g.matrixString E.P))
  | .toBytes _ _, .graph g => some ((g.toBytes E.P E.o₁).map .bytes)
  | .findAvgPoolMatrix _ b, .graph g => some (plain .matrix (g.findAvgPoolMatrix E.P E.o₁ b))
  | .approximate _ b t, .graph g => some (plain .graph (g.approximate E.P E.o₁ E.o₂ b t))
  | .compress _ l, .graph g => some (plain .cgraph (g.compress E.P E.o₁ E.o₂ l))
  | .getEdgeList _ _, .graph g => some (.ok (.edges (g.items E.o₁)))
  | .getInEdgesList _ v _, .graph g => some (.ok (.vertices (g.getVertexInEdges E.o₁ v)))
  | .getOutEdgesList _ v _, .graph g => some (.ok (.vertices (g.getVertexOutEdges E.o₁ v)))
  | .cDuplicate _, .cgraph g => some (.ok (.cgraph g))
  | .cMatrixString _, .cgraph g => some (cstr (g.matrixString E.P E.o₁ E.o₂))
  | .cToBytes _ _, .cgraph g => some ((g.toBytes E.P E.o₁).map .bytes)
  | .decompress _, .cgraph g => some (plain .graph (g.decompress E.P E.o₁))
  | .mDuplicate _, .matrix m => some (.ok (.matrix m))
  | .mToString _, .matrix m => some (cstr (plainText (m.toText E.P f64Fmt E.o₁ E.o₂)))
  | .mToStringWithPrecision _ d, .matrix m => some (cstr (m.toStringWithPrecision E.P f64Fmt E.o₁ E.o₂ d))
  | .mGetEntryList _ _, .matrix m => some (.ok (.entries (m.items E.o₁)))
  | _, _ => none

/-- The bytes that the calling program passes. -/
def bytesAt (M : Mem) (p : Ptr) (n : Nat) : Option Bytes :=
  if n = 0 then some [] else
    match M p with
    | some (.callerBytes b) => if n ≤ b.length then some (b.take n) else none
    | some (.bytes b) => if n ≤ b.length then some (b.take n) else none
    | _ => none

/-- The vertex list that the calling program passes; null stands for no list. -/
def listAt (M : Mem) (p : Ptr) (n : Nat) : Option (Option (List Nat)) :=
  if n = 0 then some none else
    match M p with
    | some (.callerU64s l) => if n ≤ l.length then some (some (l.take n)) else none
    | some (.vertices l) => if n ≤ l.length then some (some (l.take n)) else none
    | _ => none

/-- The edit that a call makes on the graph behind `p`. -/
def _root_.Verif.Call.edit? (M : Mem) : Call → Option Edit
  | .addEdge _ u v => some (.addEdge u v)
  | .deleteEdge _ u v => some (.deleteEdge u v)
  | .addVertex _ v tos n => if tos = 0 ∧ n ≠ 0 then none else (listAt M tos n).map (.addVertex v)
  | _ => none

/-- What a decoding call would decode, and the error pointer. -/
def _root_.Verif.Call.decodes (E : Ctx) : Call → Option (Ptr × Nat × Ptr × (Bytes → Res Obj))
  | .fromBytes p n e => some (p, n, e, fun b => (Graph.tryFrom E.P b).map .graph)
  | .cFromBytes p n e => some (p, n, e, fun b => (CGraph.tryFrom E.P b).map .cgraph)
  | _ => none

/-- The pointer that a call frees and whether the object is one that it may free. -/
def _root_.Verif.Call.frees : Call → Option (Ptr × (Obj → Prop))
  | .freeString p => some (p, fun x => ∃ s, x = .cstring s)
  | .freeBytes p n => some (p, fun x => ∃ b, x = .bytes b ∧ n = b.length)
  | .freeGraph p => some (p, fun x => ∃ g, x = .graph g)
  | .freeEdgeList p n => some (p, fun x => ∃ l, x = .edges l ∧ n = l.length)
  | .freeVertexList p n => some (p, fun x => ∃ l, x = .vertices l ∧ n = l.length)
  | .freeCGraph p => some (p, fun x => ∃ g, x = .cgraph g)
  | .freeMatrix p => some (p, fun x => ∃ m, x = .matrix m)
  | .freeEntryList p n => some (p, fun x => ∃ l, x = .entries l ∧ n = l.length)
  | _ => none

/-- What a call that returns does: the value `v` is returned and the memory changes from `M` to `M'`. -/
inductive Meaning (E : Ctx) : Call → Mem → Val → Mem → Prop
  /-- Null handles. -/
  | null {c k M} : c.handle = some (0, k) → Meaning E c M c.neutral (M.putSize c.out 0)
  /-- Queries. -/
  | answered {c p k M x v} : c.handle = some (p, k) → p ≠ 0 → M p = some x → c.answer x = some v → Meaning E c M v M
  /-- A new object, at an address that was not in use; its size is stored. -/
  | created {c p k M x y q} : c.handle = some (p, k) → p ≠ 0 → M p = some x → c.makes E x = some (.ok y) →
      q ≠ 0 → M q = none → Meaning E c M (.ptr q) ((M.putSize c.out y.size).put q (some y))
  /-- The Rust method reports an error: null. -/
  | refused {c p k M x e} : c.handle = some (p, k) → p ≠ 0 → M p = some x → c.makes E x = some (.err e) →
      Meaning E c M (.ptr 0) (M.putSize c.out 0)
  /-- An edit of one graph. -/
  | edited {c p k M g e} : c.handle = some (p, k) → p ≠ 0 → M p = some (.graph g) → c.edit? M = some e →
      Meaning E c M .unit (M.put p (some (.graph (e.call g))))
  /-- `add_vertex` with a null list of non-zero length. -/
  | ignored {p v n M} : n ≠ 0 → p ≠ 0 → Meaning E (.addVertex p v 0 n) M .unit M
  | newUndirected {M q} : q ≠ 0 → M q = none →
      Meaning E .newUndirected M (.ptr q) (M.put q (some (.graph Graph.newUndirected)))
  | newDirected {M q} : q ≠ 0 → M q = none →
      Meaning E .newDirected M (.ptr q) (M.put q (some (.graph Graph.newDirected)))
  /-- Accepted bytes. -/
  | decoded {c p n e f b y q M} : c.decodes E = some (p, n, e, f) → (p = 0 → n = 0) → bytesAt M p n = some b →
      f b = .ok y → q ≠ 0 → M q = none → Meaning E c M (.ptr q) ((M.putError e 0).put q (some y))
  /-- Rejected bytes. -/
  | rejected {c p n e f b err M} : c.decodes E = some (p, n, e, f) → (p = 0 → n = 0) → bytesAt M p n = some b →
      f b = .err err → Meaning E c M (.ptr 0) (M.putError e 1)
  /-- Missing bytes. -/
  | missing {c n e f M} : c.decodes E = some (0, n, e, f) → n ≠ 0 → Meaning E c M (.ptr 0) (M.putError e 1)
  | freeNull {c ok M} : c.frees = some (0, ok) → Meaning E c M .unit M
  | freed {c p ok x M} : c.frees = some (p, ok) → p ≠ 0 → M p = some x → ok x → Meaning E c M .unit (M.put p none)

/-- The calling program keeps its side of the contract: handles are null or alive and of the right kind, out-parameters are
null or point to a cell of the right type, buffers are as long as stated, and objects are freed with the function for
their kind and the length that belongs to them. -/
structure Valid (M : Mem) (c : Call) : Prop where
  handle : ∀ p k, c.handle = some (p, k) → p = 0 ∨ ∃ x, M p = some x ∧ x.kind = some k
  out : c.out = 0 ∨ ∃ n, M c.out = some (.callerUsize n)
  list : ∀ p v tos n, c = .addVertex p v tos n → p = 0 ∨ tos = 0 ∨ ∃ l, listAt M tos n = some l
  input : ∀ E p n e f, c.decodes E = some (p, n, e, f) →
    (p = 0 ∨ ∃ b, bytesAt M p n = some b) ∧ (e = 0 ∨ ∃ x, M e = some (.callerU8 x))
  free : ∀ p ok, c.frees = some (p, ok) → p = 0 ∨ ∃ x, M p = some x ∧ ok x

/-- The Rust method behind the call panics. -/
def Panics (E : Ctx) (M : Mem) (c : Call) : Prop :=
  (∃ p k x, c.handle = some (p, k) ∧ p ≠ 0 ∧ M p = some x ∧ c.makes E x = some .panic) ∨
  (∃ p n e f b, c.decodes E = some (p, n, e, f) ∧ (p = 0 → n = 0) ∧ bytesAt M p n = some b ∧ f b = .panic)

/-- Addresses whose content a call may change: what it frees, the graph it edits, its out-parameters. -/
def _root_.Verif.Call.writes : Call → List Ptr
  | .addVertex p _ _ _ | .addEdge p _ _ | .deleteEdge p _ _ => [p]
  | .fromBytes _ _ e | .cFromBytes _ _ e => [e]
  | .freeString p | .freeBytes p _ | .freeGraph p | .freeEdgeList p _ | .freeVertexList p _ | .freeCGraph p
  | .freeMatrix p | .freeEntryList p _ => [p]
  | c => [c.out]

/-- One step of a C program: a call of the library (with the memory before it and the value returned), or the program
writing to memory of its own. -/
inductive Event where
  | call (E : Ctx) (c : Call) (before : Mem) (v : Val)
  | own (p : Ptr)

/-- Executions of C programs: calls of the library that return, in any order and with any arguments, and changes
of memory that belongs to the program (allocating, writing, freeing it). -/
inductive Run : Heap → List Event → Heap → Prop
  | nil {h} : Run h [] h
  | call {h h' h'' E c v t} : c.exec E h = .ok v h' → Run h' t h'' → Run h (.call E c h.get? v :: t) h''
  | write {h h'' p x t} : p ≠ 0 → (∀ y, h.get? p = some y → y.isCaller = true) → x.isCaller = true →
      Run (h.insert p x) t h'' → Run h (.own p :: t) h''
  | drop {h h'' p t} : (∀ y, h.get? p = some y → y.isCaller = true) →
      Run (h.remove p) t h'' → Run h (.own p :: t) h''

/-- The event frees the object at `p`. -/
def Event.Frees (p : Ptr) : Event → Prop
  | .call _ c _ _ => ∃ ok, c.frees = some (p, ok)
  | .own _ => False

/-- The edit that the event makes on the graph behind `p`. -/
def Event.editOf (p : Ptr) : Event → Option Edit
  | .call _ c before _ => if (c.handle.map Prod.fst) = some p then c.edit? before else none
  | .own _ => none

/-- An object after a history of edits: only graphs can be edited. -/
def _root_.Verif.Obj.after (es : List Edit) : Obj → Obj
  | .graph g => .graph (es.foldl Edit.call g)
  | x => x

/-- The edits made through the handle `p` during the run. -/
def editsOf (p : Ptr) (t : List Event) : List Edit := t.filterMap (Event.editOf p)

end Verif.Spec
