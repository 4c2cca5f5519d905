import Verif.Spec.TextRoom
import Verif.Model.Py
import Verif.Spec.AGraph
import Verif.Spec.Blocks

/-!
# Specification of the Python wrapper

Python objects are plain values: there is no memory, no handle and no allocation.  `AObj.means` says what a method returns, in terms
of the Rust interface.  Integers are taken modulo `2^64` (or the word size), as `ctypes` does.
-/

namespace Verif.Spec

/-- Python objects as values.  An iterator knows its list (by number) and its position. -/
inductive AObj where
  | graph (g : Graph)
  | cgraph (g : CGraph)
  | matrix (m : SqMatrix F64)
  | edges (l : List (Nat × Nat))
  | vertices (l : List Nat)
  | entries (l : List (F64 × Nat × Nat))
  | iter (list pos : Nat)

/-- All objects created so far; `none` for those that were collected. -/
abbrev AWorld := List (Option AObj)

/-- What a method does: returns a value, returns a new object, changes the object itself and returns a value, raises an
exception, or the Rust code panics. -/
inductive AOut where
  | val (v : PyVal)
  | new (a : AObj)
  | step (a : AObj) (v : PyVal)
  | raises (e : PyExc)
  | panics

/-- The elements of a list as Python values. -/
def AObj.items : AObj → Option (List PyVal)
  | .edges l => some (l.map fun e => .edge e.1 e.2)
  | .vertices l => some (l.map .int)
  | .entries l => some (l.map fun e => .entry e.1 e.2.1 e.2.2)
  | _ => none

/-- An integer as a vertex id or a size: modulo `2^64`. -/
def toId (i : Int) : Nat := (i % 18446744073709551616).toNat

/-- A number of decimals: modulo the size of `size_t`. -/
def toSize (P : Platform) (i : Int) : Nat := (i % ((P.usizeMax : Int) + 1)).toNat

/-- The nearest compression level in `1..64`. -/
def clampLevel (l : Int) : Nat := (max 1 (min 64 l)).toNat

/-- The result of a Rust method that returns an object and has no error case. -/
def AOut.made {α : Type} (f : α → AObj) : Res α → AOut
  | .ok a => .new (f a)
  | _ => .panics

/-- The result of a method that returns a string: an error (or a string containing a zero) raises `AttributeError`. -/
def AOut.text : Res (List Char) → AOut
  | .ok s => if Char.ofNat 0 ∈ s then .raises .AttributeError else .val (.str s)
  | .err _ => .raises .AttributeError
  | .panic => .panics

/-- The result of `bytes(x)`: an error gives no bytes. -/
def AOut.bytes : Res Bytes → AOut
  | .ok b => .val (.bytes b)
  | .err _ => .val (.bytes [])
  | .panic => .panics

/-- `l[idx]`: negative indices are taken modulo the length, but never as 0. -/
def AOut.item (l : List PyVal) (idx : Int) : AOut :=
  if (l.length : Int) ≤ idx then .raises .IndexError
  else if 0 ≤ idx then (l[idx.toNat]?).elim .panics .val
  else if l.length = 0 then .raises .ZeroDivisionError
  else (l[l.length - max (idx.natAbs % l.length) 1]?).elim .panics .val

/-- The meaning of a method of the object number `self`. -/
def AObj.means (E : Ctx) (a : AWorld) (self : Nat) : AObj → Method → AOut
  | .graph g, .bytes => .bytes (g.toBytes E.P E.o₁)
  | .graph g, .duplicate => .new (.graph g)
  | .graph g, .matrixString => .text (g.matrixString E.P)
  | .graph g, .isUndirected => .val (.bool g.isUndirected)
  | .graph g, .vertexCount => .val (.int g.vertexCount)
  | .graph g, .edgeCount => .val (.int g.edgeCount)
  | .graph g, .doesEdgeExist u v => .val (.bool (g.doesEdgeExist (toId u) (toId v)))
  | .graph g, .addVertex v tos => .step (.graph ((Edit.addVertex (toId v) (tos.map (List.map toId))).call g)) .none
  | .graph g, .addEdge u v => .step (.graph ((Edit.addEdge (toId u) (toId v)).call g)) .none
  | .graph g, .deleteEdge u v => .step (.graph ((Edit.deleteEdge (toId u) (toId v)).call g)) .none
  | .graph g, .findAvgPoolMatrix b => .made .matrix (g.findAvgPoolMatrix E.P E.o₁ (toId b))
  | .graph g, .approximate b t => .made .graph (g.approximate E.P E.o₁ E.o₂ (toId b) t)
  | .graph g, .compress l => .made .cgraph (g.compress E.P E.o₁ E.o₂ (clampLevel l))
  | .graph g, .edgeList => .new (.edges (g.items E.o₁))
  | .graph g, .vertexInEdges v => .new (.vertices (g.getVertexInEdges E.o₁ (toId v)))
  | .graph g, .vertexOutEdges v => .new (.vertices (g.getVertexOutEdges E.o₁ (toId v)))
  | .graph g, .vertexInDegree v => .val (.int (g.getVertexInDegree (toId v)))
  | .graph g, .vertexOutDegree v => .val (.int (g.getVertexOutDegree (toId v)))
  | .cgraph g, .bytes => .bytes (g.toBytes E.P E.o₁)
  | .cgraph g, .duplicate => .new (.cgraph g)
  | .cgraph g, .matrixString => .text (g.matrixString E.P E.o₁ E.o₂)
  | .cgraph g, .decompress => .made .graph (g.decompress E.P E.o₁)
  | .cgraph g, .compressionLevel => .val (.float (F64.ofNat g.compressionLevel))
  | .cgraph g, .isUndirected => .val (.bool g.isUndirected)
  | .cgraph g, .vertexCount => .val (.int g.vertexCount)
  | .cgraph g, .edgeCount => .val (.int g.edgeCount)
  | .cgraph g, .doesEdgeExist u v => .val (.bool (g.doesEdgeExist (toId u) (toId v)))
  | .cgraph g, .getCompressedMatrixEntry c r => .val (.int (g.getCompressedMatrixEntry (toId c) (toId r)))
  | .matrix m, .str => .text (m.toStringWithPrecision E.P f64Fmt E.o₁ E.o₂ (toSize E.P 2))
  | .matrix m, .duplicate => .new (.matrix m)
  | .matrix m, .dimension => .val (.int m.dimension)
  | .matrix m, .entryCount => .val (.int m.entryCount)
  | .matrix m, .getEntry c r => .val (.float (m.getEntry f64Numeric (toId c) (toId r)))
  | .matrix m, .toString d => .text (m.toStringWithPrecision E.P f64Fmt E.o₁ E.o₂ (toSize E.P d))
  | .matrix m, .entryList => .new (.entries (m.items E.o₁))
  | .iter l pos, .next =>
    match (a[l]?.join).bind AObj.items with
    | some xs => match xs[pos]? with | some x => .step (.iter l (pos + 1)) x | none => .raises .StopIteration
    | none => .panics
  | x, .getitem idx => match x.items with | some xs => .item xs idx | none => .raises .AttributeError
  | x, .len => match x.items with | some xs => .val (.int xs.length) | none => .raises .AttributeError
  | x, .iter => match x.items with | some _ => .new (.iter self 0) | none => .raises .AttributeError
  | _, _ => .raises .AttributeError

/-- Outcome of a step of a Python program. -/
inductive AStep where
  | ret (v : PyVal) (a : AWorld)
  | raises (e : PyExc) (a : AWorld)
  | panics

/-- Carrying out the outcome of a method of object `i`. -/
def AOut.apply (a : AWorld) (i : Nat) : AOut → AStep
  | .val v => .ret v a
  | .new x => .ret (.ref a.length) (a ++ [some x])
  | .step x v => .ret v (a.set i (some x))
  | .raises e => .raises e a
  | .panics => .panics

/-- Decoding: bytes that are not accepted raise `TypeError`. -/
def AOut.decoded {α : Type} (f : α → AObj) : Res α → AOut
  | .ok x => .new (f x)
  | .err _ => .raises .TypeError
  | .panic => .panics

/-- Is the list number `i` used by an iterator? -/
def AWorld.iterated (a : AWorld) (i : Nat) : Prop := ∃ pos, some (AObj.iter i pos) ∈ a

open Classical in
/-- One step of a Python program on values. -/
noncomputable def pyStep (E : Ctx) (c : PyCall) (a : AWorld) : AStep :=
  match c with
  | .newGraph u => (AOut.new (.graph (if u then Graph.newUndirected else Graph.newDirected))).apply a a.length
  | .graphFromBytes b => (AOut.decoded .graph (Graph.tryFrom E.P b)).apply a a.length
  | .cgraphFromBytes b => (AOut.decoded .cgraph (CGraph.tryFrom E.P b)).apply a a.length
  | .call i m => match a[i]?.join with
    | some x => (x.means E a i m).apply a i
    | none => .raises .NameError a
  | .collect i => match a[i]?.join with
    | some _ => if a.iterated i then .ret .none a else .ret .none (a.set i none)
    | none => .raises .NameError a

/-- What the program sees of one step. -/
inductive Seen where
  | value (v : PyVal)
  | exception (e : PyExc)

/-- Executions of Python programs that use the module: any calls with any arguments; `E` varies from step to step. -/
inductive PyRun : PyWorld → List (Ctx × PyCall × Seen) → PyWorld → Prop
  | nil {w} : PyRun w [] w
  | ok {w w' w'' E c v t} : w.exec E c = .ok v w' → PyRun w' t w'' → PyRun w ((E, c, .value v) :: t) w''
  | raised {w w' w'' E c e t} : w.exec E c = .raised e w' → PyRun w' t w'' → PyRun w ((E, c, .exception e) :: t) w''

/-- The same on values. -/
inductive ARun : AWorld → List (Ctx × PyCall × Seen) → AWorld → Prop
  | nil {a} : ARun a [] a
  | ret {a a' a'' E c v t} : pyStep E c a = .ret v a' → ARun a' t a'' → ARun a ((E, c, .value v) :: t) a''
  | raises {a a' a'' E c e t} : pyStep E c a = .raises e a' → ARun a' t a'' → ARun a ((E, c, .exception e) :: t) a''

/-- A program that has not used the module yet. -/
def _root_.Verif.PyWorld.start : PyWorld := ⟨HMap.empty, []⟩

/-- The program has run with the calls and results of `t`; its memory and objects are `w`, the values of its objects are `a`. -/
structure Reached (t : List (Ctx × PyCall × Seen)) (w : PyWorld) (a : AWorld) : Prop where
  run : PyRun PyWorld.start t w
  vals : ARun [] t a

/-- The C object that a Python object frees in `__del__`. -/
def _root_.Verif.PyObj.owned : PyObj → Option Ptr
  | .graph p | .cgraph p | .matrix p | .edgeList p _ | .vertexList p _ | .entryList p _ => some p
  | _ => none

/-- Indexing of Python sequences: negative indices count from the end, anything out of range is an error. -/
def pyIndex (l : List PyVal) (idx : Int) : Option PyVal :=
  if 0 ≤ idx then l[idx.toNat]?
  else if -(l.length : Int) ≤ idx then l[(l.length + idx).toNat]?
  else none

/-- The edit that a step makes on object `i`. -/
def pyEdit (i : Nat) : Ctx × PyCall × Seen → Option Edit
  | (_, .call j (.addEdge u v), _) => if j = i then some (.addEdge (toId u) (toId v)) else none
  | (_, .call j (.deleteEdge u v), _) => if j = i then some (.deleteEdge (toId u) (toId v)) else none
  | (_, .call j (.addVertex v tos), _) => if j = i then some (.addVertex (toId v) (tos.map (List.map toId))) else none
  | _ => none

/-- Does the step ask for object `i` to be collected? -/
def Collects (i : Nat) (s : Ctx × PyCall × Seen) : Prop := s.2.1 = .collect i

/-- What the program sees when it calls `next` on object `i`. -/
def seenNext (i : Nat) : Ctx × PyCall × Seen → Option Seen
  | (_, .call j .next, s) => if j = i then some s else none
  | _ => none

/-- What a program sees of the result of a call, leaving out the number that a new object gets. -/
inductive Effect where
  | value (v : PyVal)
  | newObject
  | exception (e : PyExc)
  | undefined
  | aborted

/-- The effect of a call. -/
def effect : PyRes PyWorld PyVal → Effect
  | .ok (.ref _) _ => .newObject
  | .ok v _ => .value v
  | .raised e _ => .exception e
  | .ub => .undefined
  | .abort => .aborted

/-- The Python object number `i` is a list with the elements `xs`, as seen through `len(l)` and `l[k]`. -/
structure PyList (w : PyWorld) (i : Nat) (xs : List PyVal) : Prop where
  len : ∀ E, ∃ w', w.exec E (.call i .len) = .ok (.int xs.length) w'
  item : ∀ E (k : Nat) v, xs[k]? = some v → ∃ w', w.exec E (.call i (.getitem k)) = .ok v w'

/-- The Python object number `i` answers all questions like the compressed graph `c`. -/
structure PyShows (w : PyWorld) (i : Nat) (c : CGraph) : Prop where
  level : ∀ E, ∃ w', w.exec E (.call i .compressionLevel) = .ok (.float (F64.ofNat c.compressionLevel)) w'
  direction : ∀ E, ∃ w', w.exec E (.call i .isUndirected) = .ok (.bool c.isUndirected) w'
  vertexCount : ∀ E, ∃ w', w.exec E (.call i .vertexCount) = .ok (.int c.vertexCount) w'
  edgeCount : ∀ E, ∃ w', w.exec E (.call i .edgeCount) = .ok (.int c.edgeCount) w'
  edge : ∀ E u v, ∃ w', w.exec E (.call i (.doesEdgeExist u v)) = .ok (.bool (c.doesEdgeExist (toId u) (toId v))) w'
  entry : ∀ E x y, ∃ w', w.exec E (.call i (.getCompressedMatrixEntry x y)) =
    .ok (.int (c.getCompressedMatrixEntry (toId x) (toId y))) w'

/-- The Python object number `i` answers all questions like the abstract graph `A`. -/
structure PyAnswers (t : List (Ctx × PyCall × Seen)) (w : PyWorld) (a : AWorld) (i : Nat) (A : AGraph) : Prop where
  direction : ∀ E, ∃ w', w.exec E (.call i .isUndirected) = .ok (.bool A.undirected) w'
  vertexCount : ∀ E, ∃ w', w.exec E (.call i .vertexCount) = .ok (.int A.n) w'
  edgeCount : ∀ E, ∃ w', w.exec E (.call i .edgeCount) = .ok (.int A.E.card) w'
  edge : ∀ E u v, ∃ w', w.exec E (.call i (.doesEdgeExist u v)) = .ok (.bool (decide ((toId u, toId v) ∈ A.E))) w'
  outDegree : ∀ E v, ∃ w', w.exec E (.call i (.vertexOutDegree v)) = .ok (.int (A.E.filter fun p => p.1 = toId v).card) w'
  inDegree : ∀ E v, ∃ w', w.exec E (.call i (.vertexInDegree v)) = .ok (.int (A.E.filter fun p => p.2 = toId v).card) w'
  edges : ∀ E, ∃ w' l, w.exec E (.call i .edgeList) = .ok (.ref a.length) w' ∧
    Reached (t ++ [(E, .call i .edgeList, .value (.ref a.length))]) w' (a ++ [some (.edges l)]) ∧
    PyList w' a.length (l.map fun e => .edge e.1 e.2) ∧ l.Nodup ∧ ∀ p, p ∈ l ↔ p ∈ A.E
  outEdges : ∀ E v, ∃ w' l, w.exec E (.call i (.vertexOutEdges v)) = .ok (.ref a.length) w' ∧
    Reached (t ++ [(E, .call i (.vertexOutEdges v), .value (.ref a.length))]) w' (a ++ [some (.vertices l)]) ∧
    PyList w' a.length (l.map .int) ∧ l.Nodup ∧ ∀ x, x ∈ l ↔ (toId v, x) ∈ A.E
  inEdges : ∀ E v, ∃ w' l, w.exec E (.call i (.vertexInEdges v)) = .ok (.ref a.length) w' ∧
    Reached (t ++ [(E, .call i (.vertexInEdges v), .value (.ref a.length))]) w' (a ++ [some (.vertices l)]) ∧
    PyList w' a.length (l.map .int) ∧ l.Nodup ∧ ∀ x, x ∈ l ↔ (x, toId v) ∈ A.E

/-- Calls with arguments of a reasonable size on a reasonable platform: blocks below `2^32`, and room for a number with the
requested decimals. -/
def ModerateCall (E : Ctx) : PyCall → Prop
  | .graphFromBytes b | .cgraphFromBytes b => b.length ≤ E.P.usizeMax
  | .call _ (.findAvgPoolMatrix b) | .call _ (.approximate b _) => toId b < 2 ^ 32
  | .call _ (.toString d) => toSize E.P d + 40 ≤ E.P.fmtMax ∧ toSize E.P d + 42 ≤ E.P.usizeMax
  | _ => True

/-- A step on a platform whose `usize` has at least 16 bits and which can format 42 characters, with moderate arguments. -/
def Moderate (E : Ctx) (c : PyCall) : Prop := 65535 ≤ E.P.usizeMax ∧ 42 ≤ E.P.fmtMax ∧ ModerateCall E c

/-- All matrices of the execution were pooled with blocks below `2^32`. -/
def SmallPools (t : List (Ctx × PyCall × Seen)) : Prop :=
  ∀ E i b v, (E, PyCall.call i (.findAvgPoolMatrix b), v) ∈ t → toId b < 2 ^ 32

/-- The bytes that are passed fit into the address space. -/
def PyFits (E : Ctx) : PyCall → Prop
  | .graphFromBytes b | .cgraphFromBytes b => b.length ≤ E.P.usizeMax
  | _ => True

/-- When a call aborts the interpreter: pooling with a block dimension whose square is beyond `u64` in a build with overflow
checks, and `to_string` with decimals with which printing panics. -/
def PyAborts (E : Ctx) (a : AWorld) : PyCall → Prop
  | .call i (.findAvgPoolMatrix b) | .call i (.approximate b _) =>
    E.P.profile = .debug ∧ ∃ g, a[i]? = some (some (.graph g)) ∧ 2 ^ 32 ≤ effBlock g.vertexCount (toId b)
  | .call i (.toString d) =>
    ∃ m k, a[i]? = some (some (.matrix m)) ∧ Reserved m k ∧ TextPanics E.P m k (toSize E.P d)
  | _ => False

end Verif.Spec
