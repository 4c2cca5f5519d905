import Verif.Model.PyArgs
import Verif.Spec.Py
import Verif.Spec.Ieee

/-!
# Specification of the Python wrapper for arguments of any type

`CallReads a c c'` says that the call `c` is understood as the call `c'` with integers, floats and bytes in their places.
-/

namespace Verif.Spec

/-- How `compress` understands its argument: integers as they are, a number above 64 as 64, one below 1 as 1. -/
inductive LevelOf : PyArg → Int → Prop
  | int (l : Int) : LevelOf (.int l) l
  | above (q : ℚ) : 64 < q → LevelOf (.float (.fin q)) 64
  | below (q : ℚ) : q < 1 → LevelOf (.float (.fin q)) 1
  | infinite (neg : Bool) : LevelOf (.float (.inf neg)) (if neg then 1 else 64)

/-- How a list of length `n` understands an index: integers as they are; a negative float stands for the last element if it is
less than 1 below a multiple of the length (as a float). -/
inductive IndexOf (n : Nat) : PyArg → Int → Prop
  | int (i : Int) : IndexOf n (.int i) i
  | last (q s : ℚ) (k : ℕ) : 0 < n → q < 0 → binary64.RoundsTo n (.fin s) → k * s ≤ -q → -q < k * s + 1 →
      IndexOf n (.float (.fin q)) (-1)

/-- How a threshold is understood: a float as it is, an integer as the nearest float. -/
inductive ThresholdOf : PyArg → F64 → Prop
  | float (x : F64) : ThresholdOf (.float x) x
  | int (i : Int) (q : ℚ) : binary64.RoundsTo i (.fin q) → ThresholdOf (.int i) (.fin q)

/-- A method of an object (a list of length `n`, if it is a list) is understood as a method with integers. -/
inductive MethodReads (n : Nat) : AnyMethod → Method → Prop
  | plain (m) : MethodReads n (.plain m) m
  | doesEdgeExist (u v) : MethodReads n (.doesEdgeExist (.int u) (.int v)) (.doesEdgeExist u v)
  | addVertex (v) : MethodReads n (.addVertex (.int v) .none) (.addVertex v none)
  | addVertexTo (v ts) : MethodReads n (.addVertex (.int v) (.seq (ts.map .int))) (.addVertex v (some ts))
  | addEdge (u v) : MethodReads n (.addEdge (.int u) (.int v)) (.addEdge u v)
  | deleteEdge (u v) : MethodReads n (.deleteEdge (.int u) (.int v)) (.deleteEdge u v)
  | findAvgPoolMatrix (b) : MethodReads n (.findAvgPoolMatrix (.int b)) (.findAvgPoolMatrix b)
  | approximate {t x} (b) : ThresholdOf t x → MethodReads n (.approximate (.int b) t) (.approximate b x)
  | compress {l k} : LevelOf l k → MethodReads n (.compress l) (.compress k)
  | vertexInEdges (v) : MethodReads n (.vertexInEdges (.int v)) (.vertexInEdges v)
  | vertexOutEdges (v) : MethodReads n (.vertexOutEdges (.int v)) (.vertexOutEdges v)
  | vertexInDegree (v) : MethodReads n (.vertexInDegree (.int v)) (.vertexInDegree v)
  | vertexOutDegree (v) : MethodReads n (.vertexOutDegree (.int v)) (.vertexOutDegree v)
  | getCompressedMatrixEntry (x y) : MethodReads n (.getCompressedMatrixEntry (.int x) (.int y)) (.getCompressedMatrixEntry x y)
  | getEntry (x y) : MethodReads n (.getEntry (.int x) (.int y)) (.getEntry x y)
  | toString (d) : MethodReads n (.toString (.int d)) (.toString d)
  | getitem {i k} : IndexOf n i k → MethodReads n (.getitem i) (.getitem k)

/-- The length of the list number `i`; 0 for other objects. -/
def AWorld.listLength (a : AWorld) (i : Nat) : Nat :=
  match (a[i]?.join).bind AObj.items with
  | some xs => xs.length
  | none => 0

/-- A call is understood as a call with integers, floats and bytes. -/
inductive CallReads (a : AWorld) : AnyCall → PyCall → Prop
  | newGraph {x b} : (b = false ↔ x = .int 0 ∨ x = .float (.fin 0) ∨ x = .other false) → CallReads a (.newGraph x) (.newGraph b)
  | graphFromBytes (b) : CallReads a (.graphFromBytes (.bytes b)) (.graphFromBytes b)
  | graphFromInts (b : Bytes) : CallReads a (.graphFromBytes (.seq (b.map fun x => .int x.toNat))) (.graphFromBytes b)
  | cgraphFromBytes (b) : CallReads a (.cgraphFromBytes (.bytes b)) (.cgraphFromBytes b)
  | cgraphFromInts (b : Bytes) : CallReads a (.cgraphFromBytes (.seq (b.map fun x => .int x.toNat))) (.cgraphFromBytes b)
  | call {i m m'} : MethodReads (a.listLength i) m m' → CallReads a (.call i m) (.call i m')
  | collect (i) : CallReads a (.collect i) (.collect i)

/-- Executions of Python programs with arguments of any type. -/
inductive AnyRun : PyWorld → List (Ctx × AnyCall × Seen) → PyWorld → Prop
  | nil {w} : AnyRun w [] w
  | ok {w w' w'' E c v t} : w.execAny E c = .ok v w' → AnyRun w' t w'' → AnyRun w ((E, c, .value v) :: t) w''
  | raised {w w' w'' E c e t} : w.execAny E c = .raised e w' → AnyRun w' t w'' → AnyRun w ((E, c, .exception e) :: t) w''

/-- A program with arguments of any type, starting with the objects `a`, does what the program `t'` with integers, floats and bytes
does: calls that are understood give the same results, the others give exceptions and have no effect. -/
inductive TraceReads : AWorld → List (Ctx × AnyCall × Seen) → List (Ctx × PyCall × Seen) → Prop
  | nil {a} : TraceReads a [] []
  | read {a a' E c c' s t t'} : CallReads a c c' → ARun a [(E, c', s)] a' → TraceReads a' t t' →
      TraceReads a ((E, c, s) :: t) ((E, c', s) :: t')
  | rejected {a E c e t t'} : (∀ c', ¬ CallReads a c c') → TraceReads a t t' → TraceReads a ((E, c, .exception e) :: t) t'

/-- The argument is not an integer. -/
def NotInt (x : PyArg) : Prop := ∀ i, x ≠ .int i

/-- Something that is not an integer is passed where a vertex id, a dimension, a level, a number of digits or an index is expected. -/
def WrongType : AnyMethod → Prop
  | .plain _ => False
  | .doesEdgeExist u v | .addEdge u v | .deleteEdge u v | .getCompressedMatrixEntry u v | .getEntry u v => NotInt u ∨ NotInt v
  | .addVertex v tos => NotInt v ∨ tos = .other ∨ ∃ l x, tos = .seq l ∧ x ∈ l ∧ NotInt x
  | .approximate b t => NotInt b ∨ ∃ y, t = .other y
  | .findAvgPoolMatrix x | .compress x | .vertexInEdges x | .vertexOutEdges x | .vertexInDegree x | .vertexOutDegree x |
    .toString x | .getitem x => NotInt x

end Verif.Spec
