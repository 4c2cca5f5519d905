import Verif.Model.Py

/-!
# Model of the Python wrapper for arguments of any type (`/repo/graphrox-py/graphrox/__init__.py`)

`Model/Py.lean` takes integers where integers are expected.  Here an argument is an integer (a `bool` is one), a float, or
something else.  `ctypes` accepts only integers for the parameters declared as `c_uint64`, `c_uint8` and `c_size_t` and only
numbers for `c_double` (lines 84-248); anything else raises `ctypes.ArgumentError` before the library is called.

Simplifications: objects that pretend to be numbers (instances of `c_uint64`, objects with `_as_parameter_`, with their own
comparison operators, or whose truth value raises) are not modelled.  Local `ctypes` objects that exist when an exception is
raised are gone afterwards; the conversions are therefore done before such objects are made.
-/

namespace Verif

/-- An argument: an integer (or `bool`), a float, or any other object with its truth value. -/
inductive PyArg where
  | int (i : Int)
  | float (x : F64)
  | other (truth : Bool)

/-- The second argument of `add_vertex`: `None`, something with a length and elements (list, tuple, set, string), or
something without a length. -/
inductive PyArgs where
  | none
  | seq (l : List PyArg)
  | other

/-- The argument of `from_bytes`: an object with bytes, a sequence of other things, or something from which `len` or `bytearray`
cannot make anything. -/
inductive PyData where
  | bytes (b : Bytes)
  | seq (l : List PyArg)
  | other

namespace Py

/-- `if x`: the truth value. Python language reference. -/
def truth : PyArg → Bool
  | .int i => i != 0
  | .float x => x != .fin 0
  | .other b => b

/-- A parameter declared as `c_uint64`, `c_uint8` or `c_size_t`: `ctypes` takes integers only. `__init__.py:84-248`. -/
def argInt : PyArg → PM Int
  | .int i => pure i
  | _ => raise .ArgumentError

/-- A parameter declared as `c_double`: integers are converted, and rejected if they are too large. `__init__.py:139`. -/
def argDouble : PyArg → PM F64
  | .int i => match F64.rnd (i : ℚ) with
    | .fin q => pure (.fin q)
    | _ => raise .ArgumentError
  | .float x => pure x
  | .other _ => raise .ArgumentError

/-- The elements of `EdgesArray(*to_vertexs)`: integers, otherwise `TypeError`. `__init__.py:343-344`. -/
def arrayItems : List PyArg → PM (List Int)
  | [] => pure []
  | .int i :: l => do
    let is ← arrayItems l
    pure (i :: is)
  | _ :: _ => raise .TypeError

/-- `x > n` for an integer `n`; Python compares exact values. -/
def gtInt (x : F64) (n : Int) : Bool := F64.lt (.fin n) x
/-- `x >= n`. -/
def geInt (x : F64) (n : Int) : Bool := F64.le (.fin n) x
/-- `x < n`. -/
def ltInt (x : F64) (n : Int) : Bool := F64.lt x (.fin n)

/-- `abs(x) % size` for a float and an integer, which is converted to a float; `none` stands for NaN.  The remainder of two
floats is exact. Python language reference. -/
def absRem (x : F64) (size : Nat) : PM (Option ℚ) :=
  match F64.ofNat size with
  | .fin s =>
    if s = 0 then raise .ZeroDivisionError
    else match x with
      | .fin q => pure (some (|q| - s * ⌊|q| / s⌋))
      | _ => pure none
  | _ => raise .OverflowError

/-- The level passed on by `Graph.compress`: comparisons with other things raise `TypeError`; a float between 1 and 64 reaches
`ctypes`, which rejects it. `__init__.py:412-417`. -/
def levelArg : PyArg → PM Int
  | .int l => pure (compressLevel l)
  | .float x => if gtInt x 64 then pure 64 else if ltInt x 1 then pure 1 else argInt (.float x)
  | .other _ => raise .TypeError

/-- The index computation of `__getitem__`: `max(r, 1)` is the integer 1 if `r < 1`, otherwise the float `r`, and indexing a
pointer with a float raises `TypeError`. `__init__.py:478-484, 534-540, 749-755`. -/
def indexArg (size : Nat) : PyArg → PM Nat
  | .int i => index size i
  | .float x =>
    if geInt x size then raise .IndexError
    else if ltInt x 0 then do
      match ← absRem x size with
      | some r => if r < 1 then pure (size - 1) else raise .TypeError
      | none => raise .TypeError
    else raise .TypeError
  | .other _ => raise .TypeError

/-- `bytearray(bytes_obj)` for a sequence: integers from 0 to 255. `__init__.py:284, 599`. -/
def byteItems : List PyArg → PM Bytes
  | [] => pure []
  | .int i :: l =>
    if 0 ≤ i ∧ i < 256 then do
      let bs ← byteItems l
      pure (UInt8.ofNat i.toNat :: bs)
    else raise .ValueError
  | _ :: _ => raise .TypeError

/-- `bytearray(bytes_obj)` after `len(bytes_obj)`. `__init__.py:284, 599`. -/
def dataBytes : PyData → PM Bytes
  | .bytes b => pure b
  | .seq l => byteItems l
  | .other => raise .TypeError

/-- `Graph.add_vertex`: the length of `to_vertexs`, then the array, then the call. `__init__.py:333-345`. -/
def graphAddVertexAny (E : Ctx) (p : Ptr) (v : PyArg) : PyArgs → PM PyOut
  | .none => do
    let v ← argInt v
    graphAddVertex E p v none
  | .seq ts => do
    let ts ← arrayItems ts
    let v ← argInt v
    graphAddVertex E p v (some ts)
  | .other => raise .TypeError

/-- `Graph.compress`: the clamped level is converted to `c_uint8`. `__init__.py:396-418`. -/
def graphCompressAny (E : Ctx) (p : Ptr) (l : PyArg) : PM PyOut := do
  let l ← levelArg l
  let q ← asPtr (← call E (.compress p (u8 l)))
  pure (.new (.cgraph q))

/-- `_GraphEdgeList.__getitem__`. `__init__.py:477-485`. -/
def edgeListGetitemAny (p : Ptr) (size : Nat) (idx : PyArg) : PM PyOut := do
  let item ← edgeAt p (← indexArg size idx)
  pure (.val (.edge item.1 item.2))

/-- `_GraphVertexList.__getitem__`. `__init__.py:533-541`. -/
def vertexListGetitemAny (p : Ptr) (size : Nat) (idx : PyArg) : PM PyOut := do
  let item ← vertexAt p (← indexArg size idx)
  pure (.val (.int item))

/-- `_CsrSquareMatrixEntryList.__getitem__`. `__init__.py:748-756`. -/
def entryListGetitemAny (p : Ptr) (size : Nat) (idx : PyArg) : PM PyOut := do
  let item ← entryAt p (← indexArg size idx)
  pure (.val (.entry item.1 item.2.1 item.2.2))

end Py

/-- The methods with arguments of any type; `plain` are those without arguments. -/
inductive AnyMethod where
  | plain (m : Method)
  | doesEdgeExist (u v : PyArg)
  | addVertex (v : PyArg) (tos : PyArgs)
  | addEdge (u v : PyArg)
  | deleteEdge (u v : PyArg)
  | findAvgPoolMatrix (b : PyArg)
  | approximate (b t : PyArg)
  | compress (l : PyArg)
  | vertexInEdges (v : PyArg)
  | vertexOutEdges (v : PyArg)
  | vertexInDegree (v : PyArg)
  | vertexOutDegree (v : PyArg)
  | getCompressedMatrixEntry (col row : PyArg)
  | getEntry (col row : PyArg)
  | toString (decimalDigits : PyArg)
  | getitem (idx : PyArg)

/-- Calling a method of the object number `self`.  `__init__.py:327-460, 477-485, 533-541, 660-673, 709-722, 748-756`: every method
passes its arguments to the library as they are, in this order; `add_vertex`, `compress` and `__getitem__` use them before. -/
def PyObj.anyMethod (E : Ctx) (self : Nat) : PyObj → AnyMethod → PM PyOut
  | o, .plain m => o.method E self m
  | .graph p, .doesEdgeExist u v => do Py.graphDoesEdgeExist E p (← Py.argInt u) (← Py.argInt v)
  | .graph p, .addVertex v tos => Py.graphAddVertexAny E p v tos
  | .graph p, .addEdge u v => do Py.graphAddEdge E p (← Py.argInt u) (← Py.argInt v)
  | .graph p, .deleteEdge u v => do Py.graphDeleteEdge E p (← Py.argInt u) (← Py.argInt v)
  | .graph p, .findAvgPoolMatrix b => do Py.graphFindAvgPoolMatrix E p (← Py.argInt b)
  | .graph p, .approximate b t => do Py.graphApproximate E p (← Py.argInt b) (← Py.argDouble t)
  | .graph p, .compress l => Py.graphCompressAny E p l
  | .graph p, .vertexInEdges v => do Py.graphVertexInEdges E p (← Py.argInt v)
  | .graph p, .vertexOutEdges v => do Py.graphVertexOutEdges E p (← Py.argInt v)
  | .graph p, .vertexInDegree v => do Py.graphVertexInDegree E p (← Py.argInt v)
  | .graph p, .vertexOutDegree v => do Py.graphVertexOutDegree E p (← Py.argInt v)
  | .cgraph p, .doesEdgeExist u v => do Py.cgraphDoesEdgeExist E p (← Py.argInt u) (← Py.argInt v)
  | .cgraph p, .getCompressedMatrixEntry c r => do Py.cgraphGetEntry E p (← Py.argInt c) (← Py.argInt r)
  | .matrix p, .getEntry c r => do Py.matrixGetEntry E p (← Py.argInt c) (← Py.argInt r)
  | .matrix p, .toString d => do Py.matrixToString E p (← Py.argInt d)
  | .edgeList p n, .getitem i => Py.edgeListGetitemAny p n i
  | .vertexList p n, .getitem i => Py.vertexListGetitemAny p n i
  | .entryList p n, .getitem i => Py.entryListGetitemAny p n i
  | _, _ => Py.raise .AttributeError

/-- One step of a Python program, with arguments of any type. -/
inductive AnyCall where
  /-- `Graph(x)` -/
  | newGraph (x : PyArg)
  /-- `Graph.from_bytes(x)` -/
  | graphFromBytes (x : PyData)
  /-- `CompressedGraph.from_bytes(x)` -/
  | cgraphFromBytes (x : PyData)
  /-- a method of object `i` -/
  | call (i : Nat) (m : AnyMethod)
  /-- the program has dropped its references to object `i` -/
  | collect (i : Nat)

/-- Executing one step. -/
def PyWorld.execAny (E : Ctx) (c : AnyCall) (w : PyWorld) : PyRes PyWorld PyVal :=
  match c with
  | .newGraph x => w.create (Py.graphInit E (Py.truth x) w.mem)
  | .graphFromBytes x => w.create ((do Py.graphFromBytes E (← Py.dataBytes x) : PM PyObj) w.mem)
  | .cgraphFromBytes x => w.create ((do Py.cgraphFromBytes E (← Py.dataBytes x) : PM PyObj) w.mem)
  | .call i m =>
    match w.objs[i]?.join with
    | some o => w.finish i (o.anyMethod E i m w.mem)
    | none => .raised .NameError w
  | .collect i => w.exec E (.collect i)

end Verif
