import Verif.Model.Py

/-!
# Model of the scripts (`/repo/scripts/generate_graph.py`)

Simplifications: a text file is the list of its lines and a binary file the list of its bytes; opening, reading and writing files
always succeeds.  Which characters are white space and which strings `int` accepts is a parameter.  `numpy` integers behave like
Python integers (`ctypes` takes them through `__index__`); `np.full` succeeds up to a size that is a parameter.
-/

namespace Verif
namespace Script

/-- The environment of a script. -/
structure Env where
  /-- White space of `str.split()`. -/
  isSpace : Char → Bool
  /-- `int(s)`; `none` is `ValueError`. -/
  int : List Char → Option Int
  /-- Largest array that `np.full` can make. -/
  npMax : Nat
  /-- The environment of the `n`-th call of the module. -/
  E : Nat → Ctx

/-- Exceptions that end a script. -/
inductive Exc where
  | IndexError | ValueError | MemoryError | FileNotFoundError
  | fromModule (e : PyExc)
  deriving DecidableEq

/-- The state of a script: number of calls of the module so far, the world of the module, lines printed. -/
structure State where
  calls : Nat
  world : PyWorld
  printed : List (List Char)

/-- Outcome of a script. -/
inductive SRes (α : Type) where
  | ok (a : α) (s : State)
  | raised (e : Exc) (s : State)
  | ub
  | abort

/-- Script code. -/
def SM (α : Type) := State → SRes α

/-- Sequencing. -/
def SM.bind {α β : Type} (x : SM α) (f : α → SM β) : SM β := fun s =>
  match x s with
  | .ok a s' => f a s'
  | .raised e s' => .raised e s'
  | .ub => .ub
  | .abort => .abort

instance : Monad SM where
  pure a := fun s => .ok a s
  bind := SM.bind

/-- `raise`. -/
def raise {α : Type} (e : Exc) : SM α := fun s => .raised e s

/-- A call of the module `graphrox`. -/
def gx (V : Env) (c : PyCall) : SM PyVal := fun s =>
  match s.world.exec (V.E s.calls) c with
  | .ok v w => .ok v { s with calls := s.calls + 1, world := w }
  | .raised e w => .raised (.fromModule e) { s with calls := s.calls + 1, world := w }
  | .ub => .ub
  | .abort => .abort

/-- `print(...)`. -/
def print (l : List Char) : SM Unit := fun s => .ok () { s with printed := s.printed ++ [l] }

/-- A result used as an object of the module. -/
def asRef : PyVal → SM Nat
  | .ref i => pure i
  | _ => fun _ => .ub

/-- A result used as bytes. -/
def asBytes : PyVal → SM Bytes
  | .bytes b => pure b
  | _ => fun _ => .ub

/-- A result used as a truth value. -/
def asBool : PyVal → SM Bool
  | .bool b => pure b
  | _ => fun _ => .ub

/-- `line.split()`. -/
def split (V : Env) (line : List Char) : List (List Char) := (line.splitOnP V.isSpace).filter fun w => !w.isEmpty

/-- The variables of the loop over the lines: the list of pairs and `id0`, `id1`, which keep their values after the loop. -/
structure Parsed where
  idPairs : List (Int × Int)
  id0 : Option Int
  id1 : Option Int

/-- One line of the text file. `generate_graph.py:13-28, 58-73`. -/
def parseLine (V : Env) (p : Parsed) (line : List Char) : Parsed :=
  if line.head? = some '#' then p
  else match split V line with
    | [x, y] =>
      match V.int x with
      | none => p
      | some id0 =>
        match V.int y with
        | none => { p with id0 := some id0 }
        | some id1 => ⟨p.idPairs ++ [(id0, id1)], some id0, some id1⟩
    | _ => p

/-- The loop over the lines. `generate_graph.py:11-28, 56-73`. -/
def parse (V : Env) (lines : List (List Char)) : Parsed := lines.foldl (parseLine V) ⟨[], none, none⟩

/-- Order of pairs in Python. -/
def pairLe (p q : Int × Int) : Bool := p.1 < q.1 || (p.1 == q.1 && p.2 ≤ q.2)

/-- `id_pairs.sort()`; `id_max = id_pairs[-1][0]`. `generate_graph.py:30-31, 75-76`. -/
def sortPairs (l : List (Int × Int)) : List (Int × Int) := l.mergeSort pairLe

/-- `id_pairs[-1]`. `generate_graph.py:31, 76`. -/
def lastPair (l : List (Int × Int)) : SM (Int × Int) :=
  match l.getLast? with
  | some p => pure p
  | none => raise .IndexError

/-- `np.full(n, -1, dtype=int)`. `generate_graph.py:33, 78`. Simplified: numpy has other exceptions for lengths that do not fit into 64
bits. -/
def npFull (V : Env) (n : Int) : SM (List Int) :=
  if n < 0 then raise .ValueError
  else if V.npMax < n then raise .MemoryError
  else pure (List.replicate n.toNat (-1))

/-- The position meant by an index into an array of length `n`; negative indices count from the end. -/
def npIndex (n : Nat) (i : Int) : SM Nat :=
  if 0 ≤ i ∧ i < n then pure i.toNat
  else if -(n : Int) ≤ i ∧ i < 0 then pure (n + i).toNat
  else raise .IndexError

/-- `a[i]`. -/
def npGet (a : List Int) (i : Int) : SM Int := do
  let k ← npIndex a.length i
  pure (a.getD k 0)

/-- `a[i] = x`. -/
def npSet (a : List Int) (i x : Int) : SM (List Int) := do
  let k ← npIndex a.length i
  pure (a.set k x)

/-- The loop that numbers the ids. `generate_graph.py:35-39, 80-84`. -/
def assignIds : List (Int × Int) → List Int → Nat → SM (List Int)
  | [], map, _ => pure map
  | p :: rest, map, newId => do
    if (← npGet map p.1) = -1 then
      let map' ← npSet map p.1 newId
      assignIds rest map' (newId + 1)
    else assignIds rest map newId

/-- The loop that adds the edges. `generate_graph.py:43-49`. -/
def addEdges (V : Env) (graph : Nat) (map : List Int) : List (Int × Int) → SM Unit
  | [] => pure ()
  | p :: rest => do
    let newFromId ← npGet map p.1
    let newToId ← npGet map p.2
    let _ ← gx V (.call graph (.addEdge newFromId newToId))
    addEdges V graph map rest

/-- `graph_from_text_file`; the result is what is written to the file. `generate_graph.py:10-52`. -/
def graphFromTextFile (V : Env) (lines : List (List Char)) : SM Bytes := do
  let idPairs := sortPairs (parse V lines).idPairs
  let idMax := (← lastPair idPairs).1
  let map ← npFull V (idMax + 2)
  let map ← assignIds idPairs map 0
  let graph ← asRef (← gx V (.newGraph true))
  addEdges V graph map idPairs
  asBytes (← gx V (.call graph .bytes))

/-- `str(i)`. -/
def str (i : Int) : List Char := (toString i).toList

/-- `id0` after the loop; it is bound if there is a pair. -/
def bound (i : Option Int) : SM Int := match i with | some i => pure i | none => fun _ => .ub

/-- The loop that looks for missing edges; it uses `id0` and `id1`, not `id_pair`. `generate_graph.py:89-91`. -/
def checkEdges (V : Env) (graph : Nat) (map : List Int) (id0 id1 : Option Int) : List (Int × Int) → SM Unit
  | [] => pure ()
  | _ :: rest => do
    let id0' ← bound id0
    let id1' ← bound id1
    let u ← npGet map id0'
    let v ← npGet map id1'
    if !(← asBool (← gx V (.call graph (.doesEdgeExist u v)))) then
      print ("Missing edge ".toList ++ str id0' ++ ['-'] ++ str id1')
    checkEdges V graph map id0 id1 rest

/-- `validate_graph`. `generate_graph.py:55-91`. -/
def validateGraph (V : Env) (lines : List (List Char)) (file : Bytes) : SM Unit := do
  let p := parse V lines
  let idPairs := sortPairs p.idPairs
  let idMax := (← lastPair idPairs).1
  let map ← npFull V (idMax + 1)
  let map ← assignIds idPairs map 0
  let graph ← asRef (← gx V (.graphFromBytes file))
  checkEdges V graph map p.id0 p.id1 idPairs

/-- `compress_gphrx_file`; the result is what is written to the file. `generate_graph.py:94-99`. -/
def compressGphrxFile (V : Env) (threshold : Int) (file : Bytes) : SM Bytes := do
  let graph ← asRef (← gx V (.graphFromBytes file))
  let c ← asRef (← gx V (.call graph (.compress threshold)))
  asBytes (← gx V (.call c .bytes))

end Script
end Verif
