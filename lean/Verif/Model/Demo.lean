import Verif.Model.Scripts

/-!
# Model of `/repo/scripts/demo.py`

The two files that the script reads are parameters: `none` for a file that cannot be opened.  Simplification: objects that are no
longer used are not collected (collecting an object has no effect on the answers of others).
-/

namespace Verif
namespace Script

/-- A result used as an integer. -/
def asInt : PyVal → SM Nat
  | .int n => pure n
  | _ => fun _ => .ub

/-- A result used as a string. -/
def asStr : PyVal → SM (List Char)
  | .str s => pure s
  | _ => fun _ => .ub

/-- Several calls of `print` with constant texts; `""` is `print()`. -/
def printAll : List String → SM Unit
  | [] => pure ()
  | l :: rest => do
    print l.toList
    printAll rest

/-- `with open(path, 'rb') as f: f.read()`. -/
def readFile : Option Bytes → SM Bytes
  | some b => pure b
  | none => raise .FileNotFoundError

/-- `print(graph.matrix_string())`. `demo.py:22, 30, 38, 60, 80`. -/
def printGraph (V : Env) (graph : Nat) : SM Unit := do
  print (← asStr (← gx V (.call graph .matrixString)))

/-- `print(graph.find_avg_pool_matrix(b))`, which calls `__str__`. `demo.py:26, 34`. -/
def printPool (V : Env) (graph : Nat) (b : Int) : SM Unit := do
  let m ← asRef (← gx V (.call graph (.findAvgPoolMatrix b)))
  print (← asStr (← gx V (.call m .str)))

/-- `print(graph.approximate(b, t).matrix_string())`. `demo.py:30, 38, 60, 80`. -/
def printApprox (V : Env) (graph : Nat) (b : Int) (t : F64) : SM Unit := do
  let a ← asRef (← gx V (.call graph (.approximate b t)))
  printGraph V a

/-- The example graph. `demo.py:13-19`. -/
def demoGraph (V : Env) : SM Nat := do
  let graph ← asRef (← gx V (.newGraph true))
  let _ ← gx V (.call graph (.addEdge 7 8))
  let _ ← gx V (.call graph (.addEdge 5 5))
  let _ ← gx V (.call graph (.addEdge 5 4))
  let _ ← gx V (.call graph (.addVertex 1 (some [0, 2, 4, 7, 3])))
  let _ ← gx V (.call graph (.addVertex 5 (some [6, 8, 0, 1, 5, 4, 2])))
  pure graph

/-- The part with the example graph. `demo.py:6-42`. -/
def demoExample (V : Env) : SM Unit := do
  printAll ["GraphRox Demo", "", "GraphRox is a C library (with a Python wrapper) for generating approximations",
    "of graphs for the purpose of fast graph calculations.", ""]
  let graph ← demoGraph V
  print ("Adjacency matrix of an example graph with dimension of ".toList ++ str (← asInt (← gx V (.call graph .vertexCount))))
  printGraph V graph
  printAll ["", "2x2-block Average Pool Matrix"]
  printPool V graph 2
  printAll ["", "Approximation using 2x2 blocks and a threshold of 0.3"]
  printApprox V graph 2 (F64.lit (3 / 10))
  printAll ["", "3x3-block Average Pool Matrix"]
  printPool V graph 3
  printAll ["", "Approximation using 3x3 blocks and a threshold of 0.2"]
  printApprox V graph 3 (F64.lit (2 / 10))
  printAll ["", "--------------------------------------------------------------------------------", ""]

/-- The part with one of the sample files. `demo.py:50-61, 70-81`. -/
def demoFile (V : Env) (file : Option Bytes) (title : String) (b : Int) (t : F64) : SM Unit := do
  let graph ← asRef (← gx V (.graphFromBytes (← readFile file)))
  let n ← asInt (← gx V (.call graph .vertexCount))
  let e ← asInt (← gx V (.call graph .edgeCount))
  print ("This graph has ".toList ++ str n ++ " nodes and ".toList ++ str e ++ " edges".toList)
  printAll ["", title]
  printApprox V graph b t
  print []

/-- The script. `demo.py:5-91`. -/
def demo (V : Env) (hepPh astroPh : Option Bytes) : SM Unit := do
  demoExample V
  printAll ["Loading graph from ca-HepPh.gphrx...", "",
    "This graph represents the co-author network from Arxiv in the HEP-PH (High",
    "Energy Physics - Phenomenology) category for papers published between January", "1993 and April 2003", ""]
  demoFile V hepPh "Approximation using 1500x1500 blocks and a threshold of 0.0017" 1500 (F64.lit (17 / 10000))
  printAll ["--------------------------------------------------------------------------------", "",
    "Loading graph from ca-AstroPh.gphrx...", "",
    "This graph represents the co-author network from Arxiv in the ASTRO-PH (Astro",
    "Physics) category for papers published between January 1993 and April 2003", ""]
  demoFile V astroPh "Approximation using 2000x2000 blocks and a threshold of 0.00115" 2000 (F64.lit (115 / 100000))
  printAll ["", "", "Co-author network graphs are provied courtesy of Stanford University and can",
    "be found at the following web address: http://snap.stanford.edu/data/", "", "Citation for co-author network graphs:",
    "J. Leskovec, J. Kleinberg and C. Faloutsos. Graph Evolution: Densification and",
    "Shrinking Diameters. ACM Transactions on Knowledge Discovery from Data (ACM", "TKDD), 1(1), 2007."]

end Script
end Verif
