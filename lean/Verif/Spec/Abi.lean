import Verif.Model.Abi
import Verif.Model.CApi

/-!
# Specification: calls and lists that cross the C interface

Nothing is assumed about the platform except what every C ABI guarantees: if caller and callee agree on how the values are passed,
the values arrive.  If they do not agree, nothing is known.
-/

namespace Verif.Abi

/-- The scalars of a layout. -/
def Layout.scalars : Layout → List Scalar
  | .one s => [s]
  | .agg ss => ss

/-- A platform: width of a pointer, alignments, byte order. The size of a type is a multiple of its alignment. -/
structure Machine where
  ptrBytes : Nat
  align : Scalar → Nat
  bigEndian : Bool

/-- The number of bytes of a scalar. -/
def Machine.size (M : Machine) : Scalar → Nat
  | .u8 => 1
  | .i8 => 1
  | .char => 1
  | .u64 => 8
  | .f64 => 8
  | .size => M.ptrBytes
  | .ptr => M.ptrBytes

/-- Alignments are positive and divide sizes. -/
def Machine.Sane (M : Machine) : Prop := ∀ s, 0 < M.align s ∧ M.align s ∣ M.size s

/-- The words fit into the scalars, in number and size.  A negative number is its two's complement, a double its bits. -/
def Machine.Fits (M : Machine) (ss : List Scalar) (ws : List Nat) : Prop := List.Forall₂ (fun s w => w < 256 ^ M.size s) ss ws

/-- The arguments fit the layouts. -/
def Machine.FitsAll (M : Machine) (ls : List Layout) (vs : List (List Nat)) : Prop :=
  List.Forall₂ (fun l ws => M.Fits l.scalars ws) ls vs

/-- A calling convention: what the caller puts into registers and onto the stack, and what the callee takes from there; and the same
for results.  Values arrive if both sides use the same layouts. -/
structure Convention (M : Machine) where
  Regs : Type
  put : List Layout → List (List Nat) → Regs
  take : List Layout → Regs → List (List Nat)
  putRet : Layout → List Nat → Regs
  takeRet : Layout → Regs → List Nat
  arrives : ∀ ls vs, M.FitsAll ls vs → take ls (put ls vs) = vs
  returns : ∀ l ws, M.Fits l.scalars ws → takeRet l (putRet l ws) = ws

/-- The arguments as the language passes them. -/
def Lang.argLayouts {T : Type} (L : Lang T) (f : Fn T) : Option (List Layout) := f.args.mapM L.layout

/-- The result as the language passes it. -/
def Lang.retLayout {T : Type} (L : Lang T) (f : Fn T) : Option (Option Layout) :=
  match f.ret with
  | none => some none
  | some t => (L.layout t).map some

/-! ### Memory -/

/-- The bytes of a memory. -/
abbrev Memory := Nat → Nat

/-- The bytes of a word, the lowest first. -/
def wordBytes : Nat → Nat → List Nat
  | 0, _ => []
  | n + 1, w => w % 256 :: wordBytes n (w / 256)

/-- The word with these bytes, the lowest first. -/
def bytesWord : List Nat → Nat
  | [] => 0
  | b :: bs => b + 256 * bytesWord bs

/-- Writing bytes at an address. -/
def Memory.write (m : Memory) (a : Nat) : List Nat → Memory
  | [] => m
  | b :: bs => Memory.write (fun x => if x = a then b else m x) (a + 1) bs

/-- Reading `n` bytes at an address. -/
def Memory.read (m : Memory) (a : Nat) : Nat → List Nat
  | 0 => []
  | n + 1 => m a :: m.read (a + 1) n

/-- Storing a scalar. -/
def Machine.store (M : Machine) (m : Memory) (a : Nat) (s : Scalar) (w : Nat) : Memory :=
  m.write a (if M.bigEndian then (wordBytes (M.size s) w).reverse else wordBytes (M.size s) w)

/-- Loading a scalar. -/
def Machine.load (M : Machine) (m : Memory) (a : Nat) (s : Scalar) : Nat :=
  bytesWord (if M.bigEndian then (m.read a (M.size s)).reverse else m.read a (M.size s))

/-- The next multiple of `a`. -/
def roundUp (n a : Nat) : Nat := (n + (a - 1)) / a * a

/-- Where the fields of a structure are: each at the next address that is a multiple of its alignment. Rust reference,
"the `C` representation"; the same rule holds for C compilers and for `ctypes.Structure`. -/
def Machine.offsets (M : Machine) : Nat → List Scalar → List Nat
  | _, [] => []
  | a, s :: ss => roundUp a (M.align s) :: M.offsets (roundUp a (M.align s) + M.size s) ss

/-- Where the last field ends. -/
def Machine.endOf (M : Machine) : Nat → List Scalar → Nat
  | a, [] => a
  | a, s :: ss => M.endOf (roundUp a (M.align s) + M.size s) ss

/-- The alignment of a structure: the largest of its fields. -/
def Machine.structAlign (M : Machine) (ss : List Scalar) : Nat := (ss.map M.align).foldr max 1

/-- The size of a structure: the next multiple of its alignment. -/
def Machine.structSize (M : Machine) (ss : List Scalar) : Nat := roundUp (M.endOf 0 ss) (M.structAlign ss)

/-- Storing a structure, field by field. -/
def Machine.storeAt (M : Machine) : Memory → Nat → List (Nat × Scalar × Nat) → Memory
  | m, _, [] => m
  | m, p, (o, s, w) :: fs => M.storeAt (M.store m (p + o) s w) p fs

/-- Storing a structure. -/
def Machine.storeStruct (M : Machine) (m : Memory) (p : Nat) (ss : List Scalar) (ws : List Nat) : Memory :=
  M.storeAt m p ((M.offsets 0 ss).zip (ss.zip ws))

/-- Loading a structure. -/
def Machine.loadStruct (M : Machine) (m : Memory) (p : Nat) (ss : List Scalar) : List Nat :=
  ((M.offsets 0 ss).zip ss).map fun e => M.load m (p + e.1) e.2

/-- Storing a list of structures. -/
def Machine.storeList (M : Machine) (m : Memory) (p : Nat) (ss : List Scalar) : List (List Nat) → Memory
  | [] => m
  | ws :: l => M.storeList (M.storeStruct m p ss ws) (p + M.structSize ss) ss l

/-- Loading element `i` of a list of structures. -/
def Machine.loadItem (M : Machine) (m : Memory) (p : Nat) (ss : List Scalar) (i : Nat) : List Nat :=
  M.loadStruct m (p + i * M.structSize ss) ss

/-- The fields of a type behind a pointer, with their names; a scalar is one field without a name. -/
def Lang.fields {T : Type} (L : Lang T) (t : T) : Option (List (String × Scalar)) :=
  match L.scalar t with
  | some s => some [("", s)]
  | none => do
    let n ← L.structName t
    let fields ← L.structs.lookup n
    fields.mapM fun f => (L.scalar f.2).map fun s => (f.1, s)

/-- Where a field is found by its name, and its type. -/
def Machine.field (M : Machine) (fs : List (String × Scalar)) (n : String) : Option (Nat × Scalar) :=
  ((fs.map Prod.fst).zip ((M.offsets 0 (fs.map Prod.snd)).zip (fs.map Prod.snd))).lookup n

/-- What one side stores through a pointer, the other side finds under the same names with the same types; nothing outside of the list is
changed. -/
def Exchange (fs fs' : List (String × Scalar)) : Prop :=
  ∀ (M : Machine), M.Sane → ∀ (m : Memory) (p : Nat) (v : List (List Nat)), (∀ ws ∈ v, M.Fits (fs.map Prod.snd) ws) →
    (∀ (i : Nat) (ws : List Nat), v[i]? = some ws → ∀ (j : Nat) n s w, fs[j]? = some (n, s) → ws[j]? = some w → ∃ o, M.field fs' n = some (o, s) ∧
      M.load (M.storeList m p (fs.map Prod.snd) v) (p + i * M.structSize (fs'.map Prod.snd) + o) s = w) ∧
    (∀ x, x < p ∨ p + v.length * M.structSize (fs'.map Prod.snd) ≤ x → M.storeList m p (fs.map Prod.snd) v x = m x)

/-! ### The calls of the model -/

end Verif.Abi

namespace Verif
open Abi

/-- The function that is called. `lib.rs:90-783`. -/
def Call.name : Call → String
  | .freeString _ => "free_gphrx_string_buffer"
  | .freeBytes _ _ => "free_gphrx_bytes_buffer"
  | .freeGraph _ => "free_gphrx_graph"
  | .freeEdgeList _ _ => "free_gphrx_edge_list"
  | .freeVertexList _ _ => "free_gphrx_vertex_list"
  | .newUndirected => "gphrx_new_undirected"
  | .newDirected => "gphrx_new_directed"
  | .fromBytes _ _ _ => "gphrx_from_bytes"
  | .duplicate _ => "gphrx_duplicate"
  | .matrixString _ => "gphrx_matrix_string"
  | .toBytes _ _ => "gphrx_to_bytes"
  | .isUndirected _ => "gphrx_is_undirected"
  | .vertexCount _ => "gphrx_vertex_count"
  | .edgeCount _ => "gphrx_edge_count"
  | .doesEdgeExist _ _ _ => "gphrx_does_edge_exist"
  | .findAvgPoolMatrix _ _ => "gphrx_find_avg_pool_matrix"
  | .approximate _ _ _ => "gphrx_approximate"
  | .compress _ _ => "gphrx_compress"
  | .getEdgeList _ _ => "gphrx_get_edge_list"
  | .addVertex _ _ _ _ => "gphrx_add_vertex"
  | .addEdge _ _ _ => "gphrx_add_edge"
  | .deleteEdge _ _ _ => "gphrx_delete_edge"
  | .getInEdgesList _ _ _ => "gphrx_get_vertex_in_edges_list"
  | .getOutEdgesList _ _ _ => "gphrx_get_vertex_out_edges_list"
  | .getInDegree _ _ => "gphrx_get_vertex_in_degree"
  | .getOutDegree _ _ => "gphrx_get_vertex_out_degree"
  | .freeCGraph _ => "free_gphrx_compressed_graph"
  | .cDuplicate _ => "gphrx_compressed_graph_duplicate"
  | .cCompressionLevel _ => "gphrx_compressed_graph_compression_level"
  | .cIsUndirected _ => "gphrx_compressed_graph_is_undirected"
  | .cVertexCount _ => "gphrx_compressed_graph_vertex_count"
  | .cEdgeCount _ => "gphrx_compressed_graph_edge_count"
  | .cDoesEdgeExist _ _ _ => "gphrx_compressed_graph_does_edge_exist"
  | .cGetEntry _ _ _ => "gphrx_get_compressed_matrix_entry"
  | .cMatrixString _ => "gphrx_compressed_graph_matrix_string"
  | .cToBytes _ _ => "gphrx_compressed_graph_to_bytes"
  | .cFromBytes _ _ _ => "gphrx_compressed_graph_from_bytes"
  | .decompress _ => "gphrx_decompress"
  | .freeMatrix _ => "free_gphrx_matrix"
  | .mDuplicate _ => "gphrx_matrix_duplicate"
  | .freeEntryList _ _ => "free_gphrx_matrix_entry_list"
  | .mDimension _ => "gphrx_matrix_dimension"
  | .mEntryCount _ => "gphrx_matrix_entry_count"
  | .mGetEntry _ _ _ => "gphrx_matrix_get_entry"
  | .mToString _ => "gphrx_matrix_to_string"
  | .mToStringWithPrecision _ _ => "gphrx_matrix_to_string_with_precision"
  | .mGetEntryList _ _ => "gphrx_matrix_get_entry_list"

/-- The arguments as words; `bits` gives the bits of a double. A handle is a structure with one pointer. -/
def Call.words (bits : F64 → Nat) : Call → List (List Nat)
  | .freeString p => [[p]]
  | .freeBytes p n => [[p], [n]]
  | .freeGraph p => [[p]]
  | .freeEdgeList p n => [[p], [n]]
  | .freeVertexList p n => [[p], [n]]
  | .newUndirected => []
  | .newDirected => []
  | .fromBytes b n e => [[b], [n], [e]]
  | .duplicate p => [[p]]
  | .matrixString p => [[p]]
  | .toBytes p n => [[p], [n]]
  | .isUndirected p => [[p]]
  | .vertexCount p => [[p]]
  | .edgeCount p => [[p]]
  | .doesEdgeExist p u v => [[p], [u], [v]]
  | .findAvgPoolMatrix p b => [[p], [b]]
  | .approximate p b t => [[p], [b], [bits t]]
  | .compress p l => [[p], [l]]
  | .getEdgeList p n => [[p], [n]]
  | .addVertex p v t n => [[p], [v], [t], [n]]
  | .addEdge p u v => [[p], [u], [v]]
  | .deleteEdge p u v => [[p], [u], [v]]
  | .getInEdgesList p v n => [[p], [v], [n]]
  | .getOutEdgesList p v n => [[p], [v], [n]]
  | .getInDegree p v => [[p], [v]]
  | .getOutDegree p v => [[p], [v]]
  | .freeCGraph p => [[p]]
  | .cDuplicate p => [[p]]
  | .cCompressionLevel p => [[p]]
  | .cIsUndirected p => [[p]]
  | .cVertexCount p => [[p]]
  | .cEdgeCount p => [[p]]
  | .cDoesEdgeExist p u v => [[p], [u], [v]]
  | .cGetEntry p c r => [[p], [c], [r]]
  | .cMatrixString p => [[p]]
  | .cToBytes p n => [[p], [n]]
  | .cFromBytes b n e => [[b], [n], [e]]
  | .decompress p => [[p]]
  | .freeMatrix p => [[p]]
  | .mDuplicate p => [[p]]
  | .freeEntryList p n => [[p], [n]]
  | .mDimension p => [[p]]
  | .mEntryCount p => [[p]]
  | .mGetEntry p c r => [[p], [c], [r]]
  | .mToString p => [[p]]
  | .mToStringWithPrecision p d => [[p], [d]]
  | .mGetEntryList p n => [[p], [n]]

/-- The result is of the declared kind: nothing, a pointer or handle, an integer, a double. -/
def Val.Is : Val → Option Layout → Prop
  | .unit, r => r = none
  | .ptr _, r => r = some (.one .ptr) ∨ r = some (.agg [.ptr])
  | .num _, r => r = some (.one .u8) ∨ r = some (.one .i8) ∨ r = some (.one .u64)
  | .f64 _, r => r = some (.one .f64)

/-- The words of a result. -/
def Val.words (bits : F64 → Nat) : Val → List Nat
  | .unit => []
  | .ptr p => [p]
  | .num n => [n]
  | .f64 x => [bits x]

end Verif

namespace Verif.Abi

/-- `f'` is how the language `L'` declares the function `f` of the language `L`.  Calls from `L'` work: all arguments and results
arrive, and both sides see the same values behind every pointer whose target is declared on both sides. -/
def Understood {T T' : Type} (L : Lang T) (L' : Lang T') (f : Fn T) (f' : Fn T') : Prop :=
  (∃ ls ls', L.argLayouts f = some ls ∧ L'.argLayouts f' = some ls' ∧
    ∀ (M : Machine) (C : Convention M) vs, M.FitsAll ls vs → C.take ls (C.put ls' vs) = vs) ∧
  (∃ r r', L.retLayout f = some r ∧ L'.retLayout f' = some r' ∧ (r = none ↔ r' = none) ∧
    ∀ a b, r = some a → r' = some b → ∀ (M : Machine) (C : Convention M) ws, M.Fits a.scalars ws → C.takeRet b (C.putRet a ws) = ws) ∧
  ∀ t t', (t, t') ∈ f.args.zip f'.args ∨ (f.ret = some t ∧ f'.ret = some t') →
    ∀ u u', L.pointee t = some u → L'.pointee t' = some u' →
      ∃ l l', L.fields u = some l ∧ L'.fields u' = some l' ∧ Exchange l l' ∧ Exchange l' l

/-- The two languages declare the same functions, each once, and calls from `L'` to `L` work. -/
def Compatible {T T' : Type} (L : Lang T) (L' : Lang T') : Prop :=
  (L.fns.map Fn.name).Nodup ∧ (L.fns.map Fn.name).Perm (L'.fns.map Fn.name) ∧
  ∀ f ∈ L.fns, ∀ f' ∈ L'.fns, f.name = f'.name → Understood L L' f f'

end Verif.Abi
