/-!
# Model of the declarations of the C interface

The same functions and structures are described three times: in Rust (`graphrox-c/src/lib.rs`), in the C header
(`graphrox-c/gphrx.h`) and for `ctypes` (`graphrox-py/graphrox/__init__.py`).  The tables below list them in the order of the
files.  Names of parameters are left out.

Simplifications: `typedef`s and the type alias `CBool` are the types they stand for; an empty parameter list in C and
`argtypes = None` mean no parameters.
-/

namespace Verif.Abi

/-- Scalar types of the C ABI.  `size` is `size_t`, which is Rust's `usize`. -/
inductive Scalar where
  | u8 | i8 | u64 | f64 | size | char | ptr
  deriving DecidableEq

/-- How a value is passed: a scalar, or a structure of scalars. -/
inductive Layout where
  | one (s : Scalar)
  | agg (ss : List Scalar)
  deriving DecidableEq

/-- A function declaration. -/
structure Fn (T : Type) where
  name : String
  args : List T
  ret : Option T

/-- The declarations of one language: functions, structures with their fields, and the meaning of the types: `scalar` and `structName`
say what a type is, `pointee` what a pointer points to (`none` if that is not said). -/
structure Lang (T : Type) where
  fns : List (Fn T)
  structs : List (String × List (String × T))
  scalar : T → Option Scalar
  structName : T → Option String
  pointee : T → Option T

/-- How values of the type are passed. -/
def Lang.layout {T : Type} (L : Lang T) (t : T) : Option Layout :=
  match L.scalar t with
  | some s => some (.one s)
  | none => do
    let n ← L.structName t
    let fields ← L.structs.lookup n
    let ss ← fields.mapM fun f => L.scalar f.2
    pure (.agg ss)

/-- Types in `lib.rs`. `CBool` is `i8` (`lib.rs:14`). -/
inductive RTy where
  | u8 | cBool | u64 | f64 | usize | cVoid | cChar
  | mutPtr (t : RTy)
  | constPtr (t : RTy)
  | struct (name : String)

/-- Rust types in the C ABI. Rust reference, "type layout" and `std::ffi`. -/
def RTy.scalar : RTy → Option Scalar
  | .u8 => some .u8
  | .cBool => some .i8
  | .u64 => some .u64
  | .f64 => some .f64
  | .usize => some .size
  | .cChar => some .char
  | .mutPtr _ => some .ptr
  | .constPtr _ => some .ptr
  | .cVoid => none
  | .struct _ => none

/-- The structure a Rust type names. -/
def RTy.structName : RTy → Option String
  | .struct n => some n
  | _ => none

/-- What a Rust pointer points to. -/
def RTy.pointee : RTy → Option RTy
  | .mutPtr .cVoid => none
  | .constPtr .cVoid => none
  | .mutPtr t => some t
  | .constPtr t => some t
  | _ => none

/-- The declarations of the library. `lib.rs:48-88` (structures) and `lib.rs:90-783` (functions). -/
def rust : Lang RTy where
  structs := [("GphrxGraph", [("graph_ptr", (.mutPtr .cVoid))]),
  ("GphrxGraphEdge", [("from_vertex", .u64), ("to_vertex", .u64)]),
  ("GphrxGraphVertex", [("vertex_id", .u64)]),
  ("GphrxMatrixEntry", [("entry", .f64), ("col", .u64), ("row", .u64)]),
  ("GphrxCompressedGraph", [("graph_ptr", (.mutPtr .cVoid))]),
  ("GphrxCompressedGraphBuilder", [("builder_ptr", (.mutPtr .cVoid))]),
  ("GphrxCsrSquareMatrix", [("matrix_ptr", (.mutPtr .cVoid))])]
  fns := [⟨"free_gphrx_string_buffer", [(.mutPtr .cChar)], none⟩,
  ⟨"free_gphrx_bytes_buffer", [(.mutPtr .u8), .usize], none⟩,
  ⟨"free_gphrx_graph", [(.struct "GphrxGraph")], none⟩,
  ⟨"free_gphrx_edge_list", [(.mutPtr (.struct "GphrxGraphEdge")), .usize], none⟩,
  ⟨"free_gphrx_vertex_list", [(.mutPtr (.struct "GphrxGraphVertex")), .usize], none⟩,
  ⟨"gphrx_new_undirected", [], some (.struct "GphrxGraph")⟩,
  ⟨"gphrx_new_directed", [], some (.struct "GphrxGraph")⟩,
  ⟨"gphrx_from_bytes", [(.constPtr .u8), .usize, (.mutPtr .u8)], some (.struct "GphrxGraph")⟩,
  ⟨"gphrx_duplicate", [(.struct "GphrxGraph")], some (.struct "GphrxGraph")⟩,
  ⟨"gphrx_matrix_string", [(.struct "GphrxGraph")], some (.mutPtr .cChar)⟩,
  ⟨"gphrx_to_bytes", [(.struct "GphrxGraph"), (.mutPtr .usize)], some (.mutPtr .u8)⟩,
  ⟨"gphrx_is_undirected", [(.struct "GphrxGraph")], some .cBool⟩,
  ⟨"gphrx_vertex_count", [(.struct "GphrxGraph")], some .u64⟩,
  ⟨"gphrx_edge_count", [(.struct "GphrxGraph")], some .u64⟩,
  ⟨"gphrx_does_edge_exist", [(.struct "GphrxGraph"), .u64, .u64], some .cBool⟩,
  ⟨"gphrx_find_avg_pool_matrix", [(.struct "GphrxGraph"), .u64], some (.struct "GphrxCsrSquareMatrix")⟩,
  ⟨"gphrx_approximate", [(.struct "GphrxGraph"), .u64, .f64], some (.struct "GphrxGraph")⟩,
  ⟨"gphrx_compress", [(.struct "GphrxGraph"), .u8], some (.struct "GphrxCompressedGraph")⟩,
  ⟨"gphrx_get_edge_list", [(.struct "GphrxGraph"), (.mutPtr .usize)], some (.mutPtr (.struct "GphrxGraphEdge"))⟩,
  ⟨"gphrx_add_vertex", [(.struct "GphrxGraph"), .u64, (.constPtr .u64), .usize], none⟩,
  ⟨"gphrx_add_edge", [(.struct "GphrxGraph"), .u64, .u64], none⟩,
  ⟨"gphrx_delete_edge", [(.struct "GphrxGraph"), .u64, .u64], none⟩,
  ⟨"gphrx_get_vertex_in_edges_list", [(.struct "GphrxGraph"), .u64, (.mutPtr .usize)], some (.mutPtr (.struct "GphrxGraphVertex"))⟩,
  ⟨"gphrx_get_vertex_out_edges_list", [(.struct "GphrxGraph"), .u64, (.mutPtr .usize)], some (.mutPtr (.struct "GphrxGraphVertex"))⟩,
  ⟨"gphrx_get_vertex_in_degree", [(.struct "GphrxGraph"), .u64], some .u64⟩,
  ⟨"gphrx_get_vertex_out_degree", [(.struct "GphrxGraph"), .u64], some .u64⟩,
  ⟨"free_gphrx_compressed_graph", [(.struct "GphrxCompressedGraph")], none⟩,
  ⟨"gphrx_compressed_graph_duplicate", [(.struct "GphrxCompressedGraph")], some (.struct "GphrxCompressedGraph")⟩,
  ⟨"gphrx_compressed_graph_compression_level", [(.struct "GphrxCompressedGraph")], some .u8⟩,
  ⟨"gphrx_compressed_graph_is_undirected", [(.struct "GphrxCompressedGraph")], some .cBool⟩,
  ⟨"gphrx_compressed_graph_vertex_count", [(.struct "GphrxCompressedGraph")], some .u64⟩,
  ⟨"gphrx_compressed_graph_edge_count", [(.struct "GphrxCompressedGraph")], some .u64⟩,
  ⟨"gphrx_compressed_graph_does_edge_exist", [(.struct "GphrxCompressedGraph"), .u64, .u64], some .cBool⟩,
  ⟨"gphrx_get_compressed_matrix_entry", [(.struct "GphrxCompressedGraph"), .u64, .u64], some .u64⟩,
  ⟨"gphrx_compressed_graph_matrix_string", [(.struct "GphrxCompressedGraph")], some (.mutPtr .cChar)⟩,
  ⟨"gphrx_compressed_graph_to_bytes", [(.struct "GphrxCompressedGraph"), (.mutPtr .usize)], some (.mutPtr .u8)⟩,
  ⟨"gphrx_compressed_graph_from_bytes", [(.constPtr .u8), .usize, (.mutPtr .u8)], some (.struct "GphrxCompressedGraph")⟩,
  ⟨"gphrx_decompress", [(.struct "GphrxCompressedGraph")], some (.struct "GphrxGraph")⟩,
  ⟨"free_gphrx_matrix", [(.struct "GphrxCsrSquareMatrix")], none⟩,
  ⟨"gphrx_matrix_duplicate", [(.struct "GphrxCsrSquareMatrix")], some (.struct "GphrxCsrSquareMatrix")⟩,
  ⟨"free_gphrx_matrix_entry_list", [(.mutPtr (.struct "GphrxMatrixEntry")), .usize], none⟩,
  ⟨"gphrx_matrix_dimension", [(.struct "GphrxCsrSquareMatrix")], some .u64⟩,
  ⟨"gphrx_matrix_entry_count", [(.struct "GphrxCsrSquareMatrix")], some .u64⟩,
  ⟨"gphrx_matrix_get_entry", [(.struct "GphrxCsrSquareMatrix"), .u64, .u64], some .f64⟩,
  ⟨"gphrx_matrix_to_string", [(.struct "GphrxCsrSquareMatrix")], some (.mutPtr .cChar)⟩,
  ⟨"gphrx_matrix_to_string_with_precision", [(.struct "GphrxCsrSquareMatrix"), .usize], some (.mutPtr .cChar)⟩,
  ⟨"gphrx_matrix_get_entry_list", [(.struct "GphrxCsrSquareMatrix"), (.mutPtr .usize)], some (.mutPtr (.struct "GphrxMatrixEntry"))⟩]
  scalar := RTy.scalar
  structName := RTy.structName
  pointee := RTy.pointee

/-- Types in `gphrx.h`; the flag of a pointer is `const`. -/
inductive HTy where
  | uint8 | int8 | uint64 | double | size | char | void
  | ptr (const : Bool) (t : HTy)
  | struct (name : String)

/-- C types in the C ABI; `stdint.h`, `stddef.h`. -/
def HTy.scalar : HTy → Option Scalar
  | .uint8 => some .u8
  | .int8 => some .i8
  | .uint64 => some .u64
  | .double => some .f64
  | .size => some .size
  | .char => some .char
  | .ptr _ _ => some .ptr
  | .void => none
  | .struct _ => none

/-- The structure a C type names. -/
def HTy.structName : HTy → Option String
  | .struct n => some n
  | _ => none

/-- What a C pointer points to. -/
def HTy.pointee : HTy → Option HTy
  | .ptr _ .void => none
  | .ptr _ t => some t
  | _ => none

/-- The header. `gphrx.h:8-33` (structures) and `gphrx.h:35-121` (functions). -/
def header : Lang HTy where
  structs := [("GphrxGraph", [("graph_ptr", (.ptr true .void))]),
  ("GphrxGraphEdge", [("from_vertex", .uint64), ("to_vertex", .uint64)]),
  ("GphrxGraphVertex", [("vertex_id", .uint64)]),
  ("GphrxMatrixEntry", [("entry", .double), ("col", .uint64), ("row", .uint64)]),
  ("GphrxCompressedGraph", [("graph_ptr", (.ptr true .void))]),
  ("GphrxCsrSquareMatrix", [("matrix_ptr", (.ptr true .void))])]
  fns := [⟨"free_gphrx_string_buffer", [(.ptr true .char)], none⟩,
  ⟨"free_gphrx_bytes_buffer", [(.ptr true .uint8), .size], none⟩,
  ⟨"free_gphrx_graph", [(.struct "GphrxGraph")], none⟩,
  ⟨"free_gphrx_edge_list", [(.ptr true (.struct "GphrxGraphEdge")), .size], none⟩,
  ⟨"free_gphrx_vertex_list", [(.ptr true (.struct "GphrxGraphVertex")), .size], none⟩,
  ⟨"gphrx_new_undirected", [], some (.struct "GphrxGraph")⟩,
  ⟨"gphrx_new_directed", [], some (.struct "GphrxGraph")⟩,
  ⟨"gphrx_from_bytes", [(.ptr true .uint8), .size, (.ptr false .uint8)], some (.struct "GphrxGraph")⟩,
  ⟨"gphrx_duplicate", [(.struct "GphrxGraph")], some (.struct "GphrxGraph")⟩,
  ⟨"gphrx_matrix_string", [(.struct "GphrxGraph")], some (.ptr true .char)⟩,
  ⟨"gphrx_to_bytes", [(.struct "GphrxGraph"), (.ptr false .size)], some (.ptr true .uint8)⟩,
  ⟨"gphrx_is_undirected", [(.struct "GphrxGraph")], some .int8⟩,
  ⟨"gphrx_vertex_count", [(.struct "GphrxGraph")], some .uint64⟩,
  ⟨"gphrx_edge_count", [(.struct "GphrxGraph")], some .uint64⟩,
  ⟨"gphrx_does_edge_exist", [(.struct "GphrxGraph"), .uint64, .uint64], some .int8⟩,
  ⟨"gphrx_find_avg_pool_matrix", [(.struct "GphrxGraph"), .uint64], some (.struct "GphrxCsrSquareMatrix")⟩,
  ⟨"gphrx_approximate", [(.struct "GphrxGraph"), .uint64, .double], some (.struct "GphrxGraph")⟩,
  ⟨"gphrx_compress", [(.struct "GphrxGraph"), .uint8], some (.struct "GphrxCompressedGraph")⟩,
  ⟨"gphrx_get_edge_list", [(.struct "GphrxGraph"), (.ptr false .size)], some (.ptr true (.struct "GphrxGraphEdge"))⟩,
  ⟨"gphrx_add_vertex", [(.struct "GphrxGraph"), .uint64, (.ptr false .uint64), .size], none⟩,
  ⟨"gphrx_add_edge", [(.struct "GphrxGraph"), .uint64, .uint64], none⟩,
  ⟨"gphrx_delete_edge", [(.struct "GphrxGraph"), .uint64, .uint64], none⟩,
  ⟨"gphrx_get_vertex_in_edges_list", [(.struct "GphrxGraph"), .uint64, (.ptr false .size)], some (.ptr true (.struct "GphrxGraphVertex"))⟩,
  ⟨"gphrx_get_vertex_out_edges_list", [(.struct "GphrxGraph"), .uint64, (.ptr false .size)], some (.ptr true (.struct "GphrxGraphVertex"))⟩,
  ⟨"gphrx_get_vertex_in_degree", [(.struct "GphrxGraph"), .uint64], some .uint64⟩,
  ⟨"gphrx_get_vertex_out_degree", [(.struct "GphrxGraph"), .uint64], some .uint64⟩,
  ⟨"free_gphrx_compressed_graph", [(.struct "GphrxCompressedGraph")], none⟩,
  ⟨"gphrx_compressed_graph_duplicate", [(.struct "GphrxCompressedGraph")], some (.struct "GphrxCompressedGraph")⟩,
  ⟨"gphrx_compressed_graph_compression_level", [(.struct "GphrxCompressedGraph")], some .uint8⟩,
  ⟨"gphrx_compressed_graph_is_undirected", [(.struct "GphrxCompressedGraph")], some .int8⟩,
  ⟨"gphrx_compressed_graph_vertex_count", [(.struct "GphrxCompressedGraph")], some .uint64⟩,
  ⟨"gphrx_compressed_graph_edge_count", [(.struct "GphrxCompressedGraph")], some .uint64⟩,
  ⟨"gphrx_compressed_graph_does_edge_exist", [(.struct "GphrxCompressedGraph"), .uint64, .uint64], some .int8⟩,
  ⟨"gphrx_get_compressed_matrix_entry", [(.struct "GphrxCompressedGraph"), .uint64, .uint64], some .uint64⟩,
  ⟨"gphrx_compressed_graph_matrix_string", [(.struct "GphrxCompressedGraph")], some (.ptr true .char)⟩,
  ⟨"gphrx_compressed_graph_to_bytes", [(.struct "GphrxCompressedGraph"), (.ptr false .size)], some (.ptr true .uint8)⟩,
  ⟨"gphrx_compressed_graph_from_bytes", [(.ptr true .uint8), .size, (.ptr false .uint8)], some (.struct "GphrxCompressedGraph")⟩,
  ⟨"gphrx_decompress", [(.struct "GphrxCompressedGraph")], some (.struct "GphrxGraph")⟩,
  ⟨"free_gphrx_matrix", [(.struct "GphrxCsrSquareMatrix")], none⟩,
  ⟨"free_gphrx_matrix_entry_list", [(.ptr true (.struct "GphrxMatrixEntry")), .size], none⟩,
  ⟨"gphrx_matrix_duplicate", [(.struct "GphrxCsrSquareMatrix")], some (.struct "GphrxCsrSquareMatrix")⟩,
  ⟨"gphrx_matrix_dimension", [(.struct "GphrxCsrSquareMatrix")], some .uint64⟩,
  ⟨"gphrx_matrix_entry_count", [(.struct "GphrxCsrSquareMatrix")], some .uint64⟩,
  ⟨"gphrx_matrix_get_entry", [(.struct "GphrxCsrSquareMatrix"), .uint64, .uint64], some .double⟩,
  ⟨"gphrx_matrix_to_string", [(.struct "GphrxCsrSquareMatrix")], some (.ptr true .char)⟩,
  ⟨"gphrx_matrix_to_string_with_precision", [(.struct "GphrxCsrSquareMatrix"), .size], some (.ptr true .char)⟩,
  ⟨"gphrx_matrix_get_entry_list", [(.struct "GphrxCsrSquareMatrix"), (.ptr false .size)], some (.ptr true (.struct "GphrxMatrixEntry"))⟩]
  scalar := HTy.scalar
  structName := HTy.structName
  pointee := HTy.pointee

/-- Types of `ctypes`. -/
inductive PTy where
  | c_uint8 | c_ubyte | c_int8 | c_uint64 | c_double | c_size_t | c_void_p
  | pointer (t : PTy)
  | structure (name : String)

/-- `ctypes` types in the C ABI. Python documentation of `ctypes`, "fundamental data types". -/
def PTy.scalar : PTy → Option Scalar
  | .c_uint8 => some .u8
  | .c_ubyte => some .u8
  | .c_int8 => some .i8
  | .c_uint64 => some .u64
  | .c_double => some .f64
  | .c_size_t => some .size
  | .c_void_p => some .ptr
  | .pointer _ => some .ptr
  | .structure _ => none

/-- The structure a `ctypes` type names. -/
def PTy.structName : PTy → Option String
  | .structure n => some n
  | _ => none

/-- What a `ctypes` pointer points to. -/
def PTy.pointee : PTy → Option PTy
  | .pointer t => some t
  | _ => none

/-- The declarations for `ctypes`. `__init__.py:40-76` (structures) and `__init__.py:84-248` (`argtypes` and `restype`). -/
def python : Lang PTy where
  structs := [("_GphrxGraph_c", [("graph_ptr", .c_void_p)]),
  ("_GphrxGraphEdge_c", [("from_vertex", .c_uint64), ("to_vertex", .c_uint64)]),
  ("_GphrxGraphVertex_c", [("vertex_id", .c_uint64)]),
  ("_GphrxMatrixEntry_c", [("entry", .c_double), ("col", .c_uint64), ("row", .c_uint64)]),
  ("_GphrxCompressedGraph_c", [("graph_ptr", .c_void_p)]),
  ("_GphrxCsrSquareMatrix_c", [("matrix_ptr", .c_void_p)])]
  fns := [⟨"free_gphrx_string_buffer", [.c_void_p], none⟩,
  ⟨"free_gphrx_bytes_buffer", [.c_void_p, .c_size_t], none⟩,
  ⟨"free_gphrx_graph", [(.structure "_GphrxGraph_c")], none⟩,
  ⟨"free_gphrx_edge_list", [(.pointer (.structure "_GphrxGraphEdge_c")), .c_size_t], none⟩,
  ⟨"free_gphrx_vertex_list", [(.pointer (.structure "_GphrxGraphVertex_c")), .c_size_t], none⟩,
  ⟨"gphrx_new_undirected", [], some (.structure "_GphrxGraph_c")⟩,
  ⟨"gphrx_new_directed", [], some (.structure "_GphrxGraph_c")⟩,
  ⟨"gphrx_from_bytes", [(.pointer .c_ubyte), .c_size_t, (.pointer .c_uint8)], some (.structure "_GphrxGraph_c")⟩,
  ⟨"gphrx_duplicate", [(.structure "_GphrxGraph_c")], some (.structure "_GphrxGraph_c")⟩,
  ⟨"gphrx_matrix_string", [(.structure "_GphrxGraph_c")], some .c_void_p⟩,
  ⟨"gphrx_to_bytes", [(.structure "_GphrxGraph_c"), (.pointer .c_size_t)], some (.pointer .c_ubyte)⟩,
  ⟨"gphrx_is_undirected", [(.structure "_GphrxGraph_c")], some .c_int8⟩,
  ⟨"gphrx_vertex_count", [(.structure "_GphrxGraph_c")], some .c_uint64⟩,
  ⟨"gphrx_edge_count", [(.structure "_GphrxGraph_c")], some .c_uint64⟩,
  ⟨"gphrx_does_edge_exist", [(.structure "_GphrxGraph_c"), .c_uint64, .c_uint64], some .c_int8⟩,
  ⟨"gphrx_find_avg_pool_matrix", [(.structure "_GphrxGraph_c"), .c_uint64], some (.structure "_GphrxCsrSquareMatrix_c")⟩,
  ⟨"gphrx_approximate", [(.structure "_GphrxGraph_c"), .c_uint64, .c_double], some (.structure "_GphrxGraph_c")⟩,
  ⟨"gphrx_compress", [(.structure "_GphrxGraph_c"), .c_uint8], some (.structure "_GphrxCompressedGraph_c")⟩,
  ⟨"gphrx_get_edge_list", [(.structure "_GphrxGraph_c"), (.pointer .c_size_t)], some (.pointer (.structure "_GphrxGraphEdge_c"))⟩,
  ⟨"gphrx_add_vertex", [(.structure "_GphrxGraph_c"), .c_uint64, (.pointer .c_uint64), .c_size_t], none⟩,
  ⟨"gphrx_add_edge", [(.structure "_GphrxGraph_c"), .c_uint64, .c_uint64], none⟩,
  ⟨"gphrx_delete_edge", [(.structure "_GphrxGraph_c"), .c_uint64, .c_uint64], none⟩,
  ⟨"gphrx_get_vertex_in_edges_list", [(.structure "_GphrxGraph_c"), .c_uint64, (.pointer .c_size_t)], some (.pointer (.structure "_GphrxGraphVertex_c"))⟩,
  ⟨"gphrx_get_vertex_out_edges_list", [(.structure "_GphrxGraph_c"), .c_uint64, (.pointer .c_size_t)], some (.pointer (.structure "_GphrxGraphVertex_c"))⟩,
  ⟨"gphrx_get_vertex_in_degree", [(.structure "_GphrxGraph_c"), .c_uint64], some .c_uint64⟩,
  ⟨"gphrx_get_vertex_out_degree", [(.structure "_GphrxGraph_c"), .c_uint64], some .c_uint64⟩,
  ⟨"free_gphrx_compressed_graph", [(.structure "_GphrxCompressedGraph_c")], none⟩,
  ⟨"gphrx_compressed_graph_duplicate", [(.structure "_GphrxCompressedGraph_c")], some (.structure "_GphrxCompressedGraph_c")⟩,
  ⟨"gphrx_compressed_graph_compression_level", [(.structure "_GphrxCompressedGraph_c")], some .c_uint8⟩,
  ⟨"gphrx_compressed_graph_is_undirected", [(.structure "_GphrxCompressedGraph_c")], some .c_int8⟩,
  ⟨"gphrx_compressed_graph_vertex_count", [(.structure "_GphrxCompressedGraph_c")], some .c_uint64⟩,
  ⟨"gphrx_compressed_graph_edge_count", [(.structure "_GphrxCompressedGraph_c")], some .c_uint64⟩,
  ⟨"gphrx_compressed_graph_does_edge_exist", [(.structure "_GphrxCompressedGraph_c"), .c_uint64, .c_uint64], some .c_int8⟩,
  ⟨"gphrx_get_compressed_matrix_entry", [(.structure "_GphrxCompressedGraph_c"), .c_uint64, .c_uint64], some .c_uint64⟩,
  ⟨"gphrx_compressed_graph_matrix_string", [(.structure "_GphrxCompressedGraph_c")], some .c_void_p⟩,
  ⟨"gphrx_compressed_graph_to_bytes", [(.structure "_GphrxCompressedGraph_c"), (.pointer .c_size_t)], some (.pointer .c_ubyte)⟩,
  ⟨"gphrx_compressed_graph_from_bytes", [(.pointer .c_ubyte), .c_size_t, (.pointer .c_uint8)], some (.structure "_GphrxCompressedGraph_c")⟩,
  ⟨"gphrx_decompress", [(.structure "_GphrxCompressedGraph_c")], some (.structure "_GphrxGraph_c")⟩,
  ⟨"free_gphrx_matrix", [(.structure "_GphrxCsrSquareMatrix_c")], none⟩,
  ⟨"free_gphrx_matrix_entry_list", [(.pointer (.structure "_GphrxMatrixEntry_c")), .c_size_t], none⟩,
  ⟨"gphrx_matrix_duplicate", [(.structure "_GphrxCsrSquareMatrix_c")], some (.structure "_GphrxCsrSquareMatrix_c")⟩,
  ⟨"gphrx_matrix_dimension", [(.structure "_GphrxCsrSquareMatrix_c")], some .c_uint64⟩,
  ⟨"gphrx_matrix_entry_count", [(.structure "_GphrxCsrSquareMatrix_c")], some .c_uint64⟩,
  ⟨"gphrx_matrix_get_entry", [(.structure "_GphrxCsrSquareMatrix_c"), .c_uint64, .c_uint64], some .c_double⟩,
  ⟨"gphrx_matrix_to_string", [(.structure "_GphrxCsrSquareMatrix_c")], some .c_void_p⟩,
  ⟨"gphrx_matrix_to_string_with_precision", [(.structure "_GphrxCsrSquareMatrix_c"), .c_size_t], some .c_void_p⟩,
  ⟨"gphrx_matrix_get_entry_list", [(.structure "_GphrxCsrSquareMatrix_c"), (.pointer .c_size_t)], some (.pointer (.structure "_GphrxMatrixEntry_c"))⟩]
  scalar := PTy.scalar
  structName := PTy.structName
  pointee := PTy.pointee

/-- The functions that the classes of the Python module call. `__init__.py:251-787`. -/
def pythonCalls : List String :=
  ["gphrx_new_undirected", "gphrx_new_directed", "free_gphrx_graph", "gphrx_to_bytes", "free_gphrx_bytes_buffer",
   "gphrx_from_bytes", "gphrx_duplicate", "gphrx_matrix_string", "free_gphrx_string_buffer", "gphrx_is_undirected",
   "gphrx_vertex_count", "gphrx_edge_count", "gphrx_does_edge_exist", "gphrx_add_vertex", "gphrx_add_edge",
   "gphrx_delete_edge", "gphrx_find_avg_pool_matrix", "gphrx_approximate", "gphrx_compress", "gphrx_get_edge_list",
   "gphrx_get_vertex_in_edges_list", "gphrx_get_vertex_out_edges_list", "gphrx_get_vertex_in_degree",
   "gphrx_get_vertex_out_degree", "free_gphrx_edge_list", "free_gphrx_vertex_list", "free_gphrx_compressed_graph",
   "gphrx_compressed_graph_to_bytes", "gphrx_compressed_graph_from_bytes", "gphrx_compressed_graph_duplicate",
   "gphrx_compressed_graph_matrix_string", "gphrx_decompress", "gphrx_compressed_graph_compression_level",
   "gphrx_compressed_graph_is_undirected", "gphrx_compressed_graph_vertex_count", "gphrx_compressed_graph_edge_count",
   "gphrx_compressed_graph_does_edge_exist", "gphrx_get_compressed_matrix_entry", "free_gphrx_matrix",
   "gphrx_matrix_duplicate", "gphrx_matrix_dimension", "gphrx_matrix_entry_count", "gphrx_matrix_get_entry",
   "gphrx_matrix_to_string_with_precision", "gphrx_matrix_get_entry_list", "free_gphrx_matrix_entry_list"]

/-- `GPHRX_ERROR_INVALID_FORMAT`. `lib.rs:12`. -/
def rustInvalidFormat : Nat := 1
/-- `GPHRX_ERROR_INVALID_FORMAT`. `gphrx.h:6`. -/
def headerInvalidFormat : Nat := 1
/-- `_GphrxError.GPHRX_ERROR_INVALID_FORMAT.value`. `__init__.py:81`. -/
def pythonInvalidFormat : Nat := 1
/-- `_GphrxError.GPHRX_NO_ERROR.value`. `__init__.py:80`. -/
def pythonNoError : Nat := 0

end Verif.Abi
