{"id": "C01", "title": "Any edit history behaves like a set of edges plus a vertex count", "statement": "After any sequence of add_vertex / add_edge / delete_edge on a new directed or undirected Graph, vertex_count, edge_count, does_edge_exist, in/out edges, degrees and is_undirected are exactly those of an abstract graph (a number of vertices and a set of ordered pairs) to which the same edits were applied.", "quantifier": "every finite sequence of edits with arbitrary u64 ids, both directions, every hash iteration order", "why_tests_cant": "histories are unbounded and interact through three redundant fields (dimension, table, counter); tests try a handful of histories", "anchors": ["graphrox-rs/src/graph/standard.rs:add_vertex", "graphrox-rs/src/graph/standard.rs:add_edge", "graphrox-rs/src/graph/standard.rs:delete_edge", "graphrox-rs/src/matrix/csr_adjacency_matrix.rs:set_entry", "graphrox-rs/src/matrix/csr_adjacency_matrix.rs:zero_entry"]}
{"id": "C02", "title": "edge_count is the number of existing edges", "statement": "For every Graph obtainable through the safe API (constructors, from a matrix, edits, decoding bytes, decompression, approximation), edge_count() is the number of ordered pairs (u,v) for which does_edge_exist(u,v) is true.", "quantifier": "every graph reachable through any combination of safe constructors and edits", "why_tests_cant": "the count is a separately maintained counter; agreement in every reachable state is an invariant, not a sample", "anchors": ["graphrox-rs/src/graph/standard.rs:edge_count", "graphrox-rs/src/graph/standard.rs:does_edge_exist", "graphrox-rs/src/matrix/csr_adjacency_matrix.rs:set_entry", "graphrox-rs/src/matrix/csr_adjacency_matrix.rs:zero_entry"]}
{"id": "C03", "title": "Edges stay inside the vertex range and the vertex range never shrinks", "statement": "For every reachable Graph, does_edge_exist(u,v) implies u and v are smaller than vertex_count(); no edit ever decreases vertex_count; delete_edge never changes it; add_edge(u,v) makes it the maximum of the old value, u+1 and v+1.", "quantifier": "every reachable graph and every further edit with any ids below u64::MAX", "why_tests_cant": "needs an invariant over all histories", "anchors": ["graphrox-rs/src/graph/standard.rs:vertex_count", "graphrox-rs/src/matrix/csr_adjacency_matrix.rs:set_entry", "graphrox-rs/src/matrix/csr_adjacency_matrix.rs:zero_entry"]}
{"id": "C04", "title": "Undirected graphs are symmetric in every reachable state", "statement": "If is_undirected() then does_edge_exist(u,v) = does_edge_exist(v,u) for all u,v, after any edits and for any graph obtained from undirected_from, try_from, decompress or approximate.", "quantifier": "every reachable undirected graph and all vertex pairs", "why_tests_cant": "symmetry must survive every history and five constructors", "anchors": ["graphrox-rs/src/graph/standard.rs:add_edge", "graphrox-rs/src/graph/standard.rs:delete_edge", "graphrox-rs/src/graph/standard.rs:undirected_from", "graphrox-rs/src/graph/standard.rs:try_from", "graphrox-rs/src/graph/compressed.rs:decompress", "graphrox-rs/src/graph/standard.rs:approximate"]}
{"id": "C05", "title": "add_edge adds exactly the requested edge", "statement": "add_edge(u,v) (ids below u64::MAX) makes (u,v) exist - and (v,u) if the graph is undirected - changes the existence of no other pair, and raises edge_count by exactly the number of pairs that were new.", "quantifier": "every reachable graph, all u,v and all other pairs", "why_tests_cant": "the frame condition ranges over all other pairs of all graphs", "anchors": ["graphrox-rs/src/graph/standard.rs:add_edge", "graphrox-rs/src/matrix/csr_adjacency_matrix.rs:set_entry"]}
{"id": "C06", "title": "delete_edge removes exactly the requested edge", "statement": "delete_edge(u,v) makes (u,v) - and (v,u) if undirected - not exist, changes no other pair and not the vertex count, and lowers edge_count by exactly the number of pairs that existed; deleting an edge that was just added to a graph without it restores all edges.", "quantifier": "every reachable graph, all u,v including absent edges and u64::MAX", "why_tests_cant": "frame condition over all pairs and histories", "anchors": ["graphrox-rs/src/graph/standard.rs:delete_edge", "graphrox-rs/src/matrix/csr_adjacency_matrix.rs:zero_entry"]}
{"id": "C07", "title": "add_vertex creates the vertex and exactly the listed edges", "statement": "add_vertex(v, None or empty) changes no edge and sets vertex_count to max(old, v+1); add_vertex(v, ts) is the same as add_edge(v,t) for each t in order, and afterwards v < vertex_count. As documented this holds for all ids; the code does not do it when v is new and every listed target is u64::MAX.", "quantifier": "every reachable graph, every v below u64::MAX, every list of targets", "why_tests_cant": "target lists are unbounded and the corner value u64::MAX is one in 2^64", "anchors": ["graphrox-rs/src/graph/standard.rs:add_vertex"]}
{"id": "C08", "title": "The reserved id u64::MAX is ignored without damage", "statement": "add_edge with an endpoint u64::MAX, add_vertex(u64::MAX, anything) and delete_edge with such an endpoint leave the graph completely unchanged and do not panic.", "quantifier": "every reachable graph, every other endpoint and target list", "why_tests_cant": "overflow handling at one boundary value for all states", "anchors": ["graphrox-rs/src/matrix/csr_adjacency_matrix.rs:set_entry", "graphrox-rs/src/graph/standard.rs:add_edge", "graphrox-rs/src/graph/standard.rs:add_vertex"]}
{"id": "C09", "title": "Iteration lists every edge exactly once", "statement": "Iterating a Graph (or a CsrAdjacencyMatrix) terminates, yields each existing edge exactly once and nothing else, has length edge_count, and keeps returning None once exhausted - whatever the hash order and even when deletions left empty columns.", "quantifier": "every reachable graph, every hash iteration order, every number of further next() calls", "why_tests_cant": "RandomState gives a different order on each run; tests see one order at a time", "anchors": ["graphrox-rs/src/matrix/csr_adjacency_matrix.rs:CsrAdjacencyMatrixIter::next", "graphrox-rs/src/graph/standard.rs:StandardGraphIter"]}
{"id": "C10", "title": "Neighbour lists and degrees are exact", "statement": "get_vertex_out_edges(v) contains exactly the w with edge (v,w), get_vertex_in_edges(v) exactly the u with edge (u,v), both without duplicates; the degrees are the lengths of these lists; for undirected graphs in- and out-lists have the same members.", "quantifier": "every reachable graph, every vertex id (also out of range), every hash order", "why_tests_cant": "the undirected in-edge query reads columns instead of rows, correct only because of the symmetry invariant", "anchors": ["graphrox-rs/src/graph/standard.rs:get_vertex_in_edges", "graphrox-rs/src/graph/standard.rs:get_vertex_out_edges", "graphrox-rs/src/graph/standard.rs:get_vertex_in_degree", "graphrox-rs/src/matrix/csr_adjacency_matrix.rs:get_sparse_row_vector", "graphrox-rs/src/matrix/csr_adjacency_matrix.rs:row_nonzero_entry_count"]}
{"id": "C11", "title": "Degrees sum to the edge count", "statement": "The sum of get_vertex_out_degree over all vertices equals edge_count, and so does the sum of get_vertex_in_degree.", "quantifier": "every reachable graph", "why_tests_cant": "a global counting identity over all graphs", "anchors": ["graphrox-rs/src/graph/standard.rs:get_vertex_out_degree", "graphrox-rs/src/graph/standard.rs:get_vertex_in_degree", "graphrox-rs/src/graph/standard.rs:edge_count"]}
{"id": "C12", "title": "Insertion order does not matter and re-insertion does nothing", "statement": "Two sequences of add_edge calls that contain the same edges, in any order and with any repetitions, produce graphs that no query can tell apart.", "quantifier": "all pairs of call sequences with the same set of edges", "why_tests_cant": "factorially many orders", "anchors": ["graphrox-rs/src/graph/standard.rs:add_edge"]}
{"id": "C13", "title": "undirected_from accepts exactly the symmetric matrices", "statement": "Graph::undirected_from(m) succeeds iff for every non-zero entry (c,r) of m the entry (r,c) is non-zero; it then has exactly m's entries as edges; otherwise it returns InvalidFormat. directed_from always keeps exactly m's entries.", "quantifier": "every matrix built by any history of set_entry/zero_entry, every hash order", "why_tests_cant": "the check short-circuits in hash order", "anchors": ["graphrox-rs/src/graph/standard.rs:undirected_from", "graphrox-rs/src/graph/standard.rs:directed_from"]}
{"id": "C14", "title": "Graph bytes have the documented layout and exact size", "statement": "to_bytes() returns 26 + 16*edge_count bytes: magic, version, big-endian vertex count and edge count, direction flag, zero byte, then one big-endian (from,to) pair per edge, each edge exactly once; it fails exactly if this size does not fit usize or cannot be allocated, and then with CapacityOverflow.", "quantifier": "every reachable graph, every hash order, 32- and 64-bit usize", "why_tests_cant": "field widths and the buffer arithmetic must be right for all sizes", "anchors": ["graphrox-rs/src/graph/standard.rs:to_bytes"]}
{"id": "C15", "title": "Graph byte round trip", "statement": "Graph::try_from(g.to_bytes()) succeeds and yields a graph with the same direction, vertex_count, edge_count and edges as g.", "quantifier": "every reachable graph whose to_bytes succeeds, every hash order on both sides", "why_tests_cant": "all graphs and all serialization orders", "anchors": ["graphrox-rs/src/graph/standard.rs:to_bytes", "graphrox-rs/src/graph/standard.rs:try_from"]}
{"id": "C16", "title": "Decoding a Graph never panics", "statement": "Graph::try_from on any byte slice either returns a graph or returns InvalidFormat: no index, slice or arithmetic panic and no other error kind.", "quantifier": "all byte slices of every length, 32- and 64-bit usize", "why_tests_cant": "the input space is all byte strings", "anchors": ["graphrox-rs/src/graph/standard.rs:try_from", "graphrox-rs/src/graph/standard.rs:read_u32_be", "graphrox-rs/src/graph/standard.rs:read_u64_be"]}
{"id": "C17", "title": "A decoded Graph is exactly what the bytes say", "statement": "If Graph::try_from(bytes) succeeds, vertex_count and edge_count are the two header fields, the direction is the flag, every edge is inside the vertex range, and the edges are exactly the listed pairs (closed under reversal if undirected).", "quantifier": "all accepted byte slices", "why_tests_cant": "includes adversarial inputs never produced by to_bytes", "anchors": ["graphrox-rs/src/graph/standard.rs:try_from"]}
{"id": "C18", "title": "Which byte slices Graph::try_from accepts", "statement": "Graph::try_from(bytes) succeeds iff the slice has at least 26 bytes, magic, version, flag (0/1) and weighted byte (0) are right, the length is 26+16*count, every listed pair is inside the dimension, and the listed pairs (closed under reversal if undirected) are exactly count many distinct pairs.", "quantifier": "all byte slices", "why_tests_cant": "an exact acceptance language cannot be tested", "anchors": ["graphrox-rs/src/graph/standard.rs:try_from"]}
{"id": "C19", "title": "Truncated or padded graph bytes are rejected", "statement": "If Graph::try_from (or CompressedGraph::try_from) accepts bytes then it rejects every proper prefix and every proper extension of them.", "quantifier": "all accepted slices and all prefixes/extensions", "why_tests_cant": "all cut points of all files", "anchors": ["graphrox-rs/src/graph/standard.rs:try_from", "graphrox-rs/src/graph/compressed.rs:try_from"]}
{"id": "C20", "title": "Equal bytes mean equal graphs", "statement": "If two graphs can serialize to the same bytes, they agree on direction, vertex count, edge count and every edge.", "quantifier": "all pairs of reachable graphs, all hash orders", "why_tests_cant": "injectivity over an infinite domain", "anchors": ["graphrox-rs/src/graph/standard.rs:to_bytes"]}
{"id": "C21", "title": "Compression at level 1 is lossless", "statement": "g.compress(0 or 1).decompress() has the same direction, vertex count, edge count and edges as g.", "quantifier": "every reachable graph (below the pooling limits), every hash order", "why_tests_cant": "needs all 8x8 bit patterns at all block positions and float comparisons", "anchors": ["graphrox-rs/src/graph/standard.rs:compress", "graphrox-rs/src/graph/compressed.rs:decompress"]}
{"id": "C22", "title": "Compression keeps exactly the blocks with at least `level` edges", "statement": "For a graph with at least 8 vertices, in g.compress(L) (L clamped to 1..64) an 8x8 block of the adjacency matrix that contains at least L edges is kept bit for bit, and a block with fewer edges is dropped entirely.", "quantifier": "every reachable graph with >= 8 vertices, every u8 level, every block, every hash order", "why_tests_cant": "threshold is computed in floating point with a fudge term; must be right for all 64x64 count/level pairs and all blocks", "anchors": ["graphrox-rs/src/graph/standard.rs:compress", "graphrox-rs/src/graph/standard.rs:find_avg_pool_matrix", "graphrox-rs/src/util/mod.rs:clamp_compression_level"]}
{"id": "C23", "title": "Compression level means number of edges per block also for tiny graphs", "statement": "The documented meaning of compression_level (number of ones an 8x8 block must contain to be kept) holds for graphs with fewer than 8 vertices too. The code violates this (it averages over n*n cells); what it does instead is stated exactly.", "quantifier": "every reachable graph with 1..7 vertices, every level", "why_tests_cant": "the deviation depends on the pair (count, level) and the vertex count", "anchors": ["graphrox-rs/src/graph/standard.rs:compress", "graphrox-rs/src/graph/standard.rs:find_avg_pool_matrix"]}
{"id": "C24", "title": "Bit layout of compressed entries", "statement": "Bit 8*(v%8)+(u%8) of get_compressed_matrix_entry(u/8, v/8) is 1 iff does_edge_exist(u,v) on the compressed graph, and every compressed edge is an edge of the original graph.", "quantifier": "every compressed graph, all u,v", "why_tests_cant": "2^64 entry values and unbounded coordinates", "anchors": ["graphrox-rs/src/graph/compressed.rs:does_edge_exist", "graphrox-rs/src/graph/compressed.rs:get_compressed_matrix_entry", "graphrox-rs/src/graph/standard.rs:compress"]}
{"id": "C25", "title": "edge_count of a compressed graph is exact", "statement": "For c = g.compress(L), c.edge_count() is the number of pairs with c.does_edge_exist(u,v), equals c.decompress().edge_count(), and is at most g.edge_count(), with equality at level 1.", "quantifier": "every reachable graph and level", "why_tests_cant": "count is accumulated from Hamming weights", "anchors": ["graphrox-rs/src/graph/standard.rs:compress", "graphrox-rs/src/graph/compressed.rs:edge_count", "graphrox-rs/src/graph/compressed.rs:add_compressed_matrix_entry"]}
{"id": "C26", "title": "Compression metadata", "statement": "g.compress(L) has g's vertex_count and direction and compression_level = L clamped to 1..64; decompress keeps vertex_count and direction.", "quantifier": "every reachable graph and u8 level", "why_tests_cant": "all graphs", "anchors": ["graphrox-rs/src/graph/standard.rs:compress", "graphrox-rs/src/graph/compressed.rs:CompressedGraphBuilder::new", "graphrox-rs/src/graph/compressed.rs:decompress"]}
{"id": "C27", "title": "Decompression agrees with querying the compressed graph", "statement": "c.decompress().does_edge_exist(u,v) = c.does_edge_exist(u,v) for every directed c, and for every undirected c that is symmetric (in particular any compress() result).", "quantifier": "every compressed graph from compress or try_from, all u,v, every hash order", "why_tests_cant": "all entries, bits and orders", "anchors": ["graphrox-rs/src/graph/compressed.rs:decompress", "graphrox-rs/src/graph/compressed.rs:does_edge_exist"]}
{"id": "C28", "title": "Higher compression levels keep fewer edges", "statement": "If L1 <= L2 then every edge of g.compress(L2) is an edge of g.compress(L1).", "quantifier": "every reachable graph, all pairs of levels", "why_tests_cant": "monotonicity of a float comparison", "anchors": ["graphrox-rs/src/graph/standard.rs:compress"]}
{"id": "C29", "title": "Re-compression is stable", "statement": "Compressing g.compress(L).decompress() again at level L yields the same edges (fixed point).", "quantifier": "every reachable graph and level", "why_tests_cant": "idempotence over all graphs", "anchors": ["graphrox-rs/src/graph/standard.rs:compress", "graphrox-rs/src/graph/compressed.rs:decompress"]}
{"id": "C30", "title": "Compressing an undirected graph keeps it symmetric", "statement": "For undirected g, does_edge_exist on g.compress(L) is symmetric.", "quantifier": "every reachable undirected graph, level, pair", "why_tests_cant": "needs transposed blocks to have equal counts", "anchors": ["graphrox-rs/src/graph/standard.rs:compress"]}
{"id": "C31", "title": "Compressed bytes have the documented layout and exact size", "statement": "CompressedGraph::to_bytes() returns 42 + 24*(number of stored blocks) bytes with the documented header and one (entry,col,row) big-endian triple per stored block; it fails exactly if this size does not fit usize or cannot be allocated, and then with CapacityOverflow.", "quantifier": "every compressed graph, every hash order, 32- and 64-bit usize", "why_tests_cant": "field widths and sizes for all graphs", "anchors": ["graphrox-rs/src/graph/compressed.rs:to_bytes"]}
{"id": "C32", "title": "Compressed byte round trip", "statement": "For c = g.compress(L), CompressedGraph::try_from(c.to_bytes()) succeeds and has the same direction, level, vertex_count, edge_count and matrix entries as c.", "quantifier": "every reachable graph, level and hash order", "why_tests_cant": "the decoder re-validates dimension, bounds, zero entries and edge count; none may reject a genuine file", "anchors": ["graphrox-rs/src/graph/compressed.rs:to_bytes", "graphrox-rs/src/graph/compressed.rs:try_from", "graphrox-rs/src/graph/compressed.rs:compressed_matrix_dimension", "graphrox-rs/src/graph/compressed.rs:validate_compressed_entry_bounds"]}
{"id": "C33", "title": "Decoding a CompressedGraph never panics", "statement": "CompressedGraph::try_from on any byte slice returns a graph or InvalidFormat, without panic or overflow.", "quantifier": "all byte slices, 32- and 64-bit usize", "why_tests_cant": "all byte strings", "anchors": ["graphrox-rs/src/graph/compressed.rs:try_from", "graphrox-rs/src/graph/compressed.rs:validate_compressed_entry_bounds"]}
{"id": "C34", "title": "Accepted compressed bytes are in range", "statement": "If CompressedGraph::try_from(bytes) succeeds then vertex_count, level and direction are the header fields, every edge reported lies inside vertex_count, the stored matrix dimension is ceil(vertex_count/8) (at least 1), and decompress() does not overflow and keeps vertex_count.", "quantifier": "all accepted byte slices", "why_tests_cant": "adversarial inputs", "anchors": ["graphrox-rs/src/graph/compressed.rs:try_from", "graphrox-rs/src/graph/compressed.rs:decompress"]}
{"id": "C35", "title": "edge_count of a decoded compressed graph is exact", "statement": "If CompressedGraph::try_from(bytes) succeeds then edge_count() is the number of pairs with does_edge_exist. The code violates this when the bytes list the same block twice: the count is exact if and only if the listed blocks are distinct, and otherwise too large.", "quantifier": "all accepted byte slices", "why_tests_cant": "duplicate blocks never occur in tests", "anchors": ["graphrox-rs/src/graph/compressed.rs:try_from", "graphrox-rs/src/graph/compressed.rs:add_compressed_matrix_entry"]}
{"id": "C36", "title": "Decoded undirected compressed graphs are symmetric", "statement": "If CompressedGraph::try_from(bytes) succeeds with the undirected flag then does_edge_exist is symmetric. The code violates this (it never checks). Exactly: decompress() of it has an edge (u,v) if and only if the compressed graph has (u,v) or (v,u), with the same vertex count; so it agrees with the compressed graph on every edge query if and only if the compressed graph was symmetric.", "quantifier": "all accepted byte slices with the undirected flag", "why_tests_cant": "adversarial inputs", "anchors": ["graphrox-rs/src/graph/compressed.rs:try_from"]}
{"id": "C37", "title": "Decoded compressed graphs can be saved again", "statement": "If CompressedGraph::try_from(bytes) succeeds with c, then c.to_bytes() is accepted again and gives the same graph. The code violates this for duplicate blocks: it holds if and only if the listed blocks are distinct; otherwise what is saved is rejected because its edge count does not match.", "quantifier": "all accepted byte slices", "why_tests_cant": "adversarial inputs", "anchors": ["graphrox-rs/src/graph/compressed.rs:try_from", "graphrox-rs/src/graph/compressed.rs:to_bytes"]}
{"id": "C38", "title": "Average pooling covers every edge exactly once", "statement": "find_avg_pool_matrix(b) has dimension ceil(n/b') with b' = b clamped to 1..n (0 for an empty graph), a stored entry at (c,r) iff block (c,r) contains an edge, and the block edge counts sum to edge_count.", "quantifier": "every reachable graph, every block dimension below 2^32, every hash order", "why_tests_cant": "all graphs and block sizes, including padded edge blocks", "anchors": ["graphrox-rs/src/graph/standard.rs:find_avg_pool_matrix", "graphrox-rs/src/matrix/csr_square_matrix.rs:increment_entry", "graphrox-rs/src/matrix/csr_square_matrix.rs:set_minimum_dimension"]}
{"id": "C39", "title": "Average pooling values", "statement": "Each entry of find_avg_pool_matrix(b) is the block's edge count times the rounded reciprocal of b'^2 in IEEE double arithmetic; it lies in [0,1], is within relative error 2^-52 + 2^-106 of the true average, and is exact when b' is a power of two.", "quantifier": "every reachable graph, block dimension up to 2^26, block, hash order", "why_tests_cant": "rounding must be bounded for all counts and block sizes", "anchors": ["graphrox-rs/src/graph/standard.rs:find_avg_pool_matrix", "graphrox-rs/src/matrix/csr_square_matrix.rs:multiply_entries_by", "graphrox-rs/src/matrix/csr_square_matrix.rs:increment_entry"]}
{"id": "C40", "title": "approximate keeps exactly the blocks whose pooled entry reaches the threshold", "statement": "For b >= 2 and n >= 2, approximate(b,t) has ceil(n/min(b,n)) vertices, the same direction, and an edge (c,r) iff entry (c,r) of find_avg_pool_matrix(b) is non-zero and >= the clamped threshold.", "quantifier": "every reachable graph, block dimension, threshold (any double incl. NaN), hash orders", "why_tests_cant": "two independent computations of the block count and float comparisons", "anchors": ["graphrox-rs/src/graph/standard.rs:approximate", "graphrox-rs/src/util/mod.rs:clamp_threshold"]}
{"id": "C41", "title": "approximate decides by the true average", "statement": "An edge (c,r) of approximate(b,t) exists iff (edges in block)/(b*b) >= t. The code violates this (a full 7x7 block does not reach threshold 1.0). For effective block dimensions below 2^32 and blocks of at most 2^53 edges it holds for power-of-two block sizes, and for all block sizes when the true average is outside a relative 2^-50 band around t (2^-51 up to dimension 2^26).", "quantifier": "every reachable graph, block dimension, threshold in [1e-18,1]", "why_tests_cant": "rounding errors show up only for particular (count, b, t)", "anchors": ["graphrox-rs/src/graph/standard.rs:approximate", "graphrox-rs/src/graph/standard.rs:find_avg_pool_matrix"]}
{"id": "C42", "title": "approximate is monotone in the threshold", "statement": "If t1 <= t2 (neither NaN) then every edge of approximate(b,t2) is an edge of approximate(b,t1). False when t1 <= 0 < t2 < 1e-18 and some block has an average between t2 and 1e-18 (which needs blocks above 10^9); exactly then.", "quantifier": "every reachable graph, block dimension, pair of thresholds", "why_tests_cant": "all pairs of doubles", "anchors": ["graphrox-rs/src/graph/standard.rs:approximate", "graphrox-rs/src/util/mod.rs:clamp_threshold"]}
{"id": "C43", "title": "approximate with block dimension 0 or 1, or at most one vertex, is a copy", "statement": "approximate(0|1, t) and approximate(b, t) on graphs with at most one vertex return a graph equal to the original.", "quantifier": "every graph, threshold", "why_tests_cant": "all graphs", "anchors": ["graphrox-rs/src/graph/standard.rs:approximate"]}
{"id": "C44", "title": "Threshold clamping", "statement": "Thresholds above 1 act like 1, thresholds <= 0 act like 1e-18 and NaN yields no edges. The documented 'any threshold below 1e-18 is treated as 1e-18' is violated for thresholds strictly between 0 and 1e-18; it holds outside that gap, for block dimensions up to 10^9, and in general exactly if no block of the graph has an average between the threshold and 1e-18.", "quantifier": "every reachable graph, block dimension, double threshold", "why_tests_cant": "the gap is only observable with block dimensions above 10^9", "anchors": ["graphrox-rs/src/util/mod.rs:clamp_threshold", "graphrox-rs/src/graph/standard.rs:approximate"]}
{"id": "C45", "title": "Threshold 0 keeps every non-empty block", "statement": "With a threshold <= 0 approximate(b,t) has an edge (c,r) iff block (c,r) contains an edge. The code violates this for block dimensions above 10^9. The exact rule below 2^32: the block is kept iff it is non-empty and its true average is at least 1e-18, except nine edges in a block of dimension 3*10^9, which are dropped; so up to dimension 10^9 exactly the non-empty blocks are kept, and blocks of 19 or more edges always are.", "quantifier": "every reachable graph, block dimension, non-positive threshold", "why_tests_cant": "all graphs; limit depends on float reciprocal", "anchors": ["graphrox-rs/src/graph/standard.rs:approximate", "graphrox-rs/src/util/mod.rs:clamp_threshold"]}
{"id": "C46", "title": "Pooling never overflows", "statement": "find_avg_pool_matrix, approximate and compress never panic or divide by zero. The code violates this: block_dimension*block_dimension overflows u64 for graphs with at least 2^32 vertices and block dimension at least 2^32 (a debug build panics; a release build computes with the product modulo 2^64, giving infinite entries when that is 0); it holds for clamped block dimension below 2^32 and always for compress.", "quantifier": "every reachable graph and block dimension, debug and release profiles", "why_tests_cant": "needs graphs with 2^32 vertices", "anchors": ["graphrox-rs/src/graph/standard.rs:find_avg_pool_matrix"]}
{"id": "C47", "title": "compress and approximate agree", "statement": "For n >= 8, approximate(8, L/64) has edge (c,r) iff g.compress(L) stores a non-zero block at (c,r), for 1 <= L <= 64.", "quantifier": "every reachable graph, level, block", "why_tests_cant": "two different float thresholds must agree on all counts", "anchors": ["graphrox-rs/src/graph/standard.rs:approximate", "graphrox-rs/src/graph/standard.rs:compress"]}
{"id": "C48", "title": "approximate of an undirected graph is undirected and symmetric, without adding edges", "statement": "For undirected g, approximate(b,t) is undirected and symmetric and the mirrored insertion creates no edge whose own block does not reach the threshold.", "quantifier": "every reachable undirected graph, b, t", "why_tests_cant": "needs transposed blocks to have identical float averages", "anchors": ["graphrox-rs/src/graph/standard.rs:approximate"]}
{"id": "C49", "title": "matrix_string of a Graph shows the adjacency matrix", "statement": "matrix_string() is the rows separated by CRLF, row v being '[ ' + cells separated by ', ' + ' ]' with cell u equal to '1' iff does_edge_exist(u,v); its length is exactly the reserved capacity 3n^2+4n-2 (empty for n=0); it fails only with CapacityOverflow when that size does not fit usize or cannot be allocated.", "quantifier": "every reachable graph, every size, 32- and 64-bit usize", "why_tests_cant": "layout for all sizes", "anchors": ["graphrox-rs/src/matrix/csr_adjacency_matrix.rs:try_to_string", "graphrox-rs/src/graph/standard.rs:matrix_string"]}
{"id": "C50", "title": "matrix_string determines the graph", "statement": "Two directed-or-undirected graphs of the same direction with equal successful matrix_string have the same vertex count and the same edges.", "quantifier": "all pairs of reachable graphs", "why_tests_cant": "injectivity", "anchors": ["graphrox-rs/src/matrix/csr_adjacency_matrix.rs:try_to_string"]}
{"id": "C51", "title": "matrix_string of a CompressedGraph shows the stored blocks and never panics", "statement": "For any compressed graph from compress or try_from, matrix_string() does not index out of bounds and, when it succeeds, is a grid of right-aligned decimal numbers, cell (row r, column c) being get_compressed_matrix_entry(c,r), all cells equally wide, in any hash order.", "quantifier": "every compressed graph, every hash order, usize width", "why_tests_cant": "writes go to computed offsets in hash order", "anchors": ["graphrox-rs/src/matrix/csr_square_matrix.rs:to_string_with_precision", "graphrox-rs/src/graph/compressed.rs:matrix_string"]}
{"id": "C52", "title": "CsrAdjacencyMatrix behaves like a 0/1 map", "statement": "After any history of set_entry/zero_entry, get_entry, entry_count, dimension, row/column vectors and counts are those of an abstract set of coordinates plus a dimension; a non-zero set_entry reads back as 1 and changes nothing else.", "quantifier": "all histories and coordinates", "why_tests_cant": "unbounded histories", "anchors": ["graphrox-rs/src/matrix/csr_adjacency_matrix.rs:set_entry", "graphrox-rs/src/matrix/csr_adjacency_matrix.rs:zero_entry", "graphrox-rs/src/matrix/csr_adjacency_matrix.rs:get_entry"]}
{"id": "C53", "title": "set_entry overwrites", "statement": "After set_entry(x, c, r) with c,r below u64::MAX, get_entry(c,r) returns x (documented: 'adds or overwrites'). The code violates this for x = 0 on an existing entry, in both matrix types. Exactly: a non-zero x is read back (as 1 in the adjacency matrix), a zero leaves the old entry in place, and no other entry changes.", "quantifier": "all matrices, values and coordinates", "why_tests_cant": "tests never overwrite with zero", "anchors": ["graphrox-rs/src/matrix/mod.rs:set_entry", "graphrox-rs/src/matrix/csr_adjacency_matrix.rs:set_entry", "graphrox-rs/src/matrix/csr_square_matrix.rs:set_entry"]}
{"id": "C54", "title": "CsrSquareMatrix behaves like a sparse map", "statement": "After any history of set_entry / zero_entry / increment_entry (without arithmetic overflow), get_entry, dimension and entry_count are those of an abstract finite map; iteration yields each stored entry once in any hash order.", "quantifier": "all histories over any entry type", "why_tests_cant": "unbounded histories, generic type", "anchors": ["graphrox-rs/src/matrix/csr_square_matrix.rs:set_entry", "graphrox-rs/src/matrix/csr_square_matrix.rs:zero_entry", "graphrox-rs/src/matrix/csr_square_matrix.rs:increment_entry", "graphrox-rs/src/matrix/csr_square_matrix.rs:CsrSquareMatrixIter::next"]}
{"id": "C55", "title": "CsrSquareMatrix entry_count counts the non-zero entries", "statement": "entry_count() is the number of coordinates with a non-zero entry (documented). The code violates this when increment_entry turns -1 into 0. Exactly: entry_count() is the number of coordinates kept by the history - those whose last zero_entry is followed by an increment or a non-zero set - and the documented meaning holds if and only if every kept coordinate reads non-zero; in particular for histories of set_entry/zero_entry, and for unsigned types with increments as long as no overflow occurs.", "quantifier": "all histories over signed and unsigned types", "why_tests_cant": "needs specific values and histories", "anchors": ["graphrox-rs/src/matrix/csr_square_matrix.rs:increment_entry", "graphrox-rs/src/matrix/mod.rs:entry_count"]}
{"id": "C56", "title": "Formatting unsigned matrices with any precision", "statement": "to_string_with_precision(d) on an unsigned integer matrix is a grid of equally wide right-aligned cells, each the decimal value (followed by '.' and d zeros if d>0), and does not panic for matrices whose size is representable.", "quantifier": "all matrices of unsigned entries, all precisions, hash orders", "why_tests_cant": "computed offsets", "anchors": ["graphrox-rs/src/matrix/csr_square_matrix.rs:to_string_with_precision"]}
{"id": "C57", "title": "Formatting signed matrices with decimals keeps the grid intact", "statement": "to_string_with_precision(d), d>0, on a signed integer matrix prints each entry's own value in its cell. The code violates this when the widest negative and positive entries have different lengths (it corrupts cells or separators); for d = 0 it holds. Exactly: a returned text is the right grid if and only if d = 0, or no stored entry is negative, or the numeral of the least stored entry is exactly one character longer than the numeral of the greatest.", "quantifier": "all signed matrices and precisions", "why_tests_cant": "only particular combinations of digit counts fail", "anchors": ["graphrox-rs/src/matrix/csr_square_matrix.rs:to_string_with_precision"]}
{"id": "C58", "title": "Counters never underflow and cannot overflow before 2^64 edits", "statement": "In every history the internal edge counter is never decremented at zero and after k edits edge_count is at most 2k, so no counter overflow is possible in fewer than 2^63 edits.", "quantifier": "all histories", "why_tests_cant": "2^63 steps cannot be run", "anchors": ["graphrox-rs/src/matrix/csr_adjacency_matrix.rs:set_entry", "graphrox-rs/src/matrix/csr_adjacency_matrix.rs:zero_entry"]}
{"id": "C59", "title": "C API: null handles are harmless", "statement": "Every C function given a null graph, compressed-graph or matrix handle returns its documented neutral value (null, 0 or false), writes 0 to size out-parameters and touches no memory; null list/buffer frees do nothing.", "quantifier": "all functions and all heaps", "why_tests_cant": "all program states", "anchors": ["graphrox-c/src/lib.rs:graph_ref", "graphrox-c/src/lib.rs:gphrx_to_bytes", "graphrox-c/src/lib.rs:free_gphrx_graph"]}
{"id": "C60", "title": "C API: handles are independent Rust objects", "statement": "For any sequence of C calls that uses only live handles of the right kind, every call returns what the Rust API returns for that object's own history, and no call changes the object behind any other handle (in particular a duplicate and its original do not affect each other).", "quantifier": "all call sequences over any number of handles", "why_tests_cant": "unbounded interleavings of calls on several handles", "anchors": ["graphrox-c/src/lib.rs:gphrx_duplicate", "graphrox-c/src/lib.rs:gphrx_add_edge", "graphrox-c/src/lib.rs:gphrx_compress", "graphrox-c/src/lib.rs:gphrx_decompress"]}
{"id": "C61", "title": "C API: from_bytes reports failure exactly", "statement": "gphrx_from_bytes / gphrx_compressed_graph_from_bytes set *error to 0 and return a non-null handle to the decoded graph iff the Rust decoder accepts the buffer; otherwise they set *error to 1 and return null; a null buffer with non-zero size is an error; a null error pointer is tolerated.", "quantifier": "all buffers, sizes and pointers", "why_tests_cant": "all byte strings", "anchors": ["graphrox-c/src/lib.rs:gphrx_from_bytes", "graphrox-c/src/lib.rs:gphrx_compressed_graph_from_bytes"]}
{"id": "C62", "title": "C API: buffers carry their true length", "statement": "Whenever a C function returns a non-null buffer or list with a size out-parameter, the size written is the length of the allocation, so freeing it with that size is valid; the edge list has edge_count elements.", "quantifier": "all graphs and heaps", "why_tests_cant": "all sizes", "anchors": ["graphrox-c/src/lib.rs:boxed_bytes_to_raw", "graphrox-c/src/lib.rs:gphrx_get_edge_list", "graphrox-c/src/lib.rs:free_gphrx_edge_list"]}
{"id": "C63", "title": "Python lists: negative indices count from the end", "statement": "lst[-k] on edge/vertex/entry lists is the k-th element from the end for 1 <= k <= len. The code violates this for k = len when len > 1 (returns the last element), and does not raise for k > len; it holds for 1 <= k < len.", "quantifier": "all lists and indices", "why_tests_cant": "index arithmetic at one boundary for each length", "anchors": ["graphrox-py/graphrox/__init__.py:_GraphEdgeList.__getitem__", "graphrox-py/graphrox/__init__.py:_GraphVertexList.__getitem__"]}
{"id": "C64", "title": "Python compress clamps any integer level", "statement": "Graph.compress(level) in Python behaves like the Rust compress with level clamped to 1..64 for every integer, never wrapping modulo 256.", "quantifier": "all integers", "why_tests_cant": "unbounded integers", "anchors": ["graphrox-py/graphrox/__init__.py:Graph.compress", "graphrox-rs/src/util/mod.rs:clamp_compression_level"]}
{"id": "C65", "title": "CompressedGraphBuilder accounting", "statement": "Adding distinct in-range blocks with weight None (or the true Hamming weight) yields a compressed graph whose edge_count is the number of existing edges and whose entries read back exactly; the matrix dimension of a fresh builder is ceil(vertex_count/8), at least 1.", "quantifier": "all sequences of distinct blocks, all vertex counts", "why_tests_cant": "all block sequences", "anchors": ["graphrox-rs/src/graph/compressed.rs:CompressedGraphBuilder", "graphrox-rs/src/graph/compressed.rs:find_hamming_weight", "graphrox-rs/src/graph/compressed.rs:compressed_matrix_dimension"]}
{"id": "C66", "title": "Exactly which compressed files are accepted", "statement": "CompressedGraph::try_from accepts a byte slice iff magic and version match, the direction flag is 0 or 1, the level is 1..64, the dimension field is ceil(vertex_count/8) (at least 1), the length is 42 + 24*blocks, no listed entry is zero, every set bit lies inside vertex_count, and the Hamming weights add up to the edge count field.", "quantifier": "all byte slices", "why_tests_cant": "both directions over all byte strings, including overflow of coordinates and counts", "anchors": ["graphrox-rs/src/graph/compressed.rs:try_from", "graphrox-rs/src/graph/compressed.rs:validate_compressed_entry_bounds"]}
{"id": "C67", "title": "Text of an average-pool matrix", "statement": "find_avg_pool_matrix(b).to_string_with_precision(d) with d >= 1 and b below 2^32 is a bracketed grid with one row per matrix row, in which every entry is shown with exactly d decimals, correctly rounded, right-aligned in equally wide cells (d+2 characters; d+40 if the graph has no edge, an oddity of the code), or a capacity error; never a panic.", "quantifier": "all reachable graphs, block dimensions below 2^32, precisions d >= 1, platforms, hash orders", "why_tests_cant": "width computation from the extremes, buffer offsets and decimal rounding of all averages", "anchors": ["graphrox-rs/src/matrix/csr_square_matrix.rs:to_string_with_precision", "graphrox-rs/src/graph/standard.rs:find_avg_pool_matrix", "graphrox-rs/src/util/mod.rs:integral_digit_count"]}
{"id": "C68", "title": "Text of an arbitrary f64 matrix", "statement": "to_string_with_precision(d >= 1) of a CsrSquareMatrix<f64> with finite entries is a grid of correctly rounded numbers in equally wide cells, and does not panic. False for entries between -1 and 0 (prints '[ -0.50]') and for entries of 2^127 and more (panics); holds for non-negative entries below 10^38 whose rounding does not add an integral digit. Printing never panics if no finite entry has more than 39 integral digits. Exactly, for entries of either sign below 10^38: a returned text is the right grid if and only if every correctly rounded number fits in the width of the longest integral part (with sign) of an entry plus the dot and the d decimals.", "quantifier": "all histories of set_entry with finite doubles, all precisions >= 1", "why_tests_cant": "range of doubles, saturation of the i128 cast, rounding carries", "anchors": ["graphrox-rs/src/matrix/csr_square_matrix.rs:to_string_with_precision", "graphrox-rs/src/util/mod.rs:integral_digit_count"]}
{"id": "C69", "title": "Display of a pooled matrix never panics", "statement": "Display/to_string of a pooled matrix (and gphrx_matrix_to_string) returns its two-decimal text. False when the buffer size is not representable or cannot be allocated: Display panics exactly then (e.g. one vertex with number 2^40 and block dimension 1), where to_string_with_precision reports an error.", "quantifier": "all reachable graphs, block dimensions below 2^32, platforms, allocation behaviours", "why_tests_cant": "allocation failure and huge dimensions", "anchors": ["graphrox-rs/src/matrix/csr_square_matrix.rs:fmt", "graphrox-rs/src/matrix/csr_square_matrix.rs:to_string_with_precision", "graphrox-c/src/lib.rs:gphrx_matrix_to_string"]}
{"id": "C70", "title": "Text of an average-pool matrix without decimals", "statement": "find_avg_pool_matrix(b).to_string_with_precision(0) shows every entry as the nearest whole number in equally wide cells. The code violates this: entries that are 0 are shown as '0.', with a decimal point, while stored entries are shown as '0' or '1'; this is stated exactly, and that there is no panic.", "quantifier": "all reachable graphs, block dimensions below 2^32, platforms, hash orders", "why_tests_cant": "all graphs and averages; the fixture precisions are positive", "anchors": ["graphrox-rs/src/matrix/csr_square_matrix.rs:to_string_with_precision"]}
{"id": "C72", "title": "Python objects behave like plain values", "statement": "A program that uses the Python module sees exactly what it would see if all objects were immutable-by-others plain values: every trace of calls and results on the real C memory is a trace on values and conversely. In particular no undefined behaviour (use after free, double free, wrong length), every C object is owned by exactly one live Python object, nothing is leaked once all objects are collected, and a step changes no object but the one it is called on. (Programs use the public methods; for `copy.copy` and direct calls of `__del__` see C114.)", "quantifier": "all finite sequences of calls with all arguments on all objects, with objects collected at any time, all platforms, allocators and hash orders", "why_tests_cant": "unbounded interleavings of object creation, use and garbage collection", "anchors": ["graphrox-py/graphrox/__init__.py", "graphrox-c/src/lib.rs"]}
{"id": "C73", "title": "A Python graph follows its own edit history", "statement": "After any program, a Graph(u) object answers is_undirected, vertex_count, edge_count, does_edge_exist, degrees and edge lists like the abstract graph after exactly those edits made on this object (ids taken modulo 2^64), whatever was done to other objects; the same holds from any graph obtained by decoding, approximating, decompressing or duplicating, and a copy and its original are independent.", "quantifier": "all programs, all objects, all integer arguments", "why_tests_cant": "unbounded histories with several objects", "anchors": ["graphrox-py/graphrox/__init__.py:Graph"]}
{"id": "C74", "title": "Python from_bytes", "statement": "Graph.from_bytes and CompressedGraph.from_bytes return an object exactly for valid bytes and raise ValueError otherwise; bytes(g) decodes to the same graph in any program. The code violates this only in the exception: it raises TypeError because of Graph.__name__().", "quantifier": "all byte strings, all program states", "why_tests_cant": "all byte strings; the error path is untested", "anchors": ["graphrox-py/graphrox/__init__.py:Graph.from_bytes", "graphrox-py/graphrox/__init__.py:CompressedGraph.from_bytes"]}
{"id": "C75", "title": "Python calls never abort the interpreter", "statement": "No call of a method of the module aborts the process. False: to_string(-1) panics inside extern \"C\". Exactly: a call aborts if and only if it pools or approximates with an effective block dimension of at least 2^32 in a build with overflow checks, or is to_string with decimals (modulo the size of size_t) with which printing panics according to C109.", "quantifier": "all programs with all arguments, block dimensions and decimals; for the exact rule all platforms on which format! is limited to 16-bit widths (or any other limit of at least 42, small compared with usize) and no buffer exceeds half the address space, in both profiles", "why_tests_cant": "all graphs and matrices a program can build", "anchors": ["graphrox-py/graphrox/__init__.py", "graphrox-rs/src/matrix/csr_square_matrix.rs:to_string_with_precision"]}
{"id": "C76", "title": "Python iterators", "statement": "next() on an iterator of an edge, vertex or entry list returns the elements of the list in order, each once, and then raises StopIteration for ever, even if the program drops the list, edits or collects the graph, or uses other iterators in between.", "quantifier": "all programs, all lists, all interleavings", "why_tests_cant": "unbounded interleavings and garbage collection times", "anchors": ["graphrox-py/graphrox/__init__.py:_GraphEdgeListIterator", "graphrox-py/graphrox/__init__.py:_GraphVertexListIterator"]}
{"id": "C71", "title": "C programs: genuine objects, no abort, exact strings", "statement": "Every live library object of a C program is one the Rust API can produce. A program that respects the documented preconditions and uses moderate sizes is never aborted: each call returns. Exactly, for all sizes: a call aborts if and only if it pools or approximates with an effective block dimension of at least 2^32 in a build with overflow checks, is gphrx_matrix_to_string without room for the text, or is gphrx_matrix_to_string_with_precision with decimals with which printing panics according to C109. A returned string is exactly the text of the Rust method and null exactly when that method reports an error, for all objects and sizes. Without the size condition the claim about aborts is false: gphrx_matrix_to_string aborts when the text is too large.", "quantifier": "all call sequences with all arguments; exact abort rule for all platforms as in C75, strings for all platforms", "why_tests_cant": "unbounded call histories and object sizes", "anchors": ["graphrox-c/src/lib.rs:gphrx_matrix_to_string", "graphrox-c/gphrx.h"]}
{"id": "C77", "title": "Python texts", "statement": "In every Python program matrix_string(), str(matrix) and to_string(d) return exactly the text of the Rust method; if that method reports an error they raise AttributeError, and if it panics (C109) the interpreter is aborted; nothing else can happen. The text of a graph is the grid of its edges.", "quantifier": "all Python programs with all arguments, all platforms whose usize holds the number 2", "why_tests_cant": "all graphs, all platforms' size limits", "anchors": ["graphrox-py/graphrox/__init__.py:Graph.matrix_string", "graphrox-py/graphrox/__init__.py:CsrSquareMatrix"]}
{"id": "C78", "title": "Python: storing compressed graphs", "statement": "A compressed graph stored with bytes and restored with from_bytes, at any time or in another program, answers all questions as before; compressed with level at most 1, its decompression answers all questions like the original graph.", "quantifier": "all graphs a program can build, all levels, all programs in between", "why_tests_cant": "all graphs and all program histories", "anchors": ["graphrox-py/graphrox/__init__.py:CompressedGraph", "graphrox-py/graphrox/__init__.py:Graph.compress"]}
{"id": "C79", "title": "Graph files from text", "statement": "graph_from_text_file writes a file that every platform decodes to the undirected graph listed in the text, its vertices renumbered in order of their ids. False in general: an id that never begins a line gets the number -1 and its edge is lost (or the script fails with IndexError). Holds when every id begins some line. Exact rule: exactly the edges that also end at an id that begins some edge are kept; the script fails with IndexError exactly if some edge ends beyond M + 1, M the largest id that begins an edge, or no edge is listed.", "quantifier": "all text files with non-negative ids, all notions of white space and of integer syntax, all programs before", "why_tests_cant": "all texts", "anchors": ["scripts/generate_graph.py:graph_from_text_file"]}
{"id": "C80", "title": "Validation of graph files", "statement": "validate_graph prints nothing exactly if the graph file has all edges of the text. False: it looks at the last edge of the text only, once per line; there are no false alarms. Exact rule: IndexError if that edge ends beyond the largest beginning id M or no edge is listed, TypeError if the file is not a graph, else nothing if the file has the edge and one copy of the message per listing line if not (always so for an edge to an id that begins no edge).", "quantifier": "all texts, all graph files", "why_tests_cant": "all texts and files", "anchors": ["scripts/generate_graph.py:validate_graph"]}
{"id": "C81", "title": "Compressing graph files", "statement": "For a valid graph file compress_gphrx_file writes a file that every platform decodes to the compressed graph at the nearest level in 1..64 (lossless up to level 1); for an invalid file it ends with an exception.", "quantifier": "all byte strings, all levels", "why_tests_cant": "all files", "anchors": ["scripts/generate_graph.py:compress_gphrx_file"]}
{"id": "C82", "title": "Size of compressed files", "statement": "A compressed file has a 42-byte header and 24 bytes per kept block; the number of blocks is at most the number of kept edges and, with at least 8 vertices, at most the number of original edges divided by the level. So from level 2 on (8 vertices, 4 edges) it is not larger than the graph file.", "quantifier": "all graphs, all levels, all platforms", "why_tests_cant": "all graphs", "anchors": ["graphrox-rs/src/graph/compressed.rs:to_bytes", "graphrox-rs/src/graph/standard.rs:compress"]}
{"id": "C83", "title": "Matrices as counters", "statement": "A new CsrSquareMatrix on which only increment_entry is called holds, at every usable coordinate, the number of its increments: exactly up to 2^53 for f64 and 2^24 for f32 (further increments change nothing); for an integer type with largest value max, exactly up to max, after which a debug build panics and a release build wraps. entry_count is the number of distinct usable coordinates.", "quantifier": "all lists of coordinates, all entry types, both build profiles", "why_tests_cant": "all histories; 2^24 and 2^53 increments are out of reach of tests for f64", "anchors": ["graphrox-rs/src/matrix/csr_square_matrix.rs:increment_entry", "graphrox-rs/src/util/mod.rs:add_one"]}
{"id": "C84", "title": "Text of an f32 matrix", "statement": "Every entry of a CsrSquareMatrix<f32> stays an f32 value; printing it with any precision never panics (NaN, infinities and f32::MAX included): the text has the computed size, or a capacity error is returned. With d >= 1 decimals and finite entries the text is a grid of correctly rounded numbers in equally wide cells; this is false for entries between -1 and 0 and holds for non-negative entries below 10^38 whose rounding does not add an integral digit. Exactly, for entries of either sign below 10^38: a returned text is the right grid if and only if every correctly rounded number fits in the width of the longest integral part (with sign) of an entry plus the dot and the d decimals.", "quantifier": "all histories of calls, all precisions, all platforms, all hash orders", "why_tests_cant": "all f32 values and sizes", "anchors": ["graphrox-rs/src/matrix/csr_square_matrix.rs:to_string_with_precision", "graphrox-rs/src/util/mod.rs:impl Numeric for f32"]}
{"id": "C85", "title": "Results depend only on what can be observed", "statement": "Two graphs that no query can tell apart (same direction, vertex count and edges) give indistinguishable results for every operation: edits, pooling, approximation, compression, decompression, bytes up to the order of the listed edges, and equal texts; likewise for compressed graphs. The history of a graph and the order of the hash tables never matter.", "quantifier": "all pairs of reachable graphs and compressed graphs, all edits, block dimensions, thresholds, levels, platforms and hash orders", "why_tests_cant": "all pairs of histories leading to the same edges, all hash orders", "anchors": ["graphrox-rs/src/graph/standard.rs", "graphrox-rs/src/graph/compressed.rs"]}
{"id": "C86", "title": "Reversing every edge", "statement": "If g' is g with every edge reversed then in and out neighbours and degrees are exchanged, the pooled matrix and the compressed words are transposed, approximation and compression of g' are the reversals of those of g, and making the same edits with exchanged ends keeps the graphs reversals of each other.", "quantifier": "all reachable graphs, all histories, all block dimensions, thresholds and levels", "why_tests_cant": "relates two runs for all graphs and parameters", "anchors": ["graphrox-rs/src/graph/standard.rs:approximate", "graphrox-rs/src/graph/standard.rs:compress"]}
{"id": "C87", "title": "More edges give more edges", "statement": "If a graph has all the edges of another one with the same vertex count then its edge count, degrees and neighbour lists are at least as large, each entry of its pooled matrix is at least as large, and its approximation and compression with the same parameters contain all edges of those of the other.", "quantifier": "all pairs of reachable graphs, all parameters", "why_tests_cant": "relates two runs for all graphs; depends on monotonicity of floating-point rounding", "anchors": ["graphrox-rs/src/graph/standard.rs:find_avg_pool_matrix", "graphrox-rs/src/graph/standard.rs:approximate", "graphrox-rs/src/graph/standard.rs:compress"]}
{"id": "C88", "title": "Coarsening twice is coarsening once", "statement": "At thresholds of zero or below, approximating with block dimension b1 and then b2 gives the same graph as approximating with b1*b2. False for huge blocks; true for effective block dimensions up to 10^9. For products below 2^32 it holds for all graphs exactly if b1*b2 <= 10^9 or one of the two is 1.", "quantifier": "all reachable graphs, all block dimensions", "why_tests_cant": "all sizes; the failure needs 2^31 vertices", "anchors": ["graphrox-rs/src/graph/standard.rs:approximate"]}
{"id": "C89", "title": "undirected_from_unchecked", "statement": "undirected_from_unchecked(m) answers queries from m; it equals the result of undirected_from exactly if m is symmetric; add_edge and delete_edge on it set and clear both directions and nothing else; its bytes are accepted by try_from exactly if m is symmetric, otherwise InvalidFormat is returned.", "quantifier": "all reachable matrices, all ids, all platforms and hash orders", "why_tests_cant": "all matrices, symmetric or not", "anchors": ["graphrox-rs/src/graph/standard.rs:undirected_from_unchecked"]}
{"id": "C90", "title": "Display of errors and adjacency matrices", "statement": "An error is displayed as 'GraphRoxError: ' and its message. to_string of an adjacency matrix is the grid of its entries and panics exactly if that text is not representable or cannot be allocated; the text determines the matrix.", "quantifier": "all errors, all matrices, all platforms", "why_tests_cant": "all matrices, including those too large to print", "anchors": ["graphrox-rs/src/error/mod.rs", "graphrox-rs/src/matrix/csr_adjacency_matrix.rs:fmt::Display for CsrAdjacencyMatrix"]}
{"id": "C91", "title": "Wrong use of CompressedGraphBuilder", "statement": "Whatever calls are made to a builder (repeated blocks, wrong weights, coordinates out of range), the finished graph stores at each place the last non-zero block written there and counts the claimed weights (saturating), and to_bytes fills a buffer of exactly the needed size or reports a capacity error; it never panics or overflows a buffer. try_from accepts the bytes exactly if dimension, edge range and edge count are right, and then returns the graph that was built.", "quantifier": "all sequences of builder calls, all platforms and hash orders", "why_tests_cant": "all sequences of calls; the documentation warns of buffer overflows", "anchors": ["graphrox-rs/src/graph/compressed.rs:CompressedGraphBuilder", "graphrox-rs/src/graph/compressed.rs:to_bytes"]}
{"id": "C92", "title": "Equal bytes of compressed graphs", "statement": "Two compressed graphs, from compress or try_from, whose to_bytes results are equal cannot be told apart by any query, and decompress to graphs that cannot be told apart.", "quantifier": "all pairs of reachable compressed graphs, all platforms with usize of at most 64 bits and all iteration orders, possibly different for the two", "why_tests_cant": "Quantifies over all pairs of compressed graphs and all hash iteration orders; it also covers graphs with repeated blocks whose bytes cannot be read back.", "anchors": ["graphrox-rs/src/graph/compressed.rs:to_bytes"]}
{"id": "C93", "title": "Text of a compressed graph", "statement": "Two compressed graphs with equal matrix_string have matrices of the same dimension with the same words, hence the same edges. The exact vertex count, the direction and the level are not shown.", "quantifier": "all pairs of reachable compressed graphs, all platforms with at least 16-bit usize and formatting widths of at least 20, all iteration orders", "why_tests_cant": "Column width and number of rows both vary, so that texts of different shapes could coincide; only a proof over all graphs excludes it.", "anchors": ["graphrox-rs/src/graph/compressed.rs:matrix_string", "graphrox-rs/src/matrix/csr_square_matrix.rs:to_string_with_precision"]}
{"id": "C94", "title": "Floating-point cells are rounded as IEEE-754 requires", "statement": "increment_entry on an f64 (f32) matrix replaces a finite entry q by the double (single) nearest to q+1, ties to even, an infinity on overflow; NaN and infinities stay, and no other entry changes. multiply_entries_by multiplies exactly the stored entries, as IEEE-754 says for finite numbers, infinities and NaN. A pooled entry is round(k * round(1 / round(b*b))) with every step rounded that way. The rounding is given by nearness, not by an algorithm, and has exactly one result.", "quantifier": "all matrices, entries and indices below 2^64-1; every reachable graph and effective block dimension below 2^32", "why_tests_cant": "Nearness compares with every number of the format; ties, subnormals and overflow are rarely hit by chosen values.", "anchors": ["graphrox-rs/src/matrix/csr_square_matrix.rs:increment_entry", "graphrox-rs/src/util/mod.rs:add_one", "graphrox-rs/src/graph/standard.rs:find_avg_pool_matrix"]}
{"id": "C95", "title": "The decoders report the first failed check", "statement": "Graph::try_from and CompressedGraph::try_from return an error exactly when one of an ordered list of checks on the bytes fails, and the error is InvalidFormat with the text of the first failing check: header length, magic number, version (compressed: outdated before unrecognized), direction flag, weighted flag / compression level, dimension, byte size, slice length, then block by block (zero word, position, edges inside the vertex count, running edge count), and last the announced edge count. Files of version 1 such as the two compressed samples shipped in the repository are always rejected as outdated, and the texts about overflowing coordinates or a zero matrix dimension are never returned.", "quantifier": "all byte strings, all platforms", "why_tests_cant": "A byte string can be wrong in many ways at once; which complaint wins, and that some branches are dead, concerns all combinations.", "anchors": ["graphrox-rs/src/graph/standard.rs:try_from", "graphrox-rs/src/graph/compressed.rs:try_from", "graphrox-rs/src/graph/compressed.rs:validate_compressed_entry_bounds", "sample-graphs/ca-HepPh.cgphrx", "sample-graphs/ca-AstroPh.cgphrx"]}
{"id": "C96", "title": "Average pooling conserves the edges", "statement": "Each entry of the average pooling matrix times the area of a block, summed over the whole matrix, gives the number of edges of the graph: exactly if the (effective) block dimension is a power of two, otherwise with a relative error of at most 2^-52 + 2^-106. With blocks of one vertex the pooled matrix is the adjacency matrix itself (entries 0 and 1, dimension = number of vertices).", "quantifier": "for every graph reachable through the public API, every block dimension whose effective value is at most 2^26, every platform and every hash iteration order", "why_tests_cant": "The tests compare a few matrices with expected entries; that the entries account for all edges, whatever the graph and block dimension, and that rounding does not accumulate, is a statement about all graphs.", "anchors": ["graphrox-rs/src/graph/standard.rs:find_avg_pool_matrix", "graphrox-rs/src/matrix/csr_square_matrix.rs:increment_entry"]}
{"id": "C97", "title": "Pooling in two steps agrees with pooling in one", "statement": "For block dimensions that are powers of two, an entry of the matrix pooled with blocks of dimension 2^(i+j) is exactly the average of the 2^j * 2^j entries of the matrix pooled with blocks of dimension 2^i that lie in that block; no rounding error occurs.", "quantifier": "for every reachable graph with at least 2^(i+j) vertices, all i and j with i + j at most 26, all platforms and hash orders", "why_tests_cant": "A test can compare two pooled matrices of one graph; the claim relates all pairs of levels of all graphs and says that floating-point arithmetic is exact there.", "anchors": ["graphrox-rs/src/graph/standard.rs:find_avg_pool_matrix"]}
{"id": "C98", "title": "Compression keeps exactly the blocks that approximation keeps", "statement": "For a graph with at least 8 vertices, compressing at level L (clamped to 1..64) keeps exactly the 8 by 8 blocks that are edges of the approximation with block dimension 8 and threshold L/64; the approximated graph has as many vertices as the compressed matrix has rows, and the file of the compressed graph has one 24-byte block for each edge of the approximated graph.", "quantifier": "for every reachable graph with at least 8 vertices, every level, all platforms and hash orders of the two computations", "why_tests_cant": "The two functions use different thresholds (compress subtracts 0.00001) on floating-point averages; that they never disagree is a statement about all graphs and levels.", "anchors": ["graphrox-rs/src/graph/standard.rs:compress", "graphrox-rs/src/graph/standard.rs:approximate", "graphrox-rs/src/graph/compressed.rs:to_bytes"]}
{"id": "C99", "title": "Shifting all vertex ids shifts all results", "statement": "If one graph is another with k added to every vertex id, the edge counts and degrees agree, neighbour lists are shifted by k, and the same edits with shifted ids keep the graphs shifted. If k is d times the block dimension, the pooled matrix and the approximation are shifted by d, and with k = 8d the compressed matrix is shifted by d: the same words, with nothing before them.", "quantifier": "for all reachable graphs related by a shift, every shift, every block dimension up to the number of vertices (below 2^32), every threshold and level, all platforms and hash orders", "why_tests_cant": "Off-by-one errors in block indices appear only for particular positions of edges relative to the block grid; the tests use a few small ids.", "anchors": ["graphrox-rs/src/graph/standard.rs:find_avg_pool_matrix", "graphrox-rs/src/graph/standard.rs:approximate", "graphrox-rs/src/graph/standard.rs:compress", "graphrox-rs/src/graph/standard.rs:add_edge", "graphrox-rs/src/graph/standard.rs:delete_edge"]}
{"id": "C100", "title": "The two file formats cannot be confused", "statement": "No byte string is accepted by both decoders. A graph file given to the decoder of compressed graphs is refused: as too short for the header if the graph has no edges, otherwise for its magic number. A compressed graph file given to the decoder of graphs is always refused for its magic number.", "quantifier": "for every byte string accepted by one of the decoders, on all platforms", "why_tests_cant": "That the sets of accepted byte strings are disjoint is a statement about all byte strings.", "anchors": ["graphrox-rs/src/graph/standard.rs:try_from", "graphrox-rs/src/graph/compressed.rs:try_from"]}
{"id": "C101", "title": "One damaged byte in a graph file", "statement": "A changed byte in the magic number, version, edge count or weight flag is always rejected. In the vertex count it is rejected exactly if an edge falls outside the new count, and otherwise changes the vertex count only. The flipped direction flag of a written file is accepted exactly if the graph becomes directed or is symmetric, and changes the direction only. In the edges of a directed graph it is rejected or replaces one existing edge by one that did not exist. In the edges of a written undirected graph it is rejected or the decoded graph is the original.", "quantifier": "for every accepted (last clauses: written) graph file, every position, every other byte value, all platforms and hash orders", "why_tests_cant": "A file has 255 damaged variants for each byte, and the outcome depends on the other edges of the graph.", "anchors": ["graphrox-rs/src/graph/standard.rs:try_from", "graphrox-rs/src/graph/standard.rs:to_bytes"]}
{"id": "C102", "title": "One damaged byte in a compressed graph file", "statement": "A changed byte among the first 32 (magic number, version, dimension, block count, edge count) is always rejected. In the vertex count it is accepted exactly if the number of blocks per side stays the same and no listed edge falls outside, and then changes the vertex count only. The other direction and any other level from 1 to 64 are always accepted and change nothing else. In the blocks, the counts, level and direction stay and at most the blocks at the old and the new position are affected; a byte of an entry with a different number of ones, in particular with one bit flipped, is always rejected.", "quantifier": "for every accepted compressed graph file, every position, every byte value, all platforms", "why_tests_cant": "A file has 255 damaged variants for each byte; that a flipped bit in an entry is always noticed is a statement about all files.", "anchors": ["graphrox-rs/src/graph/compressed.rs:try_from"]}
{"id": "C103", "title": "Python arguments of the wrong type are rejected without effect", "statement": "Passing something that is not an integer where the Python module expects a vertex id, dimension, level, position, number of digits or index raises an exception and changes nothing. False of compress and of list indices: compress(0.2) makes a compressed graph of level 1 and compress(100.5) one of level 64 (while 8.0 is rejected), and l[-0.5] is the last element. It holds for all other methods. For every call, with arguments of any type, either it does exactly what a call with integers, floats and bytes does, or it raises an exception and leaves memory and objects exactly as they were; so no argument of any type causes undefined behaviour.", "quantifier": "all finite programs with all calls and arguments (integers, floats including NaN and infinities, other objects, sequences of these), all platforms, allocators and hash orders", "why_tests_cant": "arguments of any type at any point of any program", "anchors": ["graphrox-py/graphrox/__init__.py:Graph", "graphrox-py/graphrox/__init__.py:Graph.compress", "graphrox-py/graphrox/__init__.py:_GraphEdgeList.__getitem__", "graphrox-py/graphrox/__init__.py:Graph.from_bytes"]}
{"id": "C104", "title": "The demo script", "statement": "scripts/demo.py prints the same text about its example graph in every environment with enough memory (literally given), and for the sample files, if they are valid graph files with at least 1500 and 2000 vertices, their numbers of vertices and edges and one digit per block, 1 exactly if the block has at least 3825 (4600) edges. A missing file ends it with FileNotFoundError, an invalid one with TypeError, after exactly the text that comes before. The compressed sample files in the repository, which begin with version 1, are rejected.", "quantifier": "all platforms with enough memory, all hash orders, all histories of the program before, all byte strings as sample files", "why_tests_cant": "hash orders, all files; the thresholds 0.0017 and 0.00115 are compared with rounded averages", "anchors": ["scripts/demo.py:__main__", "graphrox-rs/src/graph/standard.rs:approximate", "graphrox-rs/src/graph/compressed.rs:try_from"]}
{"id": "C105", "title": "approximate keeps blocks by a count of edges", "statement": "Whether approximate keeps a block depends only on how many edges the block has: for every block dimension and threshold there is one number K of edges, the same for all graphs, all places and all platforms, such that a block is kept exactly if it has at least K edges (or no block is ever kept). K is at least 1. For thresholds in (0, 1] and block dimensions up to 2^25 a count that is at least half an edge away from threshold times area is decided as exact arithmetic would decide it, in spite of two roundings.", "quantifier": "all graphs, all block dimensions below 2^32 (2^25 for the second part), all thresholds, all hash orders and platforms", "why_tests_cant": "thresholds and rounded averages are floating point numbers; monotonicity is needed for all counts of edges", "anchors": ["graphrox-rs/src/graph/standard.rs:approximate", "graphrox-rs/src/graph/standard.rs:find_avg_pool_matrix"]}
{"id": "C106", "title": "Everything graph_from_text_file can do", "statement": "For texts with any ids, negative ones included: let M be the largest id with which an edge begins and n = M + 2, the length of the numpy array. The script writes a graph exactly if the array can be made and all ids are in the range from -n to n - 1. Ids with the same remainder modulo n are then one vertex, because negative indices count from the end; vertices are numbered in the order of the smallest id of each among those with which an edge begins, and an edge is lost exactly if it ends at an id that has no remainder of one with which an edge begins. Otherwise the script ends with an IndexError, ValueError or MemoryError, according to the rule given, and prints nothing.", "quantifier": "all texts, all interpretations of integers and white space, all environments with enough memory for the result, all histories of the program before", "why_tests_cant": "all texts with ids of any sign and size", "anchors": ["scripts/generate_graph.py:graph_from_text_file"]}
{"id": "C107", "title": "Everything validate_graph can do", "statement": "For texts with any ids and any lines, half lines (a number and a word) included: the script compares one pair of ids only, x being the first number of the last line that begins with a number and y the end of the last edge. It prints nothing if the file has the edge between the vertices of x and y (ids modulo M + 1), and otherwise the message about x and y once per edge of the text. All cases in which it ends with an IndexError, ValueError, MemoryError or TypeError are given, in their order; nothing is printed in them.", "quantifier": "all texts, all files, all interpretations of integers and white space, all environments, all histories of the program before", "why_tests_cant": "all texts and all files", "anchors": ["scripts/generate_graph.py:validate_graph"]}
{"id": "C108", "title": "Checking or compressing a file just written from a text", "statement": "For texts with non-negative ids, every line of which that begins with a number listing an edge: running validate_graph on the file that graph_from_text_file has just written from the same text prints nothing exactly if the last edge of the text ends at an id with which some edge begins. Otherwise it reports that edge as missing once per edge of the text, or ends with an IndexError if the edge ends at the id just beyond the largest one with which an edge begins. Running compress_gphrx_file with a threshold of at most 1 on the file instead gives a file that decompresses to the graph of those edges of the text that end at an id with which an edge begins.", "quantifier": "all texts with non-negative ids for which the first script writes a file, all environments with enough memory, all histories of the program before", "why_tests_cant": "three scripts composed over all texts", "anchors": ["scripts/generate_graph.py:graph_from_text_file", "scripts/generate_graph.py:validate_graph", "scripts/generate_graph.py:compress_gphrx_file"]}
{"id": "C109", "title": "When printing a pooled matrix panics", "statement": "Let k be the number of digits of the longest integral part among the entries of a pooled matrix (39 if it has no entries), so an entry printed with d decimals takes w = k + 1 + d characters; 1 <= k <= 39. If w + 2 fits into usize, to_string_with_precision(d) panics exactly if there is room for the text, the matrix has an entry and w is more than format! allows. If w + 2 does not fit, it always panics in a build with overflow checks; in a build without them it panics exactly if there is room for the text whose size was computed modulo the size of usize, and there is an entry or only the last addition overflowed. The only error is CapacityOverflow, exactly if there is no room for the text. to_string panics exactly if there is no room for the text with 2 decimals.", "quantifier": "all graphs, block dimensions, decimals, hash orders and both profiles; all platforms on which format! is limited to widths small compared with usize and no buffer exceeds half the address space", "why_tests_cant": "the panics need texts of 65536 and more characters per entry or decimals near 2^64, on all graphs", "anchors": ["graphrox-rs/src/matrix/csr_square_matrix.rs:to_string_with_precision", "graphrox-rs/src/graph/standard.rs:find_avg_pool_matrix"]}
{"id": "C110", "title": "Characters of texts", "statement": "The text of a graph, of a compressed graph or of a matrix of any of the numeric types consists of brackets, commas, spaces, line ends, points and digits only, for signed types also minus signs and for floating point types also the letters of inf and NaN. So every text, even one that is laid out wrongly, is ASCII without a zero byte: String::from_utf8 and CString::new never refuse it.", "quantifier": "all matrices with any contents, all decimals, all platforms, profiles and hash orders", "why_tests_cant": "all matrices and precisions, including sizes computed with wrap-around", "anchors": ["graphrox-rs/src/matrix/csr_square_matrix.rs:to_string_with_precision", "graphrox-c/src/lib.rs:gphrx_matrix_to_string_with_precision"]}
{"id": "C111", "title": "Blocks are independent", "statement": "What happens to one block depends on that block only. If two graphs have the same block dimension in effect and the same edges inside the block in column c and row r, then entry (c, r) of their pooled matrices is the same, edge (c, r) of their approximations is the same for every threshold, and (for blocks of 8, if both have 8 vertices or the same smaller number) word (c, r) of their compressed graphs and all edges in it are the same for every level, whatever else the graphs contain and however many vertices they have. In particular adding or deleting one edge between existing vertices changes nothing outside the block of the edge (and its mirror image in an undirected graph).", "quantifier": "all pairs of graphs, all block dimensions below 2^32, blocks, thresholds, levels, platforms and hash orders", "why_tests_cant": "a leak between blocks can depend on the size and position of anything else in the graph", "anchors": ["graphrox-rs/src/graph/standard.rs:find_avg_pool_matrix", "graphrox-rs/src/graph/standard.rs:approximate", "graphrox-rs/src/graph/standard.rs:compress"]}
{"id": "C112", "title": "Renamed vertices", "statement": "Renaming the vertices of a graph by a one-to-one map f (the same history of edits with every id replaced, all ids usable before and after) changes no count: the number of edges and all degrees stay, neighbour lists and the iteration are renamed. If f maps blocks onto blocks (block c to block s(c), in any order inside), entry (s(c), s(r)) of the new pooled matrix is entry (c, r) of the old one, the approximation is renamed by s, and the compressed graph has the same number of edges and the edges renamed by f.", "quantifier": "all one-to-one maps of the ids, all histories, block dimensions below 2^32, thresholds, levels, platforms and hash orders; results of the two graphs compared if they have the same block dimension in effect", "why_tests_cant": "all permutations of 2^64 ids", "anchors": ["graphrox-rs/src/graph/standard.rs:add_edge", "graphrox-rs/src/graph/standard.rs:find_avg_pool_matrix", "graphrox-rs/src/graph/standard.rs:approximate", "graphrox-rs/src/graph/standard.rs:compress"]}
{"id": "C113", "title": "Printing any matrix of floating-point numbers", "statement": "For every CsrSquareMatrix<f64> (or <f32>) made by a history of calls, whatever it holds (NaN, infinities, numbers of any size and sign), and every number d of decimals, the outcome of to_string_with_precision(d) is determined as follows. k characters are reserved for integral parts: the longest one with its sign, numbers beyond the range of i128 counting like its ends (39 and 40 characters); 40 if nothing but NaN is stored; if nothing is stored, 40 when something was stored before and 39 otherwise. A cell is w = k+1+d wide. There is a capacity error exactly if there is no room for the text of the n x n matrix, which has 4n + (w+2)n^2 - 2 characters. It panics exactly if w is too large for format! and an entry is stored, or if the number stored somewhere is longer than what is left of the text from its cell on, or (builds with overflow checks) if w+2 overflows usize; builds without the checks panic then if there is room for the wrapped size and something is stored or only the addition of 2 overflowed. Otherwise a text of that size is returned, and it is the grid of the texts of the entries exactly if each of them fits in w characters.", "quantifier": "all histories of set_entry, zero_entry and increment_entry with any doubles (f32 values), all d, all hash orders, all platforms with a format! limit of at least 42 that is small compared with usize", "why_tests_cant": "all doubles, all positions, all sizes; the panic depends on the place of the number", "anchors": ["graphrox-rs/src/matrix/csr_square_matrix.rs:to_string_with_precision", "graphrox-rs/src/util/mod.rs:integral_digit_count"]}
{"id": "C114", "title": "Python: copy.copy and __del__", "statement": "The classes define neither __copy__ nor __deepcopy__, so copy.copy of an object of the module makes a second object with the same handle. As long as neither is dropped, every method of the copy does what it does on the original (an edit through one is seen through the other). When one of them has been dropped, every method of the other one (for graphs, compressed graphs and matrices) is undefined behaviour, and dropping both frees the memory twice (for them and all non-empty lists), in either order. The same holds after a direct call of __del__. Copies of iterators are harmless: the program could have got the same state with iter and next.", "quantifier": "all programs before the copy, all objects, all methods and arguments, all continuations until one of the objects is dropped, all platforms and allocators", "why_tests_cant": "undefined behaviour need not show in a test; all programs", "anchors": ["graphrox-py/graphrox/__init__.py:__del__", "graphrox-py/graphrox/__init__.py:_list_ref"]}
{"id": "C115", "title": "C API: undefined behaviour, aborts and memory, exactly", "statement": "Every call of the C interface has exactly one of three outcomes. It is undefined if and only if the program breaks the contract (a handle neither null nor alive and of the right kind, an out-parameter neither null nor a cell of its type, a list or buffer shorter than stated, an object freed with the wrong function or length). It aborts if and only if the contract is kept and the Rust method behind the call panics. Otherwise it returns, with the result and the changes of memory of the specification. In a program that began without using the library, the objects of the library in memory are exactly those that it returned and that the program has not freed since. (Empty lists count as objects here, although Rust allocates nothing for them.)", "quantifier": "all calls, memories, platforms, allocators and hash orders; all programs (sequences of calls and of writes to the program's own memory)", "why_tests_cant": "undefined behaviour cannot be observed by running it, and leaks are a statement about all memory after all sequences of calls", "anchors": ["graphrox-c/src/lib.rs:graph_ref", "graphrox-c/src/lib.rs:gphrx_from_bytes", "graphrox-c/src/lib.rs:gphrx_add_vertex", "graphrox-c/src/lib.rs:free_gphrx_bytes_buffer", "graphrox-c/src/lib.rs:free_gphrx_graph", "graphrox-c/src/lib.rs:gphrx_to_bytes"]}
{"id": "C116", "title": "Negative zero never appears", "statement": "No matrix of f32 or f64 entries ever contains -0.0, also if -0.0 is passed to set_entry, and every observation of it (dimension, number of entries, every entry, the items, the text with any number of decimals) is what it would be if -0.0 and 0.0 were the same value. The pooled matrix of a graph contains no -0.0 either, approximate with threshold -0.0 behaves as with 0.0, and compress is unaffected.", "quantifier": "all histories of set_entry, zero_entry and increment_entry with values of the type (including -0.0, infinities and NaN), all graphs, block dimensions, thresholds and compression levels, all platforms and hash orders", "why_tests_cant": "-0.0 == 0.0, so comparisons in tests cannot tell them apart, and printing \"-0.00\" would happen for particular histories only", "anchors": ["graphrox-rs/src/matrix/csr_square_matrix.rs:set_entry", "graphrox-rs/src/matrix/csr_square_matrix.rs:increment_entry", "graphrox-rs/src/matrix/csr_square_matrix.rs:multiply_entries_by", "graphrox-rs/src/util/mod.rs:clamp_threshold", "graphrox-rs/src/graph/standard.rs:find_avg_pool_matrix", "graphrox-rs/src/graph/standard.rs:approximate"]}
{"id": "C117", "title": "C calls from several threads", "statement": "If no thread of a program edits, frees or writes through an address that another thread uses, then the order in which the calls and memory accesses of the threads are interleaved does not matter: every other interleaving also runs without undefined behaviour or abort, each call returns the same value, each read reads the same, and the memory is the same at the end. In particular any number of threads may query the same graph at once. Each thread sees what it would see alone, and threads can be interleaved in a given way iff each can run alone. What a call does depends only on the objects whose addresses it is given.", "quantifier": "all programs of any number of threads, all sequences of calls of the 47 functions with all arguments, of reads and writes of the program's own memory, all interleavings, all memories, platforms and hash orders; the allocator may return any unused address", "why_tests_cant": "the number of interleavings is exponential and a test sees one of them per run", "anchors": ["graphrox-c/src/lib.rs:graph_ref", "graphrox-c/src/lib.rs:graph_mut", "graphrox-c/src/lib.rs:compressed_graph_ref", "graphrox-c/src/lib.rs:matrix_ref", "graphrox-c/src/lib.rs:gphrx_add_edge", "graphrox-c/src/lib.rs:gphrx_from_bytes"]}
{"id": "C118", "title": "Which library the Python module loads", "statement": "Importing the Python module loads the shared library built for the operating system and processor it runs on, under every name that systems use for the processor in upper or lower case, and raises ImportError if there is none for them.", "quantifier": "all results of platform.system() and platform.uname().machine", "why_tests_cant": "tests run on one machine; the names that machines report are open-ended", "anchors": ["graphrox-py/graphrox/__init__.py:_load_gphrx_lib"]}
{"id": "C119", "title": "The header is copied next to the library", "statement": "Building the C library copies gphrx.h into the directory in which Cargo puts the library, for every profile, target triple and target directory.", "quantifier": "all values of CARGO_MANIFEST_DIR, CARGO_TARGET_DIR and OUT_DIR, all profiles and target triples", "why_tests_cant": "a test build has one directory layout", "anchors": ["graphrox-c/build.rs:main"]}
{"id": "C120", "title": "C programs cannot tell where objects are", "statement": "What a C program sees of the library does not depend on the addresses the allocator hands out: two runs of a program that uses no pointer after freeing it see the same numbers, null pointers, memory contents and equalities of pointers, and run into undefined behaviour or an abort at the same command, if at all. This holds for programs with loops and branches, whose next command depends on all that they have seen.", "quantifier": "all finite programs of library calls, allocations, writes, frees, reads and pointer comparisons; all pairs of allocators, which may change from call to call", "why_tests_cant": "a test run has one allocator; allocators that reuse an address at once or never cannot all be tried", "anchors": ["graphrox-c/src/lib.rs:free_gphrx_graph", "graphrox-c/src/lib.rs:gphrx_duplicate", "graphrox-c/src/lib.rs:gphrx_from_bytes"]}
{"id": "C121", "title": "What is kept in memory", "statement": "The tables of a graph hold one entry for each edge and no empty table, so that its memory is in proportion to the number of edges. The second half is false of the code: delete_edge leaves the table of its vertex behind, so a graph keeps a table for each vertex that has had an outgoing edge at some time, and 2k edits can leave k tables and no edge. It is true of graphs from which nothing was deleted, of decoded, decompressed and approximated graphs and of compressed graphs; in particular a graph file of 26+16n bytes (compressed: 42+24n) is decoded into at most n tables with at most n entries, whatever its header says.", "quantifier": "all edit histories, all reachable graphs, all byte slices, all histories of numeric matrices of any entry type", "why_tests_cant": "memory is not visible through the API, and histories and files are unbounded", "anchors": ["graphrox-rs/src/matrix/csr_adjacency_matrix.rs:zero_entry", "graphrox-rs/src/matrix/csr_adjacency_matrix.rs:set_entry", "graphrox-rs/src/matrix/csr_square_matrix.rs:zero_entry", "graphrox-rs/src/graph/standard.rs:try_from", "graphrox-rs/src/graph/compressed.rs:try_from"]}
{"id": "C122", "title": "Header, library and ctypes declarations agree", "statement": "The library, the C header and the ctypes declarations describe the same 47 functions, each once, and calls work across them: every argument and every result arrives unchanged, and lists, byte buffers and out-parameters written on one side are read with the same values on the other, element by element, without touching memory outside the list. Every function the Python classes call is declared, list elements have no padding, the error codes are the same, and the model of the C interface has exactly these functions with these arguments and results.", "quantifier": "all functions, all argument and result values, all lists, all memories and addresses, all calling conventions that deliver values when both sides agree on the types, all platforms (pointer width, alignments, byte order)", "why_tests_cant": "tests run on one platform, where a wrong width or a missing declaration often works by luck for small values", "anchors": ["graphrox-c/gphrx.h:gphrx_add_vertex", "graphrox-c/src/lib.rs:GphrxMatrixEntry", "graphrox-py/graphrox/__init__.py:_GphrxMatrixEntry_c", "graphrox-py/graphrox/__init__.py:_GphrxError"]}
{"id": "C123", "title": "Exactly which files a graph can be written as", "statement": "to_bytes writes the edges of a graph in an order in which the edges from the same vertex stand together, and it may be any such order, depending on the hash function; the same holds for the blocks of a compressed graph and their columns. So two runs are certain to write the same bytes exactly when the graph has at most one edge. Among the files the decoder accepts, those that some graph is written as are exactly those that list no edge (no block) twice and list the edges from the same vertex (the blocks of the same column) together; there are accepted files that no graph is written as.", "quantifier": "all graphs and compressed graphs, all files, all iteration orders of the hash maps, all platforms", "why_tests_cant": "a test sees the orders that a few random hash keys give; which orders can and cannot occur is a statement about all of them", "anchors": ["graphrox-rs/src/graph/standard.rs:to_bytes", "graphrox-rs/src/graph/compressed.rs:to_bytes", "graphrox-rs/src/matrix/csr_adjacency_matrix.rs:next", "graphrox-rs/src/matrix/csr_square_matrix.rs:next"]}
{"id": "C124", "title": "How much work the functions do", "statement": "Adding, deleting and looking up an edge takes at most four steps (hash table accesses), an out-degree one, however large the graph is. Going through a graph takes exactly one step per edge and two per table; writing it one more per byte, and nothing when the size does not fit. Reading a file takes at most 26 (compressed: 42) steps unless its length is the one its header announces, and never more than 5 (15) steps per 4 bytes, whatever the bytes say. Pooling, approximation and compression take time in proportion to edges and tables, decompression in proportion to stored blocks, whatever the number of vertices. In full: the work is in proportion to the number of edges. (False: the empty tables that deletions leave are visited too; true of graphs without empty tables.)", "quantifier": "all graphs, matrices, compressed graphs and files, all platforms, all iteration orders of the hash maps, all levels, block dimensions and thresholds", "why_tests_cant": "a test measures the time of a few inputs; hostile headers and graphs with 2^60 vertices are among the inputs that must not be slow", "anchors": ["graphrox-rs/src/graph/standard.rs:try_from", "graphrox-rs/src/graph/compressed.rs:try_from", "graphrox-rs/src/matrix/csr_adjacency_matrix.rs:next", "graphrox-rs/src/graph/standard.rs:compress", "graphrox-rs/src/graph/compressed.rs:decompress"]}
{"id": "C125", "title": "Machines agree", "statement": "What a build of the library computes without an error, a build for a larger machine (wider usize, more memory, longer formats; the same overflow checks, or fewer) computes as well and with the same result: bytes written, graphs read, pictures, pooled matrices, approximations, compressed and decompressed graphs, matrices made by calls. Two machines of any kind never give two different answers. A file that fits both is read as the same graph by both or refused by both; compressing and decompressing do not depend on the machine. In full: pictures of numeric matrices are the same at every precision the smaller machine can express. (False: in a release build the width of a cell may wrap around; true when the precision leaves room for 43 characters.) A C program all of whose calls succeed on a machine runs in the same way on a larger one. A Python program in which the library did not fail sees the same values and exceptions on a larger one.", "quantifier": "all pairs of platforms (usize width, allocator, format limit, overflow checks), all graphs, compressed graphs, matrices, files, levels, block dimensions, thresholds and precisions, all hash orders, all executions of C programs and of Python programs", "why_tests_cant": "tests run on one machine; files and results travel between machines of different widths and builds", "anchors": ["graphrox-rs/src/graph/standard.rs:try_from", "graphrox-rs/src/graph/compressed.rs:try_from", "graphrox-rs/src/graph/standard.rs:find_avg_pool_matrix", "graphrox-rs/src/matrix/csr_square_matrix.rs:to_string_with_precision", "graphrox-c/src/lib.rs:gphrx_from_bytes"]}
{"id": "C126", "title": "Exactly what can be produced", "statement": "Every direction, every number of vertices up to 2^64 - 1 and every finite set of edges between existing vertices (symmetric if undirected) is that of a graph that the library can build, and nothing else is. Every graph is the decompression of a compressed graph. A compressed graph is a result of compress at level l exactly if its level is l moved into 1..64, its edge count is the number of its edges (at most 2^64 - 1), it is symmetric if undirected, and every non-empty block has at least the share of edges that level asks for. For every block dimension from 2 up to 2^32 - 1 and every threshold it is all or nothing: either every graph (whose blown-up version has at most 2^64 - 1 vertices) is the approximation of some graph, or no approximation has an edge; the approximation of the full graph on one block tells which.", "quantifier": "all directions, vertex counts and finite edge sets, all reachable compressed graphs and levels, all block dimensions, thresholds (NaN and infinities included), platforms and hash orders", "why_tests_cant": "tests show that some outputs occur; that every output of a described class occurs, and no other, is a statement about all inputs", "anchors": ["graphrox-rs/src/graph/standard.rs:add_edge", "graphrox-rs/src/graph/standard.rs:approximate", "graphrox-rs/src/graph/standard.rs:compress", "graphrox-rs/src/graph/compressed.rs:decompress"]}
{"id": "C127", "title": "Writing into returned buffers is harmless", "statement": "A C program may write into the strings, byte buffers and lists the library gave it (keeping their length). No call depends on the contents of such a buffer except a decoder or add_vertex that is told to read it: every other call returns the same value and makes the same changes as before the writing, or aborts or is undefined alike. A whole program that writes into buffers gets the same results as without the writing. Graphs, compressed graphs and matrices are still exactly what their own edits made of them and what the Rust interface can produce, calls on handles still return what Rust returns, unfreed buffers keep kind and length (so the reported length still frees them), and the live objects are still exactly those returned and not yet freed.", "quantifier": "all C programs (sequences of calls with any arguments, interleaved with any writes to own memory and to returned buffers), all memories, platforms, hash orders; for the comparison of two memories all allocators that do not look at the contents of buffers", "why_tests_cant": "a test writes particular bytes into particular buffers; that no function keeps a hidden reference into a buffer it handed out is a statement about all calls and contents", "anchors": ["graphrox-c/src/lib.rs:gphrx_to_bytes", "graphrox-c/src/lib.rs:gphrx_get_edge_list", "graphrox-c/src/lib.rs:gphrx_matrix_string", "graphrox-c/src/lib.rs:free_gphrx_string_buffer"]}
{"id": "C128", "title": "The last edit decides; which edits can be exchanged or undone", "statement": "After any history of edits from any graph, an edge exists exactly if some edit put it in and no later edit took it out, or it was there before and no edit took it out; there are the vertices from before and all ids up to the largest one that some add made sure of, whatever was deleted. Two edits can be exchanged on a graph exactly if neither puts an edge in that the other takes out; a history without such conflicts gives the same graph in any order and with any repetitions. An edit changes nothing exactly if what it puts in is there, what it takes out is not, and its vertices exist; doing an edit twice is doing it once. delete_edge undoes add_edge exactly if the edge was not there and both vertices existed; add_edge undoes delete_edge exactly if the edge was there (or, in both cases, an id is the reserved one).", "quantifier": "all graphs reachable through the API (the first two for all graph values), all histories, all edits, directed and undirected", "why_tests_cant": "histories are unbounded, and 'exactly if' quantifies over all graphs and pairs of edits", "anchors": ["graphrox-rs/src/graph/standard.rs:add_vertex", "graphrox-rs/src/graph/standard.rs:add_edge", "graphrox-rs/src/graph/standard.rs:delete_edge", "graphrox-rs/src/graph/standard.rs:does_edge_exist"]}
{"id": "C129", "title": "Calls that overlap in time", "statement": "Calls of several threads may be in progress at the same time, with their single accesses to memory interleaved in any way and objects in any intermediate state during a call. If accesses that happen in the other order than the calls are numbered do not race (different objects, or both reads), then all calls return what they return when made one after another in that order, and the memory afterwards is the same; calls that are not finished do not disturb this. A call runs into undefined behaviour or aborts only if it does so when made alone after the finished ones. A call accesses only the objects it is given and the one it returns, and changes only those it is documented to change; so threads whose calls are independent of those of the others get the results of every serial schedule, however their calls overlap. With a race an update can be lost.", "quantifier": "all memories, all numbers of actions (all 47 functions with any arguments, reads and writes of the caller), all interleavings of their accesses, all intermediate contents, any number of unfinished calls", "why_tests_cant": "the number of interleavings grows exponentially, and a test sees those the scheduler happens to choose", "anchors": ["graphrox-c/src/lib.rs:gphrx_add_edge", "graphrox-c/src/lib.rs:gphrx_add_vertex", "graphrox-c/src/lib.rs:gphrx_to_bytes", "graphrox-c/src/lib.rs:gphrx_duplicate", "graphrox-c/src/lib.rs:free_gphrx_graph"]}
{"id": "C130", "title": "How much compressing and approximating can lose", "statement": "Compressing a graph with at least 8 vertices at level L loses exactly the edges of the 8 by 8 blocks with fewer than L edges: the edge count falls by their sum, which is at most L-1 for each such block. With fewer than 8 vertices all edges are kept or all are lost. No degree grows, and none falls by more than min(8, L-1) for each block across the graph. For every level and number of blocks there are graphs that lose as much. For an approximation with block dimension b there is a number K that the threshold stands for: the edge count is the number of blocks with at least K edges, and the graph has at least K edges for each of them and at most b*b for each of them and K-1 for each other block; from the threshold q itself, K is q*b*b up to half an edge.", "quantifier": "all reachable graphs (any number of vertices and edges), all levels, all block dimensions below 2^32 (2^25 for the bound by the threshold), all thresholds, all hash orders", "why_tests_cant": "a test compares one graph before and after; that no graph loses more, and that the bound is attained at every size, are statements about all graphs", "anchors": ["graphrox-rs/src/graph/standard.rs:compress", "graphrox-rs/src/graph/standard.rs:approximate", "graphrox-rs/src/graph/standard.rs:find_avg_pool_matrix", "graphrox-rs/src/graph/compressed.rs:decompress"]}
{"id": "C131", "title": "Walks, distances and patterns survive", "statement": "Adding edges or vertices destroys no walk and lengthens no distance; deleting edges shortens none; a shortest walk has fewer edges than there are vertices, and in an undirected graph walks can be reversed. The walks of a compressed graph are those walks of the graph that only use blocks with at least as many edges as the level says (all of them at level 1), so distances do not shrink and every pattern of the compressed graph is in the graph; decompressing changes nothing. An approximation at threshold zero has an edge between two blocks exactly if the graph has an edge between vertices in them, so every walk and every pattern of the graph is in the approximation and distances do not grow; at any threshold an edge of the approximation stands for an edge of the graph. A walk of an approximation need not come from a walk of the graph, and above threshold zero walks can be lost.", "quantifier": "all reachable graphs, all edits, all levels, all block dimensions (up to 10^9 at threshold zero, below 2^32 at other thresholds), walks of any length, patterns of any size, all hash orders", "why_tests_cant": "walks of any length and patterns of any size in any graph; a test checks a few", "anchors": ["graphrox-rs/src/graph/standard.rs:add_edge", "graphrox-rs/src/graph/standard.rs:delete_edge", "graphrox-rs/src/graph/standard.rs:approximate", "graphrox-rs/src/graph/standard.rs:compress", "graphrox-rs/src/graph/compressed.rs:does_edge_exist"]}
{"id": "C132", "title": "Parts of a Python program that share no objects", "statement": "Let the steps of a Python program belong to parts (threads whose calls are not made at the same time, tasks, libraries), and let no part use an object that another part has created. Then every part sees exactly the values and exceptions that it would see alone, with its own objects numbered by itself; and an interleaving of steps is possible iff the steps of each part are possible alone. So all interleavings of the same parts show the parts the same. With shared objects this is false.", "quantifier": "all executions of Python programs (any calls and arguments, any platform and hash order at each step, any collection of objects), any number of parts, all interleavings", "why_tests_cant": "the interleavings of even two short parts are too many to try, and a leak of state through handles, memory or iterators need not show in any particular one", "anchors": ["graphrox-py/graphrox/__init__.py:Graph", "graphrox-py/graphrox/__init__.py:_GraphEdgeListIterator", "graphrox-c/src/lib.rs:gphrx_new_directed", "graphrox-c/src/lib.rs:free_gphrx_graph"]}
{"id": "C133", "title": "Parts of a C program that share no objects", "statement": "Let the commands of a C program belong to parts (threads whose calls are not made at the same time, modules, libraries), let no part use a pointer that a command of another part obtained, and let nothing be used after it is freed. Then what each part sees until the program ends is what it sees when it runs without the others; the whole program runs without undefined behaviour and aborts iff every part does so alone; and all interleavings of the same parts show each part the same. Addresses play no role: one part may get an address another one has just freed. With shared objects this is false.", "quantifier": "all finite programs of library calls, allocations, writes, frees, reads and pointer comparisons; any number of parts; all interleavings; all allocators, platforms and hash orders at each command", "why_tests_cant": "the interleavings of even two short parts are too many to try, and address reuse depends on the allocator of the test machine", "anchors": ["graphrox-c/src/lib.rs:free_gphrx_graph", "graphrox-c/src/lib.rs:gphrx_new_directed", "graphrox-c/src/lib.rs:gphrx_duplicate", "graphrox-c/src/lib.rs:gphrx_add_edge"]}
{"id": "C134", "title": "When Python objects are collected does not matter", "statement": "Let the objects of a Python program be collected at any times after their last use by the program: at once, later, in any order, never; a list whose iterator is still in use may be let go of as well. What the program sees - values, exceptions, which objects are new - is exactly what it sees when nothing is ever collected, and so the same for any two choices of the times. Collecting an object that is still used can be noticed.", "quantifier": "all executions of Python programs (any calls and arguments, any platform and hash order at each step), all sets and times of collections after the last use", "why_tests_cant": "the collector runs at times a test does not choose; a __del__ that frees memory an iterator or another object still uses shows only at some of them", "anchors": ["graphrox-py/graphrox/__init__.py:Graph", "graphrox-py/graphrox/__init__.py:_GraphEdgeListIterator", "graphrox-c/src/lib.rs:free_gphrx_graph", "graphrox-c/src/lib.rs:free_gphrx_edge_list"]}
{"id": "C135", "title": "Hash orders show only in the order of listings and of the records of files", "statement": "Run a Python program twice with the same calls on the same platforms, with any two hash orders and allocators, which may change at every step. The program may read files that it has written. If one run exists, so does the other, and it sees the same: the same values, the same texts, the same exceptions and the same new objects. The only differences: a file may have its records in another order (same header, same records), and a place of a list or the next element of an iterator may hold another element. At the end of the program (so at any time) each list has the same elements, perhaps in another order. The order of lists does differ for some hash orders.", "quantifier": "all executions of Python programs with moderate arguments (blocks below 2^32, decimals that can be formatted, platforms with at least 16 bits), all pairs of hash orders and allocators at each step", "why_tests_cant": "the hash order of a run is one of very many and not chosen by the test; a result that depends on the order of insertion or iteration (pooling, approximating, compressing, printing) shows only for some graphs under some orders", "anchors": ["graphrox-py/graphrox/__init__.py:Graph", "graphrox-rs/src/graph/standard.rs:find_avg_pool_matrix", "graphrox-rs/src/graph/standard.rs:compress", "graphrox-rs/src/matrix/csr_square_matrix.rs:to_string_with_precision"]}
{"id": "C136", "title": "What C programs can see of hash orders", "statement": "Run a C program twice with the same commands on the same platforms, with any two hash orders and any two allocators, which may change at every call. If the program uses nothing after freeing it, both runs see the same numbers, texts, null pointers, error codes and equalities of addresses, and undefined behaviour or an abort at the same command, if at all. The only differences are the order of the lists and of the records of the files in memory. The program may read files that it wrote, or beginnings of them, and may pass lists of vertices that the library returned to gphrx_add_vertex, as long as it passes all of the list. If it passes only a part of such a list, numbers can differ as well. Programs may have loops and branches, as long as their decisions do not depend on the order of lists and records; they then make the same commands in both runs.", "quantifier": "all finite programs of library calls (all 47 functions), allocations, writes, frees, reads and pointer comparisons that use nothing after freeing it; all pairs of hash orders and allocators at each command; platforms with 16 to 64 bits; blocks below 2^32; decimals that can be formatted", "why_tests_cant": "hash orders and allocators of a run are not chosen by the test; a dependence on either shows only for some graphs under some orders", "anchors": ["graphrox-c/src/lib.rs:gphrx_add_vertex", "graphrox-c/src/lib.rs:gphrx_to_bytes", "graphrox-c/src/lib.rs:gphrx_from_bytes", "graphrox-c/src/lib.rs:gphrx_get_vertex_out_edges_list", "graphrox-c/src/lib.rs:gphrx_matrix_to_string_with_precision"]}
