{
 "claims": [
  {
   "property": "C01",
   "status": "proved",
   "theorems": [
    "C01_history_refinement",
    "C01_history_documented",
    "C01_history_from_reachable"
   ],
   "note": "documented meaning of add_vertex for histories without the reserved id; exact meaning of the code for all histories"
  },
  {
   "property": "C02",
   "status": "proved",
   "theorems": [
    "C02_edge_count_exact"
   ],
   "note": ""
  },
  {
   "property": "C03",
   "status": "proved",
   "theorems": [
    "C03_range"
   ],
   "note": ""
  },
  {
   "property": "C04",
   "status": "proved",
   "theorems": [
    "C04_undirected_symmetric"
   ],
   "note": ""
  },
  {
   "property": "C05",
   "status": "proved",
   "theorems": [
    "C05_add_edge_exact"
   ],
   "note": ""
  },
  {
   "property": "C06",
   "status": "proved",
   "theorems": [
    "C06_delete_edge_exact",
    "C06_add_then_delete"
   ],
   "note": ""
  },
  {
   "property": "C07",
   "status": "partial",
   "theorems": [
    "C07_add_vertex_partial",
    "C07_full_false"
   ],
   "note": "false for a new vertex whose listed targets are all u64::MAX (C07_full_false); exact condition proved"
  },
  {
   "property": "C08",
   "status": "proved",
   "theorems": [
    "C08_reserved_id_ignored"
   ],
   "note": ""
  },
  {
   "property": "C09",
   "status": "proved",
   "theorems": [
    "C09_iteration_exactly_once",
    "C09_matrix_iteration",
    "C09_fused"
   ],
   "note": ""
  },
  {
   "property": "C10",
   "status": "proved",
   "theorems": [
    "C10_neighbours"
   ],
   "note": ""
  },
  {
   "property": "C11",
   "status": "proved",
   "theorems": [
    "C11_degree_sums"
   ],
   "note": ""
  },
  {
   "property": "C12",
   "status": "proved",
   "theorems": [
    "C12_insertion_order"
   ],
   "note": ""
  },
  {
   "property": "C13",
   "status": "proved",
   "theorems": [
    "C13_undirected_from"
   ],
   "note": ""
  },
  {
   "property": "C14",
   "status": "proved",
   "theorems": [
    "C14_graph_bytes_layout"
   ],
   "note": ""
  },
  {
   "property": "C15",
   "status": "proved",
   "theorems": [
    "C15_round_trip"
   ],
   "note": ""
  },
  {
   "property": "C16",
   "status": "proved",
   "theorems": [
    "C16_decode_total"
   ],
   "note": ""
  },
  {
   "property": "C17",
   "status": "proved",
   "theorems": [
    "C17_decoded_is_what_bytes_say"
   ],
   "note": ""
  },
  {
   "property": "C18",
   "status": "proved",
   "theorems": [
    "C18_accepts_iff"
   ],
   "note": ""
  },
  {
   "property": "C19",
   "status": "proved",
   "theorems": [
    "C19_graph_extension",
    "C19_graph_prefix",
    "C19_compressed_extension",
    "C19_compressed_prefix"
   ],
   "note": ""
  },
  {
   "property": "C20",
   "status": "proved",
   "theorems": [
    "C20_equal_bytes"
   ],
   "note": ""
  },
  {
   "property": "C21",
   "status": "proved",
   "theorems": [
    "C21_level_one_lossless"
   ],
   "note": ""
  },
  {
   "property": "C22",
   "status": "proved",
   "theorems": [
    "C22_keeps_blocks"
   ],
   "note": ""
  },
  {
   "property": "C23",
   "status": "partial",
   "theorems": [
    "C23_tiny_graphs_partial",
    "C23_full_false"
   ],
   "note": "false of the code (C23_full_false); the exact rule of the code is proved"
  },
  {
   "property": "C24",
   "status": "proved",
   "theorems": [
    "C24_bit_layout",
    "C24_compressed_subset"
   ],
   "note": ""
  },
  {
   "property": "C25",
   "status": "proved",
   "theorems": [
    "C25_edge_count_exact"
   ],
   "note": ""
  },
  {
   "property": "C26",
   "status": "proved",
   "theorems": [
    "C26_compression_metadata"
   ],
   "note": ""
  },
  {
   "property": "C27",
   "status": "proved",
   "theorems": [
    "C27_decompress_agrees",
    "C27_decompress_compressed"
   ],
   "note": ""
  },
  {
   "property": "C28",
   "status": "proved",
   "theorems": [
    "C28_monotone_level"
   ],
   "note": ""
  },
  {
   "property": "C29",
   "status": "proved",
   "theorems": [
    "C29_recompress_stable"
   ],
   "note": ""
  },
  {
   "property": "C30",
   "status": "proved",
   "theorems": [
    "C30_compress_symmetric"
   ],
   "note": ""
  },
  {
   "property": "C31",
   "status": "proved",
   "theorems": [
    "C31_compressed_bytes_layout"
   ],
   "note": ""
  },
  {
   "property": "C32",
   "status": "proved",
   "theorems": [
    "C32_round_trip"
   ],
   "note": ""
  },
  {
   "property": "C33",
   "status": "proved",
   "theorems": [
    "C33_decode_total"
   ],
   "note": ""
  },
  {
   "property": "C34",
   "status": "proved",
   "theorems": [
    "C34_accepted_in_range",
    "C34_contents"
   ],
   "note": ""
  },
  {
   "property": "C35",
   "status": "partial",
   "theorems": [
    "C35_decoded_edge_count_partial",
    "C35_full_false"
   ],
   "note": "false of the code for duplicate blocks (C35_full_false); proved: exact if and only if the blocks are distinct, an upper bound always"
  },
  {
   "property": "C36",
   "status": "partial",
   "theorems": [
    "C36_decoded_undirected_partial",
    "C36_full_false"
   ],
   "note": "false of the code (C36_full_false); proved: the exact edges of the decompressed graph (the symmetric closure), and that it agrees with the compressed graph exactly when the latter was symmetric"
  },
  {
   "property": "C37",
   "status": "partial",
   "theorems": [
    "C37_resave_partial",
    "C37_resave_error",
    "C37_full_false"
   ],
   "note": "false of the code for duplicate blocks (C37_full_false); proved: accepted again and equal if and only if the blocks are distinct, otherwise rejected with the edge count complaint"
  },
  {
   "property": "C38",
   "status": "proved",
   "theorems": [
    "C38_pooling_covers"
   ],
   "note": ""
  },
  {
   "property": "C39",
   "status": "proved",
   "theorems": [
    "C39_pooling_values"
   ],
   "note": ""
  },
  {
   "property": "C40",
   "status": "proved",
   "theorems": [
    "C40_approximate_keeps"
   ],
   "note": ""
  },
  {
   "property": "C41",
   "status": "partial",
   "theorems": [
    "C41_true_average_partial",
    "C41_full_false"
   ],
   "note": "false of the code: a full 7x7 block misses threshold 1 (C41_full_false); proved below dimension 2^32 for power-of-two blocks, and for all blocks outside a 2^-50 band"
  },
  {
   "property": "C42",
   "status": "partial",
   "theorems": [
    "C42_threshold_monotone_partial",
    "C42_exact",
    "C42_full_false"
   ],
   "note": "false of the code for t1<=0<t2<1e-18 with blocks above 10^9 (C42_full_false); C42_exact: the exact rule for every graph and pair of thresholds, block dimension below 2^32"
  },
  {
   "property": "C43",
   "status": "proved",
   "theorems": [
    "C43_copy"
   ],
   "note": ""
  },
  {
   "property": "C44",
   "status": "partial",
   "theorems": [
    "C44_threshold_clamping_partial",
    "C44_tiny",
    "C44_exact",
    "C44_full_false"
   ],
   "note": "false in full for thresholds between 0 and 1e-18 with block dimensions above 10^9 (C44_full_false); C44_exact: the exact rule for every graph and threshold"
  },
  {
   "property": "C45",
   "status": "partial",
   "theorems": [
    "C45_zero_threshold_partial",
    "C45_full_false"
   ],
   "note": "false of the code for blocks above 10^9 (C45_full_false); the exact rule for all dimensions below 2^32 is proved"
  },
  {
   "property": "C46",
   "status": "partial",
   "theorems": [
    "C46_no_overflow_partial",
    "C46_full_false",
    "C46_compress_never_fails",
    "C46_release"
   ],
   "note": "false of the code for blocks of dimension at least 2^32 (C46_full_false); proved below, always for compress and decompress; above: exact behaviour of debug builds (panic) and release builds (C46_release)"
  },
  {
   "property": "C47",
   "status": "proved",
   "theorems": [
    "C47_compress_agrees_approximate"
   ],
   "note": ""
  },
  {
   "property": "C48",
   "status": "proved",
   "theorems": [
    "C48_approximate_undirected"
   ],
   "note": ""
  },
  {
   "property": "C49",
   "status": "proved",
   "theorems": [
    "C49_matrix_string"
   ],
   "note": ""
  },
  {
   "property": "C50",
   "status": "proved",
   "theorems": [
    "C50_matrix_string_injective"
   ],
   "note": ""
  },
  {
   "property": "C51",
   "status": "proved",
   "theorems": [
    "C51_compressed_matrix_string"
   ],
   "note": ""
  },
  {
   "property": "C52",
   "status": "proved",
   "theorems": [
    "C52_adjacency_matrix_history",
    "C52_set_reads_back"
   ],
   "note": ""
  },
  {
   "property": "C53",
   "status": "partial",
   "theorems": [
    "C53_adj_partial",
    "C53_square_partial",
    "C53_adj_full_false",
    "C53_square_full_false"
   ],
   "note": "false of the code for value 0 over an existing entry, in both matrix types; for the adjacency matrix the exact result of every set_entry is proved"
  },
  {
   "property": "C54",
   "status": "proved",
   "theorems": [
    "C54_square_matrix_history"
   ],
   "note": ""
  },
  {
   "property": "C55",
   "status": "partial",
   "theorems": [
    "C55_sets_partial",
    "C55_unsigned_partial",
    "C55_count_exact",
    "C55_full_false"
   ],
   "note": "false of the code when increment_entry turns -1 into 0; proved without increments, for unsigned types without overflow, and (C55_count_exact) what entry_count is for every history of every type: the number of places kept"
  },
  {
   "property": "C56",
   "status": "proved",
   "theorems": [
    "C56_unsigned_text"
   ],
   "note": ""
  },
  {
   "property": "C57",
   "status": "partial",
   "theorems": [
    "C57_signed_text_partial",
    "C57_exact",
    "C57_full_false",
    "C57_i128_text_partial",
    "C57_i128_full_false"
   ],
   "note": "false of the code for d > 0 and negative entries of other lengths, and for i128; C57_exact gives the exact rule for when the text is right; for i128 what is printed instead is proved"
  },
  {
   "property": "C58",
   "status": "proved",
   "theorems": [
    "C58_counter_bounds"
   ],
   "note": ""
  },
  {
   "property": "C59",
   "status": "proved",
   "theorems": [
    "C59_null_handle",
    "C59_free_null",
    "C59_covers"
   ],
   "note": ""
  },
  {
   "property": "C60",
   "status": "proved",
   "theorems": [
    "C60_defined",
    "C60_frame",
    "C60_own_history",
    "C60_covers",
    "C60_returns",
    "C60_like_abstract"
   ],
   "note": ""
  },
  {
   "property": "C61",
   "status": "proved",
   "theorems": [
    "C61_from_bytes",
    "C61_compressed_from_bytes",
    "C61_null_buffer"
   ],
   "note": ""
  },
  {
   "property": "C62",
   "status": "proved",
   "theorems": [
    "C62_size_frees",
    "C62_sizes"
   ],
   "note": ""
  },
  {
   "property": "C63",
   "status": "partial",
   "theorems": [
    "C63_index_partial",
    "C63_below",
    "C63_full_false"
   ],
   "note": "false of the code at indices <= -len (C63_full_false); exact behaviour there is C63_below"
  },
  {
   "property": "C64",
   "status": "proved",
   "theorems": [
    "C64_compress"
   ],
   "note": ""
  },
  {
   "property": "C65",
   "status": "proved",
   "theorems": [
    "C65_builder"
   ],
   "note": ""
  },
  {
   "property": "C66",
   "status": "proved",
   "theorems": [
    "C66_accepts_iff"
   ],
   "note": ""
  },
  {
   "property": "C67",
   "status": "proved",
   "theorems": [
    "C67_pooled_text"
   ],
   "note": ""
  },
  {
   "property": "C68",
   "status": "partial",
   "theorems": [
    "C68_float_text_partial",
    "C68_exact",
    "C68_no_panic_partial",
    "C68_full_false",
    "C68_no_panic_full_false"
   ],
   "note": "false of the code: -0.5 corrupts the text (C68_full_false) and 2^150 panics (C68_no_panic_full_false); C68_exact gives the exact rule for when the text is right, for finite entries below 10^38 of either sign; no panic proved for all entries of at most 39 integral digits, NaN and infinities"
  },
  {
   "property": "C69",
   "status": "partial",
   "theorems": [
    "C69_to_string_partial",
    "C69_full_false"
   ],
   "note": "false of the code: Display panics where to_string_with_precision reports a capacity error (C69_full_false); the exact condition is proved"
  },
  {
   "property": "C70",
   "status": "partial",
   "theorems": [
    "C70_whole_numbers_partial",
    "C70_full_false"
   ],
   "note": "false of the code: zeros print as '0.' (C70_full_false); the exact text is proved"
  },
  {
   "property": "C71",
   "status": "partial",
   "theorems": [
    "C71_genuine",
    "C71_no_abort_partial",
    "C71_aborts_iff",
    "C71_full_false",
    "C71_strings"
   ],
   "note": "false of the code: gphrx_matrix_to_string aborts when the text is too large (C71_full_false); C71_aborts_iff: the exact rule for when a call aborts, for all arguments; C71_strings for all objects and platforms"
  },
  {
   "property": "C72",
   "status": "proved",
   "theorems": [
    "C72_traces",
    "C72_determined",
    "C72_no_undefined",
    "C72_abort_iff",
    "C72_owned_once",
    "C72_no_leak",
    "C72_independent"
   ],
   "note": ""
  },
  {
   "property": "C73",
   "status": "proved",
   "theorems": [
    "C73_history",
    "C73_history_from",
    "C73_duplicate"
   ],
   "note": ""
  },
  {
   "property": "C74",
   "status": "partial",
   "theorems": [
    "C74_from_bytes_partial",
    "C74_round_trip",
    "C74_full_false"
   ],
   "note": "false of the code: the exception is TypeError instead of ValueError (C74_full_false)"
  },
  {
   "property": "C75",
   "status": "partial",
   "theorems": [
    "C75_no_abort_partial",
    "C75_aborts_iff",
    "C75_full_false"
   ],
   "note": "false of the code: to_string(-1) panics (C75_full_false); C75_aborts_iff: the exact rule for when a call aborts, for all arguments"
  },
  {
   "property": "C76",
   "status": "proved",
   "theorems": [
    "C76_iteration"
   ],
   "note": ""
  },
  {
   "property": "C77",
   "status": "proved",
   "theorems": [
    "C77_texts",
    "C77_graph_text"
   ],
   "note": ""
  },
  {
   "property": "C78",
   "status": "proved",
   "theorems": [
    "C78_round_trip",
    "C78_lossless"
   ],
   "note": ""
  },
  {
   "property": "C79",
   "status": "partial",
   "theorems": [
    "C79_from_text_partial",
    "C79_exact",
    "C79_full_false"
   ],
   "note": "false of the script: ids that begin no line are not numbered, their edges are lost (C79_full_false); C79_exact says exactly which edges are kept and when the script fails, for non-negative ids"
  },
  {
   "property": "C80",
   "status": "partial",
   "theorems": [
    "C80_validate_partial",
    "C80_no_false_alarm",
    "C80_exact",
    "C80_no_edges",
    "C80_full_false"
   ],
   "note": "false of the script: only the last edge of the text is looked at (C80_full_false); C80_exact says exactly what is printed and when the script fails"
  },
  {
   "property": "C81",
   "status": "proved",
   "theorems": [
    "C81_compress_file",
    "C81_invalid_file"
   ],
   "note": ""
  },
  {
   "property": "C82",
   "status": "proved",
   "theorems": [
    "C82_size",
    "C82_not_larger"
   ],
   "note": ""
  },
  {
   "property": "C83",
   "status": "proved",
   "theorems": [
    "C83_count_f64",
    "C83_count_f32",
    "C83_count_unsigned",
    "C83_count_signed"
   ],
   "note": ""
  },
  {
   "property": "C84",
   "status": "partial",
   "theorems": [
    "C84_values",
    "C84_no_panic",
    "C84_f32_text_partial",
    "C84_exact",
    "C84_full_false"
   ],
   "note": "values and absence of panics proved in full; the content claim is false of the code for -0.5 (C84_full_false); C84_exact gives the exact rule for when the text is right, for entries below 10^38 of either sign"
  },
  {
   "property": "C85",
   "status": "proved",
   "theorems": [
    "C85_graph_congruence",
    "C85_compressed_congruence",
    "C85_same_iff"
   ],
   "note": ""
  },
  {
   "property": "C86",
   "status": "proved",
   "theorems": [
    "C86_reverse_queries",
    "C86_reverse_results",
    "C86_reverse_history"
   ],
   "note": ""
  },
  {
   "property": "C87",
   "status": "proved",
   "theorems": [
    "C87_more_edges_queries",
    "C87_more_edges_results"
   ],
   "note": ""
  },
  {
   "property": "C88",
   "status": "partial",
   "theorems": [
    "C88_coarsen_twice_partial",
    "C88_exact",
    "C88_full_false"
   ],
   "note": "false of the code for blocks beyond 10^9 (C88_full_false: 2^31); C88_exact: for products below 2^32 it holds for all graphs exactly if the product is at most 10^9 or one step does nothing"
  },
  {
   "property": "C89",
   "status": "proved",
   "theorems": [
    "C89_unchecked_symmetric",
    "C89_unchecked_edits",
    "C89_unchecked_bytes"
   ],
   "note": ""
  },
  {
   "property": "C90",
   "status": "proved",
   "theorems": [
    "C90_error_text",
    "C90_matrix_to_string",
    "C90_matrix_text_injective"
   ],
   "note": ""
  },
  {
   "property": "C91",
   "status": "proved",
   "theorems": [
    "C91_any_builder",
    "C91_loading"
   ],
   "note": ""
  },
  {
   "property": "C92",
   "status": "proved",
   "theorems": [
    "C92_equal_bytes"
   ],
   "note": "from the byte layout, so graphs whose bytes try_from rejects are included"
  },
  {
   "property": "C93",
   "status": "proved",
   "theorems": [
    "C93_text_injective",
    "C93_not_shown"
   ],
   "note": "dimension, words and edges; a witness shows what the text does not determine"
  },
  {
   "property": "C94",
   "status": "proved",
   "theorems": [
    "C94_rounds_to_one",
    "C94_increment_f64",
    "C94_increment_f32",
    "C94_multiply",
    "C94_pooling_rounds"
   ],
   "note": "rounding specified by nearness and even significands in Spec/Ieee.lean; products of infinities, zeros and NaN in Format.Product"
  },
  {
   "property": "C95",
   "status": "proved",
   "theorems": [
    "C95_graph_error",
    "C95_compressed_error",
    "C95_outdated",
    "C95_shipped_samples",
    "C95_compressed_texts"
   ],
   "note": "checks listed in Spec/Checks.lean as propositions over the bytes with their texts; the error is that of the first one that fails"
  },
  {
   "property": "C96",
   "status": "proved",
   "theorems": [
    "C96_edge_mass",
    "C96_unit_blocks"
   ],
   "note": "From C38 (counts) and C39 (values of entries)."
  },
  {
   "property": "C97",
   "status": "proved",
   "theorems": [
    "C97_pool_of_pool"
   ],
   "note": "Block counts add up over the smaller blocks; entries are exact for powers of two (C39)."
  },
  {
   "property": "C98",
   "status": "proved",
   "theorems": [
    "C98_compress_approximate"
   ],
   "note": "From C22 (what compress keeps), C41 (what approximate keeps for power-of-two blocks) and C31."
  },
  {
   "property": "C99",
   "status": "proved",
   "theorems": [
    "C99_shift_queries",
    "C99_shift_edits",
    "C99_shift_results"
   ],
   "note": "Shifted graphs have shifted block counts."
  },
  {
   "property": "C100",
   "status": "proved",
   "theorems": [
    "C100_graph_file",
    "C100_compressed_file"
   ],
   "note": "from the exact conditions and texts of C18, C66 and C95"
  },
  {
   "property": "C101",
   "status": "proved",
   "theorems": [
    "C101_header",
    "C101_vertex_count",
    "C101_direction",
    "C101_directed_edge",
    "C101_undirected_edge"
   ],
   "note": "direction and undirected edges for files written by to_bytes, the rest for all accepted files"
  },
  {
   "property": "C102",
   "status": "proved",
   "theorems": [
    "C102_header",
    "C102_vertex_count",
    "C102_direction",
    "C102_level",
    "C102_block",
    "C102_entry",
    "C102_flip"
   ],
   "note": "for all accepted files"
  },
  {
   "property": "C103",
   "status": "partial",
   "theorems": [
    "C103_understood",
    "C103_rejected",
    "C103_program",
    "C103_no_undefined",
    "C103_wrong_type_partial",
    "C103_compress",
    "C103_index",
    "C103_full_false"
   ],
   "note": "false in full for compress and list indices with floats (C103_full_false); exact rule for all arguments in C103_understood and C103_rejected"
  },
  {
   "property": "C104",
   "status": "proved",
   "theorems": [
    "C104_example",
    "C104_demo",
    "C104_first_file",
    "C104_second_file",
    "C104_old_samples"
   ],
   "note": "scripts/demo.py; the files are parameters of the model"
  },
  {
   "property": "C105",
   "status": "proved",
   "theorems": [
    "C105_cutoff",
    "C105_nearest"
   ],
   "note": "one number of edges per block dimension and threshold, for all graphs; exact outside half an edge around threshold times area"
  },
  {
   "property": "C106",
   "status": "proved",
   "theorems": [
    "C106_from_any_text"
   ],
   "note": "all texts and ids; for arrays that cannot be made the model names ValueError or MemoryError"
  },
  {
   "property": "C107",
   "status": "proved",
   "theorems": [
    "C107_validate_any_text"
   ],
   "note": "all texts, ids and files; for arrays that cannot be made the model names ValueError or MemoryError"
  },
  {
   "property": "C108",
   "status": "proved",
   "theorems": [
    "C108_generate_validate",
    "C108_generate_compress"
   ],
   "note": "composition of the exact rules C79, C80 and C81; negative ids are covered by C106 and C107 separately"
  },
  {
   "property": "C109",
   "status": "proved",
   "theorems": [
    "C109_panics_iff",
    "C109_outcomes",
    "C109_to_string"
   ],
   "note": "all graphs, blocks and decimals; platforms as described by Usual in Spec/TextRoom.lean"
  },
  {
   "property": "C110",
   "status": "proved",
   "theorems": [
    "C110_unsigned",
    "C110_signed",
    "C110_float",
    "C110_graph",
    "C110_ascii"
   ],
   "note": "no assumption on the matrix or the platform"
  },
  {
   "property": "C111",
   "status": "proved",
   "theorems": [
    "C111_locality",
    "C111_one_edit"
   ],
   "note": "all pairs of graphs; block dimensions below 2^32 (C46 covers the rest)"
  },
  {
   "property": "C112",
   "status": "proved",
   "theorems": [
    "C112_rename_history",
    "C112_rename_queries",
    "C112_rename_results"
   ],
   "note": "all bijections of the ids; block dimensions below 2^32"
  },
  {
   "property": "C113",
   "status": "proved",
   "theorems": [
    "C113_reserved",
    "C113_panics_iff",
    "C113_errors",
    "C113_text",
    "C113_f32"
   ],
   "note": "all doubles incl. NaN, infinities; all decimals; assumptions on the platform (Usual) only for the panic rule"
  },
  {
   "property": "C114",
   "status": "proved",
   "theorems": [
    "C114_copy",
    "C114_shared",
    "C114_double_free",
    "C114_use_after_free",
    "C114_iterator",
    "C114_del"
   ],
   "note": "copy.copy as in the standard library: same fields, __init__ not called; deepcopy and pickle raise (not modelled)"
  },
  {
   "property": "C115",
   "status": "proved",
   "theorems": [
    "C115_undefined_iff",
    "C115_aborts_iff",
    "C115_returns_iff",
    "C115_no_leak"
   ],
   "note": "the contract is necessary as well as sufficient; no memory is kept or given back behind the back of the program"
  },
  {
   "property": "C116",
   "status": "proved",
   "theorems": [
    "C116_f64",
    "C116_f32",
    "C116_pooling",
    "C116_approximate",
    "C116_compress"
   ],
   "note": "a second model keeps -0.0 and 0.0 apart; hash orders existentially quantified since the entry type is an argument of the order"
  },
  {
   "property": "C117",
   "status": "proved",
   "theorems": [
    "C117_commute",
    "C117_schedules",
    "C117_safe",
    "C117_readers",
    "C117_alone",
    "C117_threads"
   ],
   "note": "calls are interleaved as a whole; the other interleaving is given the same addresses by the allocator"
  },
  {
   "property": "C118",
   "status": "partial",
   "theorems": [
    "C118_exact",
    "C118_file",
    "C118_full_false",
    "C118_partial"
   ],
   "note": "false of the code: any machine with arm in its name (armv7l) gets the 64-bit ARM library; exact rule proved"
  },
  {
   "property": "C119",
   "status": "partial",
   "theorems": [
    "C119_exact",
    "C119_full_false",
    "C119_partial"
   ],
   "note": "false of the code: with CARGO_TARGET_DIR the header lands in the top of the target directory, with another target directory not called target the build fails; exact rule proved"
  },
  {
   "property": "C120",
   "status": "proved",
   "theorems": [
    "C120_addresses",
    "C120_programs"
   ],
   "note": "programs obtain pointers only from the library and the allocator; no pointer arithmetic; C120_programs: with loops and branches"
  },
  {
   "property": "C121",
   "status": "partial",
   "theorems": [
    "C121_cells",
    "C121_exact",
    "C121_full_false",
    "C121_leak",
    "C121_partial",
    "C121_decode",
    "C121_compressed",
    "C121_compressed_decode",
    "C121_matrix"
   ],
   "note": "false of the code: delete_edge and zero_entry keep the empty table of the column; exact rule and bounds for decoders proved"
  },
  {
   "property": "C122",
   "status": "proved",
   "theorems": [
    "C122_header",
    "C122_python",
    "C122_called",
    "C122_codes",
    "C122_model",
    "C122_modelled",
    "C122_sizes"
   ],
   "note": "the tables are transcribed from the three files; the struct layout rule is taken to be the same for repr(C), C compilers and ctypes"
  },
  {
   "property": "C123",
   "status": "proved",
   "theorems": [
    "C123_graph",
    "C123_compressed",
    "C123_deterministic",
    "C123_written",
    "C123_interleaved",
    "C123_written_compressed",
    "C123_interleaved_compressed"
   ],
   "note": "over all iteration orders of the hash maps; that the standard library can produce each of them is not claimed"
  },
  {
   "property": "C124",
   "status": "partial",
   "theorems": [
    "C124_same",
    "C124_edits",
    "C124_neighbours",
    "C124_iterate",
    "C124_undirectedFrom",
    "C124_toBytes",
    "C124_decode",
    "C124_compressed_toBytes",
    "C124_compressed_decode",
    "C124_compressed_lookup",
    "C124_decompress",
    "C124_pool",
    "C124_approximate",
    "C124_compress",
    "C124_text",
    "C124_leak",
    "C124_full_false",
    "C124_partial"
   ],
   "note": "false of the code: empty tables left by deletions are visited; exact counts and bounds proved; hash table accesses and iterator steps count as one step each"
  },
  {
   "property": "C125",
   "status": "partial",
   "theorems": [
    "C125_larger",
    "C125_agree",
    "C125_decode",
    "C125_compute",
    "C125_matrices",
    "C125_full_false",
    "C125_partial",
    "C125_text_partial",
    "C125_programs",
    "C125_python"
   ],
   "note": "false of the code: in release builds the width of a cell may wrap around at precisions near the largest usize; everything else proved for all platforms"
  },
  {
   "property": "C126",
   "status": "proved",
   "theorems": [
    "C126_graphs",
    "C126_decompress",
    "C126_compress",
    "C126_approximate",
    "C126_not_both",
    "C126_full_graph_decides"
   ],
   "note": "images of building, compressing, decompressing and approximating"
  },
  {
   "property": "C127",
   "status": "proved",
   "theorems": [
    "C127_call",
    "C127_erase",
    "C127_own_history",
    "C127_returns",
    "C127_genuine",
    "C127_no_leak"
   ],
   "note": "C programs that also write into buffers the library returned"
  },
  {
   "property": "C128",
   "status": "proved",
   "theorems": [
    "C128_edit",
    "C128_last_edit",
    "C128_vertex_count",
    "C128_commute",
    "C128_any_order",
    "C128_no_effect",
    "C128_twice",
    "C128_undo_add",
    "C128_undo_delete"
   ],
   "note": "closed form of histories, exchange and undo of edits"
  },
  {
   "property": "C129",
   "status": "proved",
   "theorems": [
    "C129_same",
    "C129_footprint",
    "C129_overlap",
    "C129_complete",
    "C129_no_race",
    "C129_threads",
    "C129_failure",
    "C129_steps",
    "C129_race_matters"
   ],
   "note": "calls in progress at the same time, access by access; one object is one cell"
  },
  {
   "property": "C130",
   "status": "proved",
   "theorems": [
    "C130_compress",
    "C130_small",
    "C130_tight",
    "C130_degrees",
    "C130_degrees_tight",
    "C130_approximate",
    "C130_threshold"
   ],
   "note": "exact losses of compression with bounds that are attained; bounds for approximation"
  },
  {
   "property": "C131",
   "status": "proved",
   "theorems": [
    "C131_graph",
    "C131_edits",
    "C131_compress",
    "C131_approximate",
    "C131_any_threshold",
    "C131_converse_fails"
   ],
   "note": "walks, distances and patterns; what does not hold in the other direction is proved too"
  },
  {
   "property": "C132",
   "status": "proved",
   "theorems": [
    "C132_parts",
    "C132_alone",
    "C132_schedules",
    "C132_sharing_matters"
   ],
   "note": "characterization of all interleavings; calls made one at a time"
  },
  {
   "property": "C133",
   "status": "proved",
   "theorems": [
    "C133_prefix",
    "C133_alone",
    "C133_safe",
    "C133_schedules",
    "C133_sharing_matters"
   ],
   "note": "any addresses and any reuse of freed addresses; calls made one at a time"
  },
  {
   "property": "C134",
   "status": "proved",
   "theorems": [
    "C134_collections",
    "C134_times",
    "C134_use_matters"
   ],
   "note": "characterization; collection only after the last use by the program"
  },
  {
   "property": "C135",
   "status": "proved",
   "theorems": [
    "C135_programs",
    "C135_orders",
    "C135_order_shows"
   ],
   "note": "moderate arguments as in C75; both runs make the same calls with the same arguments, except for files that the program wrote itself"
  },
  {
   "property": "C136",
   "status": "proved",
   "theorems": [
    "C136_orders",
    "C136_programs",
    "C136_part_shows"
   ],
   "note": "programs without use after free (as in C120), arguments of reasonable size, lists of vertices passed back as a whole; C136_programs: with loops and branches that do not depend on orders; C136_part_shows: the condition on lists is needed"
  }
 ]
}