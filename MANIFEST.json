{
 "claims": [
  {
   "property": "C01",
   "status": "proved",
   "theorems": [
    "CpSZ.Huff.C01_huffman_roundtrip",
    "CpSZ.Huff.C01_huffman_roundtrip_few_symbols"
   ],
   "note": "All evaluation orders, buffer contents, trailing bytes; hypothesis code length <= 64 is part of the statement."
  },
  {
   "property": "C02",
   "status": "proved",
   "theorems": [
    "CpSZ.Huff.C02_prefix_code"
   ],
   "note": "For tables with code words of at most 64 bits."
  },
  {
   "property": "C03",
   "status": "partial",
   "theorems": [
    "CpSZ.Huff.C03_long_code_word",
    "CpSZ.Huff.C03_roundtrip_fails",
    "CpSZ.Huff.C03_long_code_word_int",
    "CpSZ.Huff.C03_roundtrip_fails_int",
    "CpSZ.Huff.C03_few_symbols_partial"
   ],
   "note": "False: an array of 1897276100 symbols below 700 (fewer than 2^31) gets 65-bit code words and is not decoded correctly; with 66 different symbols it takes fewer than 2^48. Holds for at most 65 different symbols."
  },
  {
   "property": "C04",
   "status": "partial",
   "theorems": [
    "CpSZ.Huff.C04_optimal_partial",
    "CpSZ.Huff.C04_first_merge",
    "CpSZ.Huff.C04_not_optimal"
   ],
   "note": "Optimal among all prefix codes when no entry left in the queue is less frequent than one just joined; the first merge is of the two least frequent symbols. False in general: witness array for which another prefix code is shorter, for every evaluation order."
  },
  {
   "property": "C05",
   "status": "proved",
   "theorems": [
    "CpSZ.Huff.C05_payload_size_and_footprint"
   ],
   "note": "Addresses are offsets from the buffer start, so the lower bound is by construction."
  },
  {
   "property": "C06",
   "status": "proved",
   "theorems": [
    "CpSZ.Huff.C06_tree_roundtrip"
   ],
   "note": ""
  },
  {
   "property": "C07",
   "status": "partial",
   "theorems": [
    "CpSZ.Huff.C07_empty_input_crashes",
    "CpSZ.Huff.C07_nonempty_input_defined_partial"
   ],
   "note": "False for empty input (null dereference), true for all other inputs."
  },
  {
   "property": "C08",
   "status": "proved",
   "theorems": [
    "CpSZ.C08_sign_bitmap_roundtrip",
    "CpSZ.C08_sign_bitmap_exact",
    "CpSZ.C08_empty_bitmap_undefined"
   ],
   "note": ""
  },
  {
   "property": "C09",
   "status": "proved",
   "theorems": [
    "CpSZ.C09_counted_array_roundtrip",
    "CpSZ.C09_variable_roundtrip",
    "CpSZ.C09_integer_roundtrip"
   ],
   "note": ""
  },
  {
   "property": "C10",
   "status": "proved",
   "theorems": [
    "CpSZ.C10_quant_code_range"
   ],
   "note": "For every rounding function satisfying IsRounding (monotone, odd, exact on small integers and powers of two) and capacities up to 2^24."
  },
  {
   "property": "C100",
   "status": "proved",
   "theorems": [
    "CpSZ.Ieee.C100_bilinear",
    "CpSZ.Ieee.C100_overflow",
    "CpSZ.VMode.Bilinear.C100_formula_exact"
   ],
   "note": "Proved on bit patterns, bytes to bytes; the last sentence is the witness C100_overflow. C100_formula_exact links the bound formula of this layer to the one over the reals (C75)."
  },
  {
   "property": "C101",
   "status": "proved",
   "theorems": [
    "CpSZ.Ieee.C101_bilinear_cells",
    "CpSZ.Ieee.C101_double"
   ],
   "note": "Proved on bit patterns, bytes to bytes. The condition on float data is the hypothesis hex of C101_bilinear_cells, which C101_double proves for double; C48_rounded_store shows that it is needed."
  },
  {
   "property": "C102",
   "status": "proved",
   "theorems": [
    "CpSZ.Ieee.C102_relax",
    "CpSZ.Ieee.C102_float",
    "CpSZ.Ieee.C102_double",
    "CpSZ.Ieee.C102_created"
   ],
   "note": "Proved on bit patterns, bytes to bytes, for any data. The last sentence is the witness C102_created. The codes of the bounds are assumed nothing of: they follow from the accuracy of log2 (LogOk, LogLow)."
  },
  {
   "property": "C103",
   "status": "proved",
   "theorems": [
    "CpSZ.Ieee.C103_check",
    "CpSZ.Ieee.C103_edge"
   ],
   "note": "Proved on bit patterns; the last sentence is the witness C103_edge."
  },
  {
   "property": "C104",
   "status": "proved",
   "theorems": [
    "CpSZ.Ieee.C104_fixed"
   ],
   "note": "Proved on bit patterns, bytes to bytes; C102_created shows that the limit on the magnitude of the data is needed, C103_edge why points on edges are left out."
  },
  {
   "property": "C105",
   "status": "proved",
   "theorems": [
    "CpSZ.Huff.C105_encode",
    "CpSZ.Huff.C105_decode",
    "CpSZ.Huff.C105_outside",
    "CpSZ.Huff.C105_codes"
   ],
   "note": "Allocation and release of blocks; C105_codes ties the blocks of the codes to the code table of C01. Failing malloc is left out."
  },
  {
   "property": "C106",
   "status": "partial",
   "theorems": [
    "CpSZ.Huff.C106_modes_partial",
    "CpSZ.Huff.C106_online2d",
    "CpSZ.Huff.C106_online2dLog",
    "CpSZ.Huff.C106_online3dLog",
    "CpSZ.Huff.C106_online3dAbs",
    "CpSZ.Huff.C106_offline3dLog",
    "CpSZ.Huff.C106_unstructured",
    "CpSZ.Huff.C106_block",
    "CpSZ.Huff.C106_decOnline2d",
    "CpSZ.Huff.C106_decOnline2dLog",
    "CpSZ.Huff.C106_decOnline3dLog",
    "CpSZ.Huff.C106_decOnline3dAbs",
    "CpSZ.Huff.C106_decUnstructured",
    "CpSZ.Huff.C106_decBlock",
    "CpSZ.Huff.C106_bilinear_leaks",
    "CpSZ.Huff.C106_offline2d_leaks",
    "CpSZ.Huff.C106_offline2dLog_leaks",
    "CpSZ.Huff.C106_decOffline2d_leaks",
    "CpSZ.Huff.C106_decOffline2dLog_leaks",
    "CpSZ.Huff.C106_not_bilinear",
    "CpSZ.Huff.C106_not_offline2d",
    "CpSZ.Huff.C106_not_decOffline2d"
   ],
   "note": "False as stated: the bilinear mode never frees eb, the 2D offline modes eb_quant_index, their decompressors type (exactly one block each, proved). Proved for the other modes. Of the block codec the 2D functions are modelled at this level."
  },
  {
   "property": "C11",
   "status": "proved",
   "theorems": [
    "CpSZ.C11_recover_agrees",
    "CpSZ.C11_recover_agrees_rounded",
    "CpSZ.C11_accepts"
   ],
   "note": "Agreement for any arithmetic; acceptance in exact arithmetic."
  },
  {
   "property": "C12",
   "status": "proved",
   "theorems": [
    "CpSZ.C12_exponential_quantizer"
   ],
   "note": "Exact arithmetic (real logarithm)."
  },
  {
   "property": "C13",
   "status": "proved",
   "theorems": [
    "CpSZ.Online2D.C13_compress_defined",
    "CpSZ.Online2D.C13_online_roundtrip",
    "CpSZ.Online2D.C13_codes_in_range"
   ],
   "note": "Round trip at byte level for any arithmetic; that the codes fit the alphabets is proved in exact arithmetic; code words of at most 64 bits are assumed (see C03)."
  },
  {
   "property": "C14",
   "status": "proved",
   "theorems": [
    "CpSZ.Online2D.C14_relative_error"
   ],
   "note": "Exact arithmetic."
  },
  {
   "property": "C15",
   "status": "proved",
   "theorems": [
    "CpSZ.Online2D.C15_critical_points_preserved"
   ],
   "note": "Exact arithmetic."
  },
  {
   "property": "C16",
   "status": "proved",
   "theorems": [
    "CpSZ.Online2D.C16_critical_point_types_preserved"
   ],
   "note": "Exact arithmetic."
  },
  {
   "property": "C17",
   "status": "proved",
   "theorems": [
    "CpSZ.Online2D.C17_adjacency"
   ],
   "note": ""
  },
  {
   "property": "C18",
   "status": "proved",
   "theorems": [
    "CpSZ.VMode.C18_log_roundtrip",
    "CpSZ.VMode.C18_zero_exact",
    "CpSZ.VMode.C18_small_values_lost"
   ],
   "note": "Any arithmetic. The restriction on small values is part of the claim; C18_small_values_lost shows it is needed."
  },
  {
   "property": "C19",
   "status": "proved",
   "theorems": [
    "CpSZ.VMode.C19_critical_points_and_types",
    "CpSZ.VMode.C19_sign_and_error"
   ],
   "note": "Exact arithmetic, values zero or at least 2^-98 in magnitude, bounds at most 1."
  },
  {
   "property": "C20",
   "status": "proved",
   "theorems": [
    "CpSZ.Online2D.C20_roundtrip",
    "CpSZ.Online2D.C20_absolute_error",
    "CpSZ.Online2D.C20_critical_points_preserved",
    "CpSZ.Online2D.C20_critical_triangles_exact"
   ],
   "note": "Round trip for any arithmetic; the rest in exact arithmetic."
  },
  {
   "property": "C21",
   "status": "partial",
   "theorems": [
    "CpSZ.Online2D.Relax.C21_roundtrip_partial",
    "CpSZ.Online2D.Relax.C21_exact_partial",
    "CpSZ.Online2D.Relax.C21_undecodable",
    "CpSZ.Online2D.Relax.C21_rounded_bound_exceeded"
   ],
   "note": "Round trip for any arithmetic unless a tried bound has code zero; error bound in exact arithmetic. False for bounds near the threshold and in rounded arithmetic (witnesses)."
  },
  {
   "property": "C22",
   "status": "partial",
   "theorems": [
    "CpSZ.Online2D.Relax.C22_any_test",
    "CpSZ.Online2D.Relax.C22_symmetric_test_partial",
    "CpSZ.Online2D.Relax.C22_exact_partial",
    "CpSZ.Online2D.Relax.C22_order_matters",
    "CpSZ.Online2D.Relax.C22_degenerate_gained"
   ],
   "note": "Proved for every cell test that does not depend on the vertex order, in any arithmetic, and for check_cp in exact arithmetic. False for tests that depend on the order (witness); singular triangles can gain a critical point that check_cp does not see (witness)."
  },
  {
   "property": "C23",
   "status": "proved",
   "theorems": [
    "CpSZ.Sz3.C23_each_vertex_once",
    "CpSZ.Sz3.C23_causal",
    "CpSZ.Sz3.C23_decoder_order",
    "CpSZ.Sz3.C23_bound_in_range"
   ],
   "note": ""
  },
  {
   "property": "C24",
   "status": "partial",
   "theorems": [
    "CpSZ.Sz3.C24_roundtrip_partial",
    "CpSZ.Sz3.C24_rounded_sane",
    "CpSZ.Sz3.C24_codes_in_range",
    "CpSZ.Sz3.C24_absolute_error",
    "CpSZ.Sz3.C24_small_grid_aborts"
   ],
   "note": "Round trip for any arithmetic, error bound in exact arithmetic. False for arrays of one element or two floats (assertion in load)."
  },
  {
   "property": "C25",
   "status": "partial",
   "theorems": [
    "CpSZ.Sz3.C25_critical_points_kept",
    "CpSZ.Sz3.C25_critical_points_partial",
    "CpSZ.Sz3.C25_new_critical_point"
   ],
   "note": "No critical point is lost, vertices of critical triangles are exact. New critical points appear when the error equals the derived bound (witness); excluded otherwise."
  },
  {
   "property": "C26",
   "status": "proved",
   "theorems": [
    "CpSZ.Mesh3D.C26_incident_tetrahedra",
    "CpSZ.Mesh3D.C26_loop_in_bounds",
    "CpSZ.Mesh3D.C26_cell_numbers_distinct",
    "CpSZ.Mesh3D.C26_predictor_in_bounds"
   ],
   "note": ""
  },
  {
   "property": "C27",
   "status": "proved",
   "theorems": [
    "CpSZ.ThreeD.C27_abs3_roundtrip",
    "CpSZ.ThreeD.C27_flagged_exact",
    "CpSZ.ThreeD.C27_error_bound",
    "CpSZ.ThreeD.C27_cells_preserved",
    "CpSZ.ThreeD.C27_critical_cells_exact"
   ],
   "note": "Round trip and exactness of flagged cells for any arithmetic; the rest in exact arithmetic."
  },
  {
   "property": "C28",
   "status": "partial",
   "theorems": [
    "CpSZ.ThreeD.C28_log3_roundtrip_partial",
    "CpSZ.ThreeD.C28_exact_arithmetic_partial",
    "CpSZ.ThreeD.C28_zero_mismatch",
    "CpSZ.ThreeD.C28_escape_collision"
   ],
   "note": "False as stated: zeros and the code 24 break the round trip (proved by counterexample); proved where these do not occur."
  },
  {
   "property": "C29",
   "status": "partial",
   "theorems": [
    "CpSZ.ThreeD.C29_vertex_change",
    "CpSZ.ThreeD.C29_critical_cells_partial"
   ],
   "note": "The statement about one vertex is complete; the statement about the pass is proved for fields without zeros and with values of at least 2^-98 in magnitude (zeros break the mode, see C28_zero_mismatch)."
  },
  {
   "property": "C30",
   "status": "partial",
   "theorems": [
    "CpSZ.ThreeD.C30_adjacency",
    "CpSZ.ThreeD.C30_bound_covers_cells",
    "CpSZ.ThreeD.C30_roundtrip_partial",
    "CpSZ.ThreeD.C30_critical_cells_partial",
    "CpSZ.ThreeD.C30_sign_misalignment"
   ],
   "note": "Adjacency complete. The round trip is false for fields with zeros: a zero component shifts the sign pointer, (0,1,-1) decodes to (0,-1,1) (proved by counterexample); proved where no coded logarithm is below -99."
  },
  {
   "property": "C31",
   "status": "proved",
   "theorems": [
    "CpSZ.Block.C31_roundtrip",
    "CpSZ.Block.C31_codes_rounded",
    "CpSZ.Block.C31_rounded",
    "CpSZ.Block.C31_exact"
   ],
   "note": "Byte-level round trip for any arithmetic whose quantiser keeps its code range (proved under rounding); bound under rounding and in exact arithmetic. Code words of at most 64 bits are assumed (see C03)."
  },
  {
   "property": "C32",
   "status": "proved",
   "theorems": [
    "CpSZ.Block.C32_same_order",
    "CpSZ.Block.C32_tiles_2d",
    "CpSZ.Block.C32_tiles_3d",
    "CpSZ.Block.C32_buffer_in_bounds",
    "CpSZ.Block.C32_buffer_in_bounds_3d",
    "CpSZ.Block.C32_buffer_in_bounds_3d_independent"
   ],
   "note": ""
  },
  {
   "property": "C33",
   "status": "partial",
   "theorems": [
    "CpSZ.Offline2D.C33_relative_iff",
    "CpSZ.Offline2D.C33_log_iff",
    "CpSZ.Offline2D.C33_relative_stream_partial",
    "CpSZ.Offline2D.C33_log_stream_partial",
    "CpSZ.Offline2D.C33_relative_mismatch",
    "CpSZ.Offline2D.C33_log_mismatch"
   ],
   "note": "Exact characterisation of agreement; streams decode correctly where the bounds agree. False between the threshold and base times the threshold (witnesses)."
  },
  {
   "property": "C34",
   "status": "proved",
   "theorems": [
    "CpSZ.Offline2D.C34_triangle",
    "CpSZ.Offline2D.C34_grid",
    "CpSZ.Offline2D.C34_relative_run_partial",
    "CpSZ.Offline2D.C34_log_run_partial",
    "CpSZ.Offline2D.C34_log_small_lost"
   ],
   "note": "The two run theorems extend the claim to compressor and decompressor in exact arithmetic, outside the cases of C33."
  },
  {
   "property": "C35",
   "status": "partial",
   "theorems": [
    "CpSZ.C35_offline_overrun",
    "CpSZ.C35_log_exact_partial",
    "CpSZ.Online2D.C35_online_small_overflow",
    "CpSZ.Online2D.C35_online_lossless_overflow",
    "CpSZ.Online2D.C35_constant_lossless",
    "CpSZ.Block.C35_block_small_overflow"
   ],
   "note": "Exact for the 2D offline log mode. False for the 2D offline mode (always 8 bytes short), for the online modes (small grids, lossless fields) and for the block codec (small arrays)."
  },
  {
   "property": "C36",
   "status": "partial",
   "theorems": [
    "CpSZ.Block.C36_overflow_2d",
    "CpSZ.Block.C36_overflow_3d",
    "CpSZ.Block.C36_overflow_3d_with_eb",
    "CpSZ.Block.C36_fits_with_eb_partial"
   ],
   "note": "False for sz_compress_2d and sz_compress_3d (overflowing fields exist for every grid, block sizes below the regression threshold) and for sz_compress_3d_with_eb (whenever more than one bound in twenty is zero); true for sz_compress_2d_with_eb."
  },
  {
   "property": "C37",
   "status": "partial",
   "theorems": [
    "CpSZ.Block.C37_cursor",
    "CpSZ.Block.C37_double_fails",
    "CpSZ.Block.C37_roundtrip_partial"
   ],
   "note": "False for double; round trip proved where the skipped size is the element size (float)."
  },
  {
   "property": "C38",
   "status": "proved",
   "theorems": [
    "CpSZ.Estimate.C38_round_up",
    "CpSZ.Estimate.C38_round_up_out_of_range",
    "CpSZ.Estimate.C38_capacity"
   ],
   "note": ""
  },
  {
   "property": "C39",
   "status": "proved",
   "theorems": [
    "CpSZ.Block.C39_mean_code"
   ],
   "note": "Under rounding."
  },
  {
   "property": "C40",
   "status": "partial",
   "theorems": [
    "CpSZ.Pwr.C40_stream",
    "CpSZ.Pwr.C40_stream_with_eb",
    "CpSZ.Pwr.C40_exact_partial",
    "CpSZ.Pwr.C40_zero_exact",
    "CpSZ.Pwr.C40_exact_with_eb_partial",
    "CpSZ.Pwr.C40_zero_lost",
    "CpSZ.Pwr.C40_small_precision_lost",
    "CpSZ.Pwr.C40_with_eb_value_lost",
    "CpSZ.Pwr.C40_with_eb_bound_exceeded",
    "CpSZ.Pwr.C40_all_zero_lost"
   ],
   "note": "False in five ways, each with a proved witness: zeros at the equality case of the codec, precision below the resolution of the type, fields of zeros, smallest magnitude with bound zero, bounds of magnitudes below one. Proved in exact arithmetic outside these cases; stream round trip for any arithmetic."
  },
  {
   "property": "C41",
   "status": "proved",
   "theorems": [
    "CpSZ.Online2D.C41_nan_vertex_lossless"
   ],
   "note": "Exact arithmetic with NaN tracked explicitly."
  },
  {
   "property": "C42",
   "status": "proved",
   "theorems": [
    "CpSZ.Block.C42_coefficients"
   ],
   "note": "Any arithmetic whose quantiser keeps its code range."
  },
  {
   "property": "C43",
   "status": "proved",
   "theorems": [
    "CpSZ.Block.C43_prediction_on_grid",
    "CpSZ.Block.C43_block_size_irrelevant"
   ],
   "note": "Any arithmetic."
  },
  {
   "property": "C44",
   "status": "proved",
   "theorems": [
    "CpSZ.Block.C44_roundtrip_2d",
    "CpSZ.Block.C44_exact"
   ],
   "note": "Round trip for any arithmetic; bound in exact arithmetic. The overflow of C36 is outside the statement."
  },
  {
   "property": "C45",
   "status": "partial",
   "theorems": [
    "CpSZ.Estimate.C45_rough_mean_terminates_partial",
    "CpSZ.Estimate.C45_rough_mean_loops",
    "CpSZ.Estimate.C45_sampling_in_bounds",
    "CpSZ.Estimate.C45_sampling_terminates"
   ],
   "note": "The rough mean pass hangs on tiny grids (witness 1x1x2); it terminates with at least nine values. The second pass is proved in full."
  },
  {
   "property": "C46",
   "status": "partial",
   "theorems": [
    "CpSZ.Offline2D.C46_grid_partial",
    "CpSZ.Offline2D.C46_edge_type_lost"
   ],
   "note": "Proved for critical points inside a triangle; false on an edge (witness)."
  },
  {
   "property": "C47",
   "status": "proved",
   "theorems": [
    "CpSZ.VMode.Bilinear.C47_roundtrip",
    "CpSZ.VMode.Bilinear.C47_zero_exact",
    "CpSZ.VMode.Bilinear.C47_defined",
    "CpSZ.VMode.Bilinear.C47_sign_and_error"
   ],
   "note": "Round trip, zeros and definedness for any arithmetic; error bound in exact arithmetic; values below 2^-98 excluded as in C18."
  },
  {
   "property": "C48",
   "status": "partial",
   "theorems": [
    "CpSZ.VMode.Bilinear.C48_types_preserved",
    "CpSZ.VMode.Bilinear.C48_exact_partial",
    "CpSZ.VMode.Bilinear.C48_critical_point_lost",
    "CpSZ.VMode.Bilinear.C48_rounded_store"
   ],
   "note": "For any arithmetic the numbers and types reported by the extraction are preserved if the verified values are the stored ones; in exact arithmetic type preserving bijection of the critical points of regular cells. False for cells with a degenerate interpolant and for rounded stores (witnesses)."
  },
  {
   "property": "C49",
   "status": "partial",
   "theorems": [
    "CpSZ.Offline3D.C49_defined",
    "CpSZ.Offline3D.C49_roundtrip_partial",
    "CpSZ.Offline3D.C49_escape_collision"
   ],
   "note": "Any arithmetic and bound formula. Missing: quantised bounds with the escape code (witness: bound 3 on a grid without cells)."
  },
  {
   "property": "C50",
   "status": "partial",
   "theorems": [
    "CpSZ.Offline3D.C50_bound_keeps",
    "CpSZ.Offline3D.C50_critical_cells_partial",
    "CpSZ.Offline3D.C50_tiny_lost"
   ],
   "note": "Bound: proved. Whole runs in exact arithmetic, zeros included; values other than 0 below 2^-98 excluded (witness), as are bounds above 1 on grids without cells."
  },
  {
   "property": "C51",
   "status": "proved",
   "theorems": [
    "CpSZ.Extract.C51_extract",
    "CpSZ.Extract.C51_counters",
    "CpSZ.Extract.C51_border_missed"
   ],
   "note": "Exact arithmetic; the FTK functions are given by their formulas. Border cells are never examined (witness)."
  },
  {
   "property": "C52",
   "status": "proved",
   "theorems": [
    "CpSZ.Extract.C52_relative",
    "CpSZ.Extract.C52_log",
    "CpSZ.Extract.C52_absolute",
    "CpSZ.Extract.C52_relaxed"
   ],
   "note": "Exact arithmetic, whole runs of compressor, decompressor and tool."
  },
  {
   "property": "C53",
   "status": "proved",
   "theorems": [
    "CpSZ.Extract.C53_extract",
    "CpSZ.Extract.C53_counters",
    "CpSZ.Extract.C53_keys_collide"
   ],
   "note": "Exact arithmetic; the FTK functions are given by linear algebra, the classification of the characteristic polynomial is arbitrary. On larger grids keys collide (witness)."
  },
  {
   "property": "C54",
   "status": "proved",
   "theorems": [
    "CpSZ.Extract.C54_absolute",
    "CpSZ.Extract.C54_log",
    "CpSZ.Extract.C54_offline"
   ],
   "note": "Exact arithmetic, whole runs of compressor, decompressor and tool; the restrictions of the log modes are those of C29 and C50."
  },
  {
   "property": "C55",
   "status": "proved",
   "theorems": [
    "CpSZ.Rounded.C55_relative_float",
    "CpSZ.Rounded.C55_absolute_float",
    "CpSZ.Rounded.C55_absolute3_float",
    "CpSZ.Rounded.C55_relative_double",
    "CpSZ.Rounded.C55_absolute_double",
    "CpSZ.Rounded.C55_absolute3_double"
   ],
   "note": "Every operation rounded to 24 or 53 bits; exponent range unbounded (no underflow), overflow excluded by hypothesis, NaN from the per-cell derivation excluded. Runs of compressor and decompressor, which are shown to be defined."
  },
  {
   "property": "C56",
   "status": "partial",
   "theorems": [
    "CpSZ.Rounded.C56_log2d_partial",
    "CpSZ.Rounded.C56_log3d_partial",
    "CpSZ.Rounded.C56_unstructured_partial",
    "CpSZ.Rounded.C56_bound_exceeded"
   ],
   "note": "The claim as stated is false (C56_bound_exceeded, whole run with correctly rounded functions). Proved: the same with 2^-14 added to the relative bound, for all runs."
  },
  {
   "property": "C57",
   "status": "partial",
   "theorems": [
    "CpSZ.Rounded.C57_kept_float_partial",
    "CpSZ.Rounded.C57_kept_double_partial",
    "CpSZ.Rounded.C57_critical_point_created"
   ],
   "note": "The claim as stated is false (C57_critical_point_created: whole run on a 2 by 2 grid, any rounding to nearest). Proved: critical points and types are kept when the computed bounds of the vertices do not exceed the exact values of the formulas (double: by a factor 1 + 2^-40), all other operations rounded."
  },
  {
   "property": "C58",
   "status": "partial",
   "theorems": [
    "CpSZ.Rounded.C58_with_eb_float_partial",
    "CpSZ.Rounded.C58_with_eb_double_partial",
    "CpSZ.Rounded.C58_2d_float_partial",
    "CpSZ.Rounded.C58_2d_double_partial",
    "CpSZ.Rounded.C58_3d_float_partial",
    "CpSZ.Rounded.C58_3d_double_partial",
    "CpSZ.Rounded.C58_sz3_float_partial",
    "CpSZ.Rounded.C58_sz3_double_partial",
    "CpSZ.Rounded.C58_block_exceeded",
    "CpSZ.Rounded.C58_2d_exceeded",
    "CpSZ.Rounded.C58_3d_exceeded",
    "CpSZ.Rounded.C58_sz3_exceeded"
   ],
   "note": "The claim as stated is false for every one of the four codecs (the _exceeded theorems, any rounding to nearest, float and double): a distance that rounds down to the bound is accepted. Proved: the bound is kept up to the factor 1 + 2^-24 (float) or 1 + 2^-52 (double); 1 + 2^-23 and 1 + 2^-40 in the interpolation based mode."
  },
  {
   "property": "C59",
   "status": "proved",
   "theorems": [
    "CpSZ.Block.C59_prediction_3d",
    "CpSZ.Block.C59_independent_blocks"
   ],
   "note": "For any arithmetic and any choice of predictors."
  },
  {
   "property": "C60",
   "status": "proved",
   "theorems": [
    "CpSZ.Block.C60_decodable",
    "CpSZ.Block.C60_block_size_irrelevant",
    "CpSZ.Block.C60_rounded"
   ],
   "note": "The decompressor is part of the specification, since the repository has none."
  },
  {
   "property": "C61",
   "status": "proved",
   "theorems": [
    "CpSZ.Block.C61_least_squares_2d",
    "CpSZ.Block.C61_least_squares_3d"
   ],
   "note": "Exact arithmetic; unique minimiser."
  },
  {
   "property": "C62",
   "status": "proved",
   "theorems": [
    "CpSZ.Block.C62_choice_2d",
    "CpSZ.Block.C62_choice_3d",
    "CpSZ.Block.C62_local_2d",
    "CpSZ.Block.C62_local_3d",
    "CpSZ.Block.C62_independent_blocks"
   ],
   "note": "The characterisation is in exact arithmetic, locality in any arithmetic."
  },
  {
   "property": "C63",
   "status": "proved",
   "theorems": [
    "CpSZ.Block.C63_optimize",
    "CpSZ.Block.C63_capacity",
    "CpSZ.Block.C63_mean",
    "CpSZ.Block.C63_roundtrip_3d",
    "CpSZ.Block.C63_roundtrip_2d",
    "CpSZ.Block.C63_exact_3d",
    "CpSZ.Block.C63_float_3d",
    "CpSZ.Block.C63_two_values_hang"
   ],
   "note": "At least nine values in 3D; the code lengths (C03) are a hypothesis of the byte level theorems."
  },
  {
   "property": "C64",
   "status": "proved",
   "theorems": [
    "CpSZ.Block.C64_coefficients_2d",
    "CpSZ.Block.C64_coefficients_3d",
    "CpSZ.Block.C64_affine_2d",
    "CpSZ.Block.C64_affine_3d"
   ],
   "note": "Exact arithmetic."
  },
  {
   "property": "C65",
   "status": "partial",
   "theorems": [
    "CpSZ.Residue.C65_error",
    "CpSZ.Residue.C65_roundtrip_double",
    "CpSZ.Residue.C65_roundtrip_float_partial",
    "CpSZ.Residue.C65_float_corrupts"
   ],
   "note": "Proved for double. False for float: the mantissa mask is the one for double, so exponent bits of a value overwrite bits of the value before it (C65_float_corrupts); proved for float when every number of bits is a multiple of eight. Only commented-out code uses these functions."
  },
  {
   "property": "C66",
   "status": "proved",
   "theorems": [
    "CpSZ.Verify.C66_report",
    "CpSZ.Verify.C66_bound",
    "CpSZ.Verify.C66_absolute_mode",
    "CpSZ.Verify.C66_relative_mode",
    "CpSZ.Verify.C66_small_values_ignored",
    "CpSZ.Verify.C66_nan_ignored"
   ],
   "note": "Exact arithmetic except for C66_nan_ignored, which holds in any arithmetic."
  },
  {
   "property": "C67",
   "status": "proved",
   "theorems": [
    "CpSZ.Extract.C67_roundtrip",
    "CpSZ.Extract.C67_counters",
    "CpSZ.Extract.C67_key",
    "CpSZ.Extract.C67_without_numbers",
    "CpSZ.Extract.C67_never_cached"
   ],
   "note": "The file system is a partial map from names to contents; failing writes are not modelled."
  },
  {
   "property": "C68",
   "status": "proved",
   "theorems": [
    "CpSZ.Offline3D.C68_cbrt",
    "CpSZ.Offline3D.C68_sqrt",
    "CpSZ.Offline3D.C68_bound",
    "CpSZ.Offline3D.C68_run",
    "CpSZ.Offline3D.C68_exceeds"
   ],
   "note": "float arithmetic is any rounding with relative error 2^-24 whose results are values of bit patterns (instance: 24 bits, to nearest); overflow and subnormal numbers are excluded by the range of the field; products, minors and the sums of positive and of negative terms (double in the code) are exact."
  },
  {
   "property": "C69",
   "status": "proved",
   "theorems": [
    "CpSZ.Lossless.C69_capacity",
    "CpSZ.Lossless.C69_roundtrip",
    "CpSZ.Lossless.C69_gap",
    "CpSZ.Lossless.C69_gap_witness",
    "CpSZ.Lossless.C69_error_unchecked",
    "CpSZ.Lossless.C69_size_says_nothing",
    "CpSZ.Lossless.C69_first_bytes"
   ],
   "note": "zstd is a pair of functions that keep the documented contract; at exactly 320 bytes the capacity depends on the rounding mode and nothing is claimed."
  },
  {
   "property": "C70",
   "status": "proved",
   "theorems": [
    "CpSZ.Lossless.C70_check_silent",
    "CpSZ.Lossless.C70_conditions_rounded",
    "CpSZ.Lossless.C70_quantised_bounds",
    "CpSZ.Lossless.C70_relative_check_silent",
    "CpSZ.Lossless.C70_scratch_overrun"
   ],
   "note": "The first theorem is about bytes and any arithmetic; the quantised and the relative bounds are treated in exact arithmetic, on the runs of the codec."
  },
  {
   "property": "C71",
   "status": "partial",
   "theorems": [
    "CpSZ.Rounded.C71_never_lost_float",
    "CpSZ.Rounded.C71_never_lost_double",
    "CpSZ.Rounded.C71_kept_float_partial",
    "CpSZ.Rounded.C71_kept_double_partial",
    "CpSZ.Rounded.C71_critical_point_created"
   ],
   "note": "No critical point is lost, for all inputs. That none is created is false (C71_critical_point_created, the four vectors of C57 with an absolute bound); it holds as long as the computed bounds do not exceed the exact values of the formula. Underflow and overflow are excluded."
  },
  {
   "property": "C72",
   "status": "proved",
   "theorems": [
    "CpSZ.Block.C72_recompress_2d",
    "CpSZ.Block.C72_recompress_3d",
    "CpSZ.Block.C72_float_2d",
    "CpSZ.Block.C72_double_2d",
    "CpSZ.Block.C72_float_3d",
    "CpSZ.Block.C72_double_3d",
    "CpSZ.Block.C72_exact"
   ],
   "note": "Bytes for any arithmetic whose quantiser finds the same code for its own reconstruction; float, double and exact arithmetic satisfy this (data representable, rounding to nearest, no underflow or overflow). The codecs with one bound for the whole field fit their regression planes to the data and are not covered. The 3D codec has no decompressor in the repository; the field is the one its stream determines (C60)."
  },
  {
   "property": "C73",
   "status": "proved",
   "theorems": [
    "CpSZ.Block.C73_integers_2d",
    "CpSZ.Block.C73_integers_3d",
    "CpSZ.Block.C73_bound_one_loses"
   ],
   "note": "About the reconstruction of a run; the bytes carry it by C31 and C60. The codecs with one bound for the whole field use regression planes and are not covered."
  },
  {
   "property": "C74",
   "status": "proved",
   "theorems": [
    "CpSZ.Sz3.C74_interpolation_exact",
    "CpSZ.Sz3.C74_interpolation_sharp",
    "CpSZ.Sz3.C74_vertex_exact",
    "CpSZ.C74_lorenzo_2d",
    "CpSZ.C74_lorenzo_3d",
    "CpSZ.C74_middle_code",
    "CpSZ.C74_middle_code_online",
    "CpSZ.Block.C74_run_codes_2d",
    "CpSZ.Block.C74_integer_codes_2d"
   ],
   "note": "Exact arithmetic, except C74_integer_codes_2d, which holds for all roundings. The statement about whole runs is for the 2D codec."
  },
  {
   "property": "C75",
   "status": "partial",
   "theorems": [
    "CpSZ.VMode.Bilinear.C75_linear",
    "CpSZ.VMode.Bilinear.C75_linear_maximal",
    "CpSZ.VMode.Bilinear.C75_degenerate",
    "CpSZ.VMode.Bilinear.C75_quadratic_partial",
    "CpSZ.VMode.Bilinear.C75_quadratic_maximal",
    "CpSZ.VMode.Bilinear.C75_quadratic_linear_lost",
    "CpSZ.VMode.Bilinear.C75_cylinder_pos",
    "CpSZ.VMode.Bilinear.C75_cylinder_neg_partial",
    "CpSZ.VMode.Bilinear.C75_cylinder_lost",
    "CpSZ.VMode.Bilinear.C75_cylinder_concave_lost",
    "CpSZ.VMode.Bilinear.C75_general_neg_partial",
    "CpSZ.VMode.Bilinear.C75_general_pos_lost",
    "CpSZ.VMode.Bilinear.C75_general_divisor_lost",
    "CpSZ.VMode.Bilinear.C75_general_stale_lost",
    "CpSZ.VMode.Bilinear.C75_den_kept",
    "CpSZ.VMode.Bilinear.C75_det_kept",
    "CpSZ.VMode.Bilinear.C75_f1_kept_partial",
    "CpSZ.VMode.Bilinear.C75_no_zero_kept_partial",
    "CpSZ.VMode.Bilinear.C75_no_zero_lost"
   ],
   "note": "Linear form: proved in full. The other parts are false without the hypotheses of the _partial theorems: polynomials of degree one, degenerate diagonals, cylinders turned upside down, positive forms at saddles, a divisor that differs from the tested expression and a value left over from the previous edge each have a proved witness. Exact arithmetic."
  },
  {
   "property": "C76",
   "status": "partial",
   "theorems": [
    "CpSZ.Online2D.C76_compress",
    "CpSZ.Online2D.C76_decompress",
    "CpSZ.Online2D.C76_absolute",
    "CpSZ.Online2D.C76_relative_partial",
    "CpSZ.Online2D.C76_one_sign_matters",
    "CpSZ.Block.C76_block_2d",
    "CpSZ.Block.C76_block_2d_codes",
    "CpSZ.Block.C76_block_3d"
   ],
   "note": "Everything stated is proved, in floating point. Partial because in the relative mode one component alone may not be flipped: the type of a critical point changes and with it the bound (proved witness)."
  },
  {
   "property": "C77",
   "status": "partial",
   "theorems": [
    "CpSZ.Block.C77_transpose_2d",
    "CpSZ.Block.C77_swap23_partial",
    "CpSZ.Block.C77_swap12_partial",
    "CpSZ.Block.C77_order_matters_3d"
   ],
   "note": "2D: proved for any arithmetic with commutative addition. 3D: proved in exact arithmetic; false in floating point, because the seven terms of the prediction are rounded one after the other (proved witness with float data)."
  },
  {
   "property": "C78",
   "status": "partial",
   "theorems": [
    "CpSZ.Online2D.C78_compress_partial",
    "CpSZ.Online2D.C78_absolute_partial",
    "CpSZ.Online2D.C78_relative_partial",
    "CpSZ.Online2D.C78_decompress",
    "CpSZ.Online2D.C78_absolute_shift_partial",
    "CpSZ.Online2D.C78_relative_shift_partial",
    "CpSZ.Online2D.C78_tiny_field_not_compressed",
    "CpSZ.Online2D.C78_threshold_matters",
    "CpSZ.Block.C78_block_2d",
    "CpSZ.Block.C78_block_2d_codes",
    "CpSZ.Block.C78_block_3d"
   ],
   "note": "Block codecs: proved, in floating point. Online modes: proved if the threshold is expressed in the new unit too, and for the fixed threshold (exact arithmetic, factors 4^k) if no vertex is stored because of it. False as stated: the threshold DBL_EPSILON is compared with absolute bounds, so small fields are stored verbatim (proved in general and for a witness)."
  },
  {
   "property": "C79",
   "status": "partial",
   "theorems": [
    "CpSZ.Extract.C79_types_2d",
    "CpSZ.Extract.C79_reported_2d",
    "CpSZ.Extract.C79_types_3d",
    "CpSZ.Extract.C79_reported_3d_partial",
    "CpSZ.Extract.C79_isotropic_source"
   ],
   "note": "2D: proved for every invertible Jacobian and every reported entry. 3D: proved for entries not reported as SINGULAR; SINGULAR is characterised exactly (nearly equal eigenvalues). False as stated in 3D: an isotropic source (all eigenvalues 16) is reported as SINGULAR (witness)."
  },
  {
   "property": "C80",
   "status": "partial",
   "theorems": [
    "CpSZ.Extract.C80_units_2d",
    "CpSZ.Extract.C80_units_2d_pos",
    "CpSZ.Extract.C80_units_3d_partial",
    "CpSZ.Extract.C80_all_singular",
    "CpSZ.Extract.C80_unit_matters"
   ],
   "note": "2D: proved, also for reversed fields. 3D: proved that the unit enters only through the threshold of the SINGULAR test, which scales with the sixth power of the unit. False as stated in 3D: every field is reported to have only singular points in a suitable unit (proved), and a source with values up to 0.0056 is (witness)."
  },
  {
   "property": "C81",
   "status": "partial",
   "theorems": [
    "CpSZ.Drivers.C81_driver",
    "CpSZ.Drivers.C81_sz3",
    "CpSZ.Drivers.C81_online",
    "CpSZ.Drivers.C81_abs3",
    "CpSZ.Drivers.C81_log2",
    "CpSZ.Drivers.C81_log3",
    "CpSZ.Drivers.C81_sizes",
    "CpSZ.Drivers.C81_offline_never",
    "CpSZ.Drivers.C81_online_small",
    "CpSZ.Drivers.C81_online_lossless"
   ],
   "note": "Proved for the SZ3, relative, absolute and logarithmic modes whenever the buffer fits the allocated block and has fewer than 100 or more than 320 bytes (C69). False as stated: with the offline mode no run gets to its end, and with the other modes none whose grid is small or whose values are all stored losslessly (block overrun, proved). Necessary sizes of the files proved."
  },
  {
   "property": "C82",
   "status": "partial",
   "theorems": [
    "CpSZ.C82_online",
    "CpSZ.C82_online_bytes",
    "CpSZ.C82_vmode",
    "CpSZ.C82_abs3_bytes",
    "CpSZ.C82_log2",
    "CpSZ.C82_log3",
    "CpSZ.C82_block",
    "CpSZ.C82_block_eb2",
    "CpSZ.C82_neighbours_not_kept",
    "CpSZ.C82_sz3_lost",
    "CpSZ.C82_sz3_negative",
    "CpSZ.C82_sz3_run",
    "CpSZ.Fp.nonFin"
   ],
   "note": "First half proved for the 2D online, logarithmic and 3D modes and the block codecs, in any arithmetic that follows the IEEE rules for NaN and infinities and for any result of the undefined conversions. False for the SZ3 mode (NaN is accepted and replaced, or its code is negative) and the second half is false (a NaN bound of one triangle makes MINF forget the user bound and the triangles before); witnesses proved."
  },
  {
   "property": "C83",
   "status": "partial",
   "theorems": [
    "CpSZ.Ieee.C83_float",
    "CpSZ.Ieee.C83_double",
    "CpSZ.Ieee.C83_fill_value_breaks_bound",
    "CpSZ.Ieee.bits_ieee",
    "CpSZ.Ieee.bits_ieeeE",
    "CpSZ.Ieee.abs2",
    "CpSZ.Ieee.agree_abs2",
    "CpSZ.Ieee.keepD_real"
   ],
   "note": "Proved on bit patterns for float data of magnitude up to 2^60 (the bound itself) and double data up to 2^400 (the bound times 1 + eps + 2^-53, eps the accuracy of log2). False without a limit: with a netCDF fill value among the data the value 1000 comes back as 1024 under the bound 1/100 (witness proved on the bit patterns)."
  },
  {
   "property": "C84",
   "status": "partial",
   "theorems": [
    "CpSZ.Ieee.C84_float",
    "CpSZ.Ieee.C84_double",
    "CpSZ.Ieee.C84_fill_value_breaks_bound",
    "CpSZ.Ieee.abs3",
    "CpSZ.Ieee.derive3_not_nan",
    "CpSZ.Ieee.agree_abs3"
   ],
   "note": "Proved on bit patterns for float data of magnitude up to 2^38 (the bound itself) and double data up to 2^300 (the bound times 1 + eps + 2^-53, eps the accuracy of log2). False without a limit: with a netCDF fill value among the data the value 1000 comes back as 1024 under the bound 1/100 (witness proved on the bit patterns)."
  },
  {
   "property": "C85",
   "status": "partial",
   "theorems": [
    "CpSZ.Ieee.C85_float",
    "CpSZ.Ieee.C85_double",
    "CpSZ.Ieee.C85_fill_value_breaks_bound",
    "CpSZ.Ieee.rel2",
    "CpSZ.Ieee.deriveRel_le",
    "CpSZ.Ieee.keepType_not_nan",
    "CpSZ.Ieee.keepR_ieee",
    "CpSZ.Ieee.agree_rel2",
    "CpSZ.Ieee.keepR_real",
    "CpSZ.Ieee.coefN_invC"
   ],
   "note": "Proved on bit patterns for float data of magnitude up to 2^58 (the bound itself) and double data up to 2^248 (the bound times 1 + eps + 2^-52, eps the accuracy of log2), relative bounds up to 1. False without a limit: with a netCDF fill value among the data the value 1000 comes back as 1024 under the relative bound 1/100 (witness proved on the bit patterns)."
  },
  {
   "property": "C86",
   "status": "proved",
   "theorems": [
    "CpSZ.Ieee.C86_abs_float",
    "CpSZ.Ieee.C86_abs_double",
    "CpSZ.Ieee.C86_rel_float",
    "CpSZ.Ieee.C86_rel_double",
    "CpSZ.Ieee.C86_abs3_float",
    "CpSZ.Ieee.C86_abs3_double",
    "CpSZ.Ieee.C86_fill_value_leaves_table",
    "CpSZ.Ieee.IsIeee.linQuant_range",
    "CpSZ.Ieee.IsIeee.ebQuant_range",
    "CpSZ.Ieee.run2",
    "CpSZ.Ieee.compress_inv_codes"
   ],
   "note": "Proved on bit patterns within the stated sizes; the last theorem of the claim is proved as well: with one finite fill value the code of a bound is the undefined conversion of infinity."
  },
  {
   "property": "C87",
   "status": "proved",
   "theorems": [
    "CpSZ.Ieee.C87_with_eb_float",
    "CpSZ.Ieee.C87_with_eb_double",
    "CpSZ.Ieee.C87_2d_float",
    "CpSZ.Ieee.C87_3d_float",
    "CpSZ.Ieee.C87_with_eb_3d",
    "CpSZ.Ieee.C87_exceeded",
    "CpSZ.Ieee.Kept.special",
    "CpSZ.Ieee.quant_code",
    "CpSZ.Ieee.dist_back",
    "CpSZ.Ieee.round_back",
    "CpSZ.Ieee.regPrecs_nn"
   ],
   "note": "Bytes to bytes on bit patterns, for all data. Code words of the entropy coder of at most 64 bits are assumed (C03). Double data with one global precision are not decoded at all (C37) and are not part of the claim."
  },
  {
   "property": "C88",
   "status": "proved",
   "theorems": [
    "CpSZ.Ieee.C88_float",
    "CpSZ.Ieee.C88_double",
    "CpSZ.Ieee.C88_lost",
    "CpSZ.Ieee.C88_created",
    "CpSZ.Ieee.derive_cp",
    "CpSZ.Ieee.abs2_keep",
    "CpSZ.Ieee.round_mono"
   ],
   "note": "Bytes to bytes on bit patterns. Code words of the entropy coder of at most 64 bits are assumed (C03). The limits on the magnitude are needed (C88_lost), and the converse fails (C88_created)."
  },
  {
   "property": "C89",
   "status": "partial",
   "theorems": [
    "CpSZ.Drivers.C89_driver_partial",
    "CpSZ.Drivers.C89_sizes",
    "CpSZ.Drivers.C89_coordinates_unused",
    "CpSZ.Drivers.C89_small"
   ],
   "note": "The provisos of C30 and C69 carry over; the block of 3*n elements must hold the stream, which is false for small meshes (C89_small), where the run is undefined."
  },
  {
   "property": "C90",
   "status": "proved",
   "theorems": [
    "CpSZ.Ieee.C90_float",
    "CpSZ.Ieee.C90_double",
    "CpSZ.Ieee.C90_exceeds",
    "CpSZ.Ieee.C90_created",
    "CpSZ.Ieee.C90_lost"
   ],
   "note": "Code words of at most 64 bits are a hypothesis on the code tree, as in C83. C90_lost is about the working copy of the compressor."
  },
  {
   "property": "C91",
   "status": "proved",
   "theorems": [
    "CpSZ.Ieee.C91_float",
    "CpSZ.Ieee.C91_double",
    "CpSZ.Ieee.C91_created",
    "CpSZ.Ieee.C91_missed_lost"
   ],
   "note": "The test (ftk::inverse_lerp_s3v3, not in the repository) is a parameter. Code words of at most 64 bits are a hypothesis on the code tree, as in C84."
  },
  {
   "property": "C92",
   "status": "proved",
   "theorems": [
    "CpSZ.Ieee.C92_abs2",
    "CpSZ.Ieee.C92_abs3",
    "CpSZ.Ieee.C92_rel2"
   ],
   "note": "That the entropy coder can represent the index arrays is a hypothesis; C86 gives it for moderate data."
  },
  {
   "property": "C93",
   "status": "partial",
   "theorems": [
    "CpSZ.Ieee.C93_log",
    "CpSZ.Ieee.C93_overflow"
   ],
   "note": "Proved for data between 2^-97 and 2^58 (double: 2^124), with 2^-14 added to the bound for the rounding of log2f and exp2. For all finite data the claim is false: C93_overflow."
  },
  {
   "property": "C94",
   "status": "partial",
   "theorems": [
    "CpSZ.Huff.C94_roundtrip",
    "CpSZ.Huff.C94_in_bounds_partial",
    "CpSZ.Huff.C94_overflow"
   ],
   "note": "The round trip is proved in full. The writes stay inside the allocated block for sixteen or more elements and code words of at most 24 bits; for every array of one element they do not: C94_overflow."
  },
  {
   "property": "C95",
   "status": "partial",
   "theorems": [
    "CpSZ.Ieee.C95_log3",
    "CpSZ.Ieee.C95_overflow",
    "CpSZ.Ieee.agree_log3"
   ],
   "note": "Proved for nonzero data between 2^-97 and 2^38 (double: 2^124), with 2^-14 added to the bound for the rounding of log2f and exp2. For all finite data the claim is false: C95_overflow."
  },
  {
   "property": "C96",
   "status": "partial",
   "theorems": [
    "CpSZ.Ieee.C96_unstructured",
    "CpSZ.Ieee.C96_zero_flips_sign"
   ],
   "note": "Proved for nonzero data between 2^-97 and 2^38 (double: 2^124), with 2^-14 added to the bound for the rounding of log2f and exp2. With zeros the claim is false: C96_zero_flips_sign."
  },
  {
   "property": "C97",
   "status": "proved",
   "theorems": [
    "CpSZ.Ieee.C97_verify",
    "CpSZ.Ieee.C97_range",
    "CpSZ.Ieee.C97_nan_unseen"
   ],
   "note": "Proved on bit patterns for arrays of finite numbers; the last sentence is the witness C97_nan_unseen."
  },
  {
   "property": "C98",
   "status": "proved",
   "theorems": [
    "CpSZ.Ieee.C98_log3_zeros"
   ],
   "note": "Proved on bit patterns for data that are zero or between 2^-97 and 2^38 (double: 2^124) in size, for every log2 and exp2 close to the exact ones."
  },
  {
   "property": "C99",
   "status": "proved",
   "theorems": [
    "CpSZ.Ieee.C99_rel_float",
    "CpSZ.Ieee.C99_rel_double",
    "CpSZ.Ieee.C99_log",
    "CpSZ.Ieee.C99_log3",
    "CpSZ.Ieee.C99_unstructured",
    "CpSZ.Ieee.C99_triangle",
    "CpSZ.Ieee.C99_created"
   ],
   "note": "Proved on bit patterns, bytes to bytes; the last sentence is the witness C99_created."
  }
 ]
}