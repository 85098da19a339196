{"id": "C01", "title": "Entropy-coded integer arrays decode to themselves", "statement": "For every non-empty array of symbols below the declared number of states, encoding it with Huffman_encode_tree_and_data and decoding the produced bytes with Huffman_decode_tree_and_data (same state count, same element count) returns exactly the original array, provided no symbol received a code longer than 64 bits; the read cursor ends exactly where the write cursor ended, so that data following in the stream is read from the right place.", "quantifier": "all state counts, all non-empty symbol arrays, all bytes already in the output buffer, all trailing stream contents, both evaluation orders of the two queue removals", "why_tests_cant": "the space of symbol arrays is infinite and failures depend on bit alignment of every prefix; a test exercises one alignment history", "anchors": ["src/sz_huffman.cpp: init, build_code, encode, decode, convert_HuffTree_to_bytes_anyStates, reconstruct_HuffTree_from_bytes_anyStates", "src/sz_compression_utils.cpp: Huffman_encode_tree_and_data", "src/sz_decompression_utils.cpp: Huffman_decode_tree_and_data"]}
{"id": "C02", "title": "Huffman codes are prefix free and complete", "statement": "After building the code for any non-empty array, the set of symbols with a code is exactly the set of symbols occurring in the array, no code is a prefix of another one, and the Kraft sum of the code lengths is exactly one.", "quantifier": "all non-empty symbol arrays", "why_tests_cant": "prefix-freeness relates every pair of codes of every possible histogram", "anchors": ["src/sz_huffman.cpp: init, qinsert, qremove, new_node, build_code"]}
{"id": "C03", "title": "No code word exceeds 64 bits", "statement": "The bit encoder only handles code words of at most 64 bits correctly once the write position is not byte aligned; therefore every array the compressor can be given must lead to code words of at most 64 bits.", "quantifier": "all symbol arrays of a length that fits a size_t", "why_tests_cant": "needs adversarial histograms: the failing ones have tens of millions of elements with very specific frequencies", "anchors": ["src/sz_huffman.cpp: qremove, build_code, encode"]}
{"id": "C04", "title": "The Huffman code is optimal", "statement": "The payload produced for an array is no longer than the payload of any other prefix code for that array (this is what 'Huffman' coding promises).", "quantifier": "all symbol arrays and all competing prefix codes", "why_tests_cant": "optimality quantifies over all alternative codes", "anchors": ["src/sz_huffman.cpp: qinsert, qremove, init"]}
{"id": "C05", "title": "Entropy coder output size and write footprint", "statement": "The payload size reported by the bit encoder is exactly the total number of code bits rounded up to whole bytes, and the encoder never writes at or beyond eight bytes past that size, nor below the start of the buffer.", "quantifier": "all symbol arrays with code words of at most 64 bits, all buffer contents", "why_tests_cant": "out-of-bounds writes of a few bytes are silent in ordinary runs and depend on the last code words", "anchors": ["src/sz_huffman.cpp: encode, longToBytes_bigEndian"]}
{"id": "C06", "title": "Serialized Huffman tree reconstructs the same tree", "statement": "Serialising a code tree with n nodes and reading it back yields the same tree (shape and leaf symbols) for each of the three index widths, in particular at the width boundaries 256 and 65536; the number of nodes is twice the number of distinct symbols minus one and the byte size is the documented function of n.", "quantifier": "all full binary trees with 32-bit leaf symbols and fewer than 2^32 nodes", "why_tests_cant": "the width switch and the use of index 0 as 'no child' only matter for particular tree sizes", "anchors": ["src/sz_huffman.cpp: pad_tree_uchar, pad_tree_ushort, pad_tree_uint, unpad_tree_uchar, unpad_tree_ushort, unpad_tree_uint, convert_HuffTree_to_bytes_anyStates, reconstruct_HuffTree_from_bytes_anyStates"]}
{"id": "C07", "title": "Entropy coder accepts every array the compressors produce", "statement": "Compressors may end up with an empty array of quantisation codes (for example when every vertex is stored losslessly); encoding such an array must not crash.", "quantifier": "all element counts including zero", "why_tests_cant": "the empty case is only reached for special fields", "anchors": ["src/sz_huffman.cpp: init, build_code", "src/sz_compress_cp_preserve_3d.cpp: sz_compress_cp_preserve_3d_online_log, sz_compress_cp_preserve_3d_online_abs"]}
{"id": "C08", "title": "Sign bitmaps round trip", "statement": "Packing an array of flags (0/1) to a bitmap and unpacking with the same element count and the byte length used by the decompressors returns the same flags and leaves the cursor behind the bitmap; the bitmap occupies ceil(n/8) bytes.", "quantifier": "all non-empty flag arrays of every length, all following bytes", "why_tests_cant": "the last partial byte behaves differently for each of the eight residues and every content", "anchors": ["src/sz_compression_utils.cpp: convertIntArray2ByteArray_fast_1b_to_result_sz", "src/sz_decompression_utils.cpp: convertByteArray2IntArray_fast_1b_sz"]}
{"id": "C09", "title": "Raw values and headers round trip", "statement": "Every fixed-width variable or array written to the stream is read back bit-identically, and the reader advances by exactly the number of bytes the writer advanced.", "quantifier": "all values, all array lengths, all following bytes", "why_tests_cant": "a mismatch in one field silently shifts all later fields", "anchors": ["include/sz_compression_utils.hpp: write_variable_to_dst, write_array_to_dst", "include/sz_decompression_utils.hpp: read_variable_from_src, read_array_from_src"]}
{"id": "C10", "title": "Quantisation codes stay in range and avoid the reserved code", "statement": "A value accepted by the linear quantiser gets a code strictly between 0 and 2*radius, so it is never confused with the reserved code 0 of unpredictable values and always fits the alphabet of the entropy coder.", "quantifier": "all values, predictions, positive error bounds and radii", "why_tests_cant": "collision happens at single boundary values of a real quotient", "anchors": ["include/sz_compression_utils.hpp: quantize", "src/sz_compress_cp_preserve_2d.cpp: sz_compress_cp_preserve_2d_online", "include/sz3_utils.hpp: VariableEBLinearQuantizer"]}
{"id": "C11", "title": "Linear quantiser respects its error bound and its decoder agrees", "statement": "Whatever the rounding behaviour of the arithmetic, the value the decoder recovers from the code is identical to the value the encoder checked against the error bound; so an accepted value is reproduced within the bound and a rejected value is reproduced exactly. In exact arithmetic no value whose prediction error is below (2*radius-1) bounds is rejected.", "quantifier": "all values, predictions, bounds; all interpretations of the arithmetic", "why_tests_cant": "rounding can break agreement for isolated values only", "anchors": ["include/sz_compression_utils.hpp: quantize", "include/sz_decompression_utils.hpp: recover", "include/sz3_utils.hpp: VariableEBLinearQuantizer::quantize_and_overwrite, recover"]}
{"id": "C12", "title": "Error bounds are only ever tightened by the exponential bound quantiser", "statement": "The error bound actually used for a vertex (and re-derived by the decompressor from its code) never exceeds the requested one and is larger than the requested bound divided by the base; code 0 is returned exactly for bounds below base*threshold.", "quantifier": "all positive bounds, bases above one, thresholds", "why_tests_cant": "boundary behaviour of truncated logarithms at exact powers", "anchors": ["include/sz_cp_preserve_utils.hpp: eb_exponential_quantize"]}
{"id": "C13", "title": "2D relative mode: decompression reproduces the compressor's reconstruction", "statement": "For every field and mesh size, decompressing the stream of the 2D online (relative) compressor returns, at every vertex, exactly the values that the compressor used as reconstruction while compressing, so all guarantees established during compression hold for the decompressed data.", "quantifier": "all mesh sizes, all fields, all bound parameters, all interpretations of floating-point arithmetic", "why_tests_cant": "one drifted vertex poisons all later predictions; must hold along every execution", "anchors": ["src/sz_compress_cp_preserve_2d.cpp: sz_compress_cp_preserve_2d_online", "src/sz_decompress_cp_preserve_2d.cpp: sz_decompress_cp_preserve_2d_online"]}
{"id": "C14", "title": "2D relative mode: pointwise relative error bound", "statement": "In the decompressed field of the 2D online compressor each component of each vertex either equals the input bit for bit or differs from it by strictly less than its magnitude times the user's relative bound.", "quantifier": "all fields, mesh sizes and bounds", "why_tests_cant": "universal over vertices and over the accumulated history of quantisation decisions", "anchors": ["src/sz_compress_cp_preserve_2d.cpp: sz_compress_cp_preserve_2d_online", "src/sz_decompress_cp_preserve_2d.cpp: sz_decompress_cp_preserve_2d_online"]}
{"id": "C15", "title": "2D relative mode: critical points are neither created nor destroyed", "statement": "In exact arithmetic, for every triangle of the mesh the piecewise linear interpolant of the decompressed field has a zero in the triangle if and only if that of the original field has.", "quantifier": "all fields without restriction, all triangles, all mesh sizes, all bounds up to 1", "why_tests_cant": "topological statement about every cell and every order of vertex updates", "anchors": ["src/sz_compress_cp_preserve_2d.cpp: derive_cp_eb_for_positions_online, max_eb_to_keep_position_online, max_eb_to_keep_sign_2d_online, sz_compress_cp_preserve_2d_online"]}
{"id": "C16", "title": "2D relative mode: critical point types are preserved", "statement": "In exact arithmetic, in every triangle whose interpolant has a critical point, the type reported by the eigenvalue classification (saddle, attracting or repelling node, attracting or repelling focus, centre) is the same before and after compression; the signs of the determinant and of the discriminant of the Jacobian are unchanged, and for points that are not saddles so is the sign of its trace.", "quantifier": "all fields, all triangles containing a critical point", "why_tests_cant": "type changes happen at measure-zero boundaries in an eight-dimensional space", "anchors": ["src/sz_compress_cp_preserve_2d.cpp: max_eb_to_keep_type_online, derive_cp_eb_for_positions_online, get_adjugate_matrix_for_position"]}
{"id": "C17", "title": "Each 2D vertex update considers exactly the triangles of the mesh incident to it", "statement": "The six neighbour pairs used when bounding a vertex are exactly the triangles of the regular triangulation containing that vertex that lie inside the grid, boundary vertices included; memory accessed for them lies inside the array; the cell numbers used for the critical point bitmap are the numbers used when that bitmap was computed.", "quantifier": "all grid sizes and all vertices", "why_tests_cant": "boundary configurations for every grid size", "anchors": ["src/sz_compress_cp_preserve_2d.cpp: sz_compress_cp_preserve_2d_online, compute_cp, sz_compress_cp_preserve_2d_online_abs_relax_FN"]}
{"id": "C18", "title": "2D log mode: decompression reproduces the compressor's reconstruction", "statement": "For every field without extremely small values, decompressing the stream of the 2D log-domain online compressor returns exactly the compressor's reconstruction, including the signs and the zeros of the input.", "quantifier": "all mesh sizes and fields; all interpretations of floating-point arithmetic", "why_tests_cant": "needs the sign bitmaps, the code streams and the raw values to stay aligned for every field", "anchors": ["src/sz_compress_cp_preserve_2d.cpp: sz_compress_cp_preserve_2d_online_log", "src/sz_decompress_cp_preserve_2d.cpp: sz_decompress_cp_preserve_2d_online_log"]}
{"id": "C19", "title": "2D log mode: critical points and types are preserved", "statement": "In exact arithmetic, for every field without extremely small nonzero values, every triangle keeps the existence and the type of its critical point under the 2D log-domain online compressor, and every value keeps its sign.", "quantifier": "all fields, triangles, mesh sizes and bounds at most 1", "why_tests_cant": "topological statement for all cells and update orders", "anchors": ["src/sz_compress_cp_preserve_2d.cpp: sz_compress_cp_preserve_2d_online_log"]}
{"id": "C20", "title": "2D absolute mode: lockstep, absolute error bound and critical points", "statement": "Decompressing the stream of the 2D absolute-bound online compressor returns the compressor's reconstruction; every value is exact or off by strictly less than the user's absolute bound; in exact arithmetic no triangle gains or loses a critical point, and vertices of triangles that contain a critical point are reproduced bit for bit.", "quantifier": "all fields, mesh sizes, bounds", "why_tests_cant": "topological and history-dependent", "anchors": ["src/sz_compress_cp_preserve_2d.cpp: sz_compress_cp_preserve_2d_online_abs, derive_cp_eb_for_positions_online_abs"]}
{"id": "C21", "title": "Relaxed mode keeps its stream decodable and its bound", "statement": "The relaxed absolute mode (which verifies cells instead of trusting the derived bound) must produce a stream that decodes to its reconstruction and must respect the user's absolute bound.", "quantifier": "all fields and bounds", "why_tests_cant": "fails only for bounds in a narrow range / for rounding-sensitive values", "anchors": ["src/sz_compress_cp_preserve_2d.cpp: sz_compress_cp_preserve_2d_online_abs_relax_FN"]}
{"id": "C22", "title": "Relaxed mode never adds a critical point cell and keeps cells that hold one", "statement": "Given the cell test used by the compressor, each vertex update in relaxed mode either leaves all incident cells' test results unchanged or is rolled back to the original value, and vertices of cells with a critical point are stored losslessly.", "quantifier": "all fields, all cell tests", "why_tests_cant": "history dependent over every sequence of tentative updates", "anchors": ["src/sz_compress_cp_preserve_2d.cpp: sz_compress_cp_preserve_2d_online_abs_relax_FN, check_cp, compute_cp"]}
{"id": "C23", "title": "SZ3 traversal visits each vertex exactly once", "statement": "The multi-level interpolation traversal processes every grid vertex except the origin exactly once and the origin exactly once, each prediction only uses vertices processed before, and never reads outside the array, for every grid size.", "quantifier": "all grid sizes", "why_tests_cant": "index arithmetic over all sizes, in particular non powers of two and degenerate grids", "anchors": ["src/sz_compress_cp_preserve_2d.cpp: sz3_cp_preserve_2d_predict_r1, sz3_cp_preserve_2d_predict_r2, sz3_compress_cp_preserve_2d_online_abs", "src/sz_decompress_cp_preserve_2d.cpp: recover, sz3_decompress_cp_preserve_2d_online"]}
{"id": "C24", "title": "SZ3 mode: decompression reproduces the compressor's reconstruction within the bound", "statement": "Decompressing the SZ3-mode stream returns the compressor's reconstruction at every vertex, and each value differs from the input by at most the user's absolute bound.", "quantifier": "all grids, fields, bounds; all interpretations of the arithmetic", "why_tests_cant": "requires both traversals to stay aligned for all sizes", "anchors": ["src/sz_compress_cp_preserve_2d.cpp: sz3_compress_cp_preserve_2d_online_abs", "src/sz_decompress_cp_preserve_2d.cpp: sz3_decompress_cp_preserve_2d_online", "include/sz3_utils.hpp"]}
{"id": "C25", "title": "SZ3 mode: critical points are neither created nor destroyed", "statement": "In exact arithmetic the SZ3 mode keeps, for each triangle, whether its interpolant has a critical point.", "quantifier": "all grids, fields, bounds", "why_tests_cant": "differs from the other modes only when an error is exactly equal to the derived bound", "anchors": ["src/sz_compress_cp_preserve_2d.cpp: derive_eb_abs_online_2d, sz3_cp_preserve_2d_predict_r1", "include/sz3_utils.hpp: quantize_and_overwrite"]}
{"id": "C26", "title": "Each 3D vertex update considers exactly the incident tetrahedra", "statement": "The 24 tetrahedra listed for a 3D vertex are exactly the cells of the six-tetrahedra subdivision containing it that lie inside the grid; the memory accessed lies inside the arrays and the cell number used for the critical point bitmap is the number assigned by the bitmap computation and is within its size.", "quantifier": "all grid sizes and vertices", "why_tests_cant": "eight boundary conditions times 24 cells times all sizes", "anchors": ["src/sz_compress_cp_preserve_3d.cpp: coordinates, default_coords, compute_offset, compute_cp, sz_compress_cp_preserve_3d_online_abs"]}
{"id": "C27", "title": "3D absolute mode: lockstep, error bound and exactness at critical points", "statement": "Decompressing the 3D absolute-mode stream returns the compressor's reconstruction; every value is exact or strictly within the user's absolute bound; vertices of cells flagged as holding a critical point are reproduced bit for bit; in exact arithmetic no other cell gains a critical point.", "quantifier": "all grids, fields, bounds", "why_tests_cant": "history dependent and topological", "anchors": ["src/sz_compress_cp_preserve_3d.cpp: sz_compress_cp_preserve_3d_online_abs, max_eb_to_keep_position_and_type_3d_online_abs", "src/sz_decompress_cp_preserve_3d.cpp: sz_decompress_cp_preserve_3d_online_abs"]}
{"id": "C28", "title": "3D log mode: decompression reproduces the compressor's reconstruction", "statement": "Decompressing the 3D log-domain stream returns the compressor's reconstruction.", "quantifier": "all grids, fields and bounds", "why_tests_cant": "fails for zeros in the input or for large bounds whose code collides with the marker of lossless vertices", "anchors": ["src/sz_compress_cp_preserve_3d.cpp: sz_compress_cp_preserve_3d_online_log", "src/sz_decompress_cp_preserve_3d.cpp: sz_decompress_cp_preserve_3d_online_log"]}
{"id": "C29", "title": "3D relative bound keeps critical points", "statement": "In exact arithmetic, changing one vertex of a tetrahedron by a relative error below the derived 3D bound neither creates nor destroys a critical point of the linear interpolant in that tetrahedron, and hence a complete compression pass preserves the set of critical cells.", "quantifier": "all tetrahedra, all vector values, all perturbations", "why_tests_cant": "twelve-dimensional continuous input space with degenerate strata", "anchors": ["src/sz_compress_cp_preserve_3d.cpp: max_eb_to_keep_position_and_type_3d_online, max_eb_to_keep_sign_3d_online"]}
{"id": "C30", "title": "Unstructured meshes: adjacency is complete and streams stay aligned", "statement": "For a tetrahedral mesh given by its cell list, every vertex update considers each cell containing the vertex exactly as often as it is listed, and decompression reproduces the compressor's reconstruction.", "quantifier": "all cell lists, all point counts, all fields", "why_tests_cant": "arbitrary connectivity; sign stream misalignment needs a value decoded as zero in the middle of the data", "anchors": ["src/sz_compress_cp_preserve_3d.cpp: construct_tets, sz_compress_cp_preserve_3d_unstructured", "src/sz_decompress_cp_preserve_3d.cpp: sz_decompress_cp_preserve_3d_unstructured"]}
{"id": "C31", "title": "Pointwise-bound 2D codec: round trip within every vertex's own bound", "statement": "sz_compress_2d_with_eb followed by sz_decompress_2d_with_eb with the same per-point bounds and block size returns a field whose every value is within its own bound of the input (exact where the bound is zero), for every grid and block size.", "quantifier": "all grids, block sizes, fields and per-point bounds", "why_tests_cant": "depends on block boundaries and on buffer handling of every block row", "anchors": ["src/sz_compress_3d.cpp: sz_compress_2d_with_eb", "src/sz_decompress_3d.cpp: sz_decompress_2d_with_eb", "include/sz_compress_block_processing.hpp", "include/sz_decompress_block_processing.hpp"]}
{"id": "C32", "title": "Block processing tiles the grid", "statement": "The block decomposition used by the prediction-based codecs visits every grid point exactly once, for every grid and block size, and compressor and decompressor visit points in the same order.", "quantifier": "all grid and block sizes", "why_tests_cant": "index arithmetic for all sizes, partial last blocks", "anchors": ["include/sz_def.hpp: DSize_2d, DSize_3d", "src/sz_compress_3d.cpp", "src/sz_decompress_3d.cpp"]}
{"id": "C33", "title": "2D offline mode: decompressor uses the bounds the compressor used", "statement": "The decompressor of the 2D offline modes re-derives for every vertex exactly the error bound with which the vertex was compressed.", "quantifier": "all fields and bounds", "why_tests_cant": "fails only for bounds in a narrow window above the threshold", "anchors": ["src/sz_compress_cp_preserve_2d.cpp: sz_compress_cp_preserve_2d_offline, sz_compress_cp_preserve_2d_offline_log", "src/sz_decompress_cp_preserve_2d.cpp: sz_decompress_cp_preserve_2d_offline, sz_decompress_cp_preserve_2d_offline_log", "include/sz_cp_preserve_utils.hpp: eb_exponential_quantize"]}
{"id": "C34", "title": "2D offline mode: critical points survive simultaneous perturbation", "statement": "In exact arithmetic, if every component of all three vertices of a triangle is perturbed by a relative error strictly below the offline bound derived for the triangle, the triangle neither gains nor loses a critical point.", "quantifier": "all triangles, vectors and perturbations", "why_tests_cant": "continuous six-dimensional perturbation space", "anchors": ["src/sz_compress_cp_preserve_2d.cpp: max_eb_to_keep_position_and_type", "include/sz_cp_preserve_utils.hpp: max_eb_to_keep_sign, accumulate"]}
{"id": "C35", "title": "Reported sizes match the written bytes", "statement": "The compressed size every compressor reports equals the number of bytes it wrote, and the bytes written never exceed the allocated buffer.", "quantifier": "all compressors, all fields", "why_tests_cant": "overflow and truncation only show for incompressible fields or are silent", "anchors": ["src/sz_compress_cp_preserve_2d.cpp: sz_compress_cp_preserve_2d_offline, sz_compress_cp_preserve_2d_online", "src/sz_compress_3d.cpp: sz_compress_2d, sz_compress_3d"]}
{"id": "C36", "title": "Unpredictable values fit their buffer", "statement": "The buffer that collects unpredictable values is large enough for every input.", "quantifier": "all fields", "why_tests_cant": "needs fields in which more than five percent of the values are unpredictable", "anchors": ["src/sz_compress_3d.cpp: sz_compress_2d, sz_compress_3d, sz_compress_3d_with_eb"]}
{"id": "C37", "title": "3D block codec decodes double precision streams", "statement": "sz_decompress_3d positions its read cursor correctly behind the unpredictable values for every element type.", "quantifier": "all element types, all counts of unpredictable values", "why_tests_cant": "only visible for double data with at least one unpredictable value", "anchors": ["src/sz_decompress_3d.cpp: sz_decompress_3d"]}
{"id": "C38", "title": "Interval capacity is a sane power of two", "statement": "round_up_power_of_2 returns the least power of two that is at least its argument for all arguments from 1 to 2^31; the interval estimator always returns a power of two of at least 32.", "quantifier": "all 32-bit arguments, all sampled data", "why_tests_cant": "2^31 arguments; all data sets", "anchors": ["src/sz_compression_utils.cpp: round_up_power_of_2", "include/sz_optimize_quant_intervals.hpp: estimate_quantization_intervals"]}
{"id": "C39", "title": "Mean-value code never collides", "statement": "When the mean optimisation is active, code 1 is used only for points replaced by the mean and code 0 only for unpredictable points; regular codes are at least 2, so the decoder recovers what the encoder reconstructed.", "quantifier": "all values, predictions and bounds", "why_tests_cant": "boundary values of a real quotient", "anchors": ["include/sz_compress_block_processing.hpp", "include/sz_decompression_utils.hpp: recover"]}
{"id": "C40", "title": "Pointwise relative codec: sign, zeros and relative bound", "statement": "The log-transform based pointwise relative codec returns zeros as zeros, keeps the sign of every value and keeps every value within its relative bound.", "quantifier": "all fields and bounds", "why_tests_cant": "zero threshold interacts with the smallest magnitudes of the field", "anchors": ["src/sz_compress_pwr.cpp: sz_compress_2d_pwr, sz_compress_2d_pwr_with_eb", "src/sz_decompress_pwr.cpp"]}
{"id": "C41", "title": "Bound formulas never divide by zero on a vertex that is then compressed lossily", "statement": "Whenever evaluating the 2D online bound for a vertex would divide by zero (yielding NaN or infinity and, through the MIN macro, dropping all earlier bounds), the vertex is stored losslessly.", "quantifier": "all vector values of all incident triangles", "why_tests_cant": "requires exact zeros in particular components; NaN propagates silently through comparison macros", "anchors": ["src/sz_compress_cp_preserve_2d.cpp: max_eb_to_keep_type_online, derive_cp_eb_for_positions_online", "include/sz_def.hpp: MINF, MAX"]}
{"id": "C42", "title": "Regression coefficients decode to the encoder's coefficients", "statement": "The decompressor reconstructs bit for bit the regression coefficients that the compressor used to predict each block.", "quantifier": "all coefficient sequences; all interpretations of float arithmetic", "why_tests_cant": "the coefficients are coded differentially; one deviation affects all later blocks", "anchors": ["include/sz_compression_utils.hpp: compress_regression_coefficient_2d, compress_regression_coefficient_3d", "src/sz_decompression_utils.cpp: decode_regression_coefficients_2d, decode_regression_coefficients"]}
{"id": "C43", "title": "Block decomposition is invisible in the result", "statement": "The values returned by sz_decompress_2d_with_eb are those obtained by predicting every point from its three already decompressed neighbours in the whole grid (zero outside); they do not depend on the block size.", "quantifier": "all fields, bounds, grids and block sizes; all interpretations of float arithmetic", "why_tests_cant": "predictions cross block borders through a rolling buffer; errors show only for special combinations of block size and grid size", "anchors": ["src/sz_compress_3d.cpp: prediction_and_quantization_2d_with_border_prediction_and_eb", "src/sz_decompress_3d.cpp: prediction_and_decompression_2d_with_border_prediction_and_eb"]}
{"id": "C44", "title": "2D block codec round trip with one precision", "statement": "sz_decompress_2d applied to the output of sz_compress_2d returns a field whose values all lie within the precision, whatever selection between Lorenzo and regression blocks was made.", "quantifier": "all fields, precisions, grids, block sizes and block selections", "why_tests_cant": "regression and Lorenzo blocks share buffers and code streams; all interleavings matter", "anchors": ["src/sz_compress_3d.cpp: sz_compress_2d", "src/sz_decompress_3d.cpp: sz_decompress_2d"]}
{"id": "C45", "title": "The sampling passes of the 3D block codec terminate and stay in bounds", "statement": "Before compressing, sz_compress_3d samples the field twice (rough mean, then prediction errors). On every grid both loops end after finitely many steps, and every value they read, including the seven Lorenzo neighbours of a sample, lies inside the data array.", "quantifier": "all grid sizes", "why_tests_cant": "cursor arithmetic with wrap-around depends on every combination of the three sizes", "anchors": ["include/sz_optimize_quant_intervals.hpp: sample_rough_mean_3d, optimize_quant_invl_3d"]}
{"id": "C46", "title": "2D offline mode: the type of a critical point survives simultaneous perturbation", "statement": "In exact arithmetic, if every component of all three vertices of a triangle with a critical point is perturbed by a relative error strictly below the offline bound derived for the triangle, the Jacobian keeps the signs of its determinant, trace and discriminant, so the critical point keeps its type.", "quantifier": "all triangles, vectors and perturbations", "why_tests_cant": "continuous six-dimensional perturbation space; fails only for critical points exactly on an edge", "anchors": ["src/sz_compress_cp_preserve_2d.cpp: max_eb_to_keep_position_and_type", "include/sz_cp_preserve_utils.hpp: max_eb_to_keep_sign"]}
{"id": "C47", "title": "Bilinear mode: decodable stream, sign and relative error", "statement": "The stream of the bilinear mode is decoded by the 2D log decompressor to exactly the compressor's reconstruction; vertices with a zero component are reproduced exactly; every other value keeps its sign and differs by less than its magnitude times the user's bound (values of at least 2^-98 in magnitude, bounds at most 1), whatever the derived bounds are; no value outside the grid is read.", "quantifier": "all grid sizes, fields, bounds; the round trip for any arithmetic, the error bound in exact arithmetic", "why_tests_cant": "depends on every sequence of accepted and rejected vertices and on arbitrary derived bounds", "anchors": ["src/sz_compress_cp_preserve_2d_bilinear.cpp: sz_compress_cp_preserve_2d_bilinear_online_log", "src/sz_decompress_cp_preserve_2d.cpp: sz_decompress_cp_preserve_2d_online_log"]}
{"id": "C48", "title": "Bilinear mode: every cell keeps its critical points and their types", "statement": "In every cell of the grid the bilinear interpolant of the decompressed field has as many critical points as that of the input, with the same types.", "quantifier": "all grid sizes, fields, bounds, cells", "why_tests_cant": "needs the order in which cells are verified over the whole scan; fails only for cells with a degenerate interpolant and for values between the verified double and the stored float", "anchors": ["src/sz_compress_cp_preserve_2d_bilinear.cpp: bilinear_verify_critical_point, bilinear_extract_critical_point, inverse_bilinear_interpolation, derive_cp_eb_bilinear_online"]}
{"id": "C49", "title": "3D offline log mode: decodable stream", "statement": "The stream of the 3D offline log mode is decoded by the 3D log decompressor: vertices coded losslessly are exact, every other value is the power of the compressor's reconstructed logarithm with the sign of the original (zero if the logarithm is below -99); trailing bytes and previous contents of the output are irrelevant; the sweep that computes the bounds reads nothing outside the grid.", "quantifier": "all grid sizes, fields, bound formulas and arithmetics", "why_tests_cant": "depends on every sequence of lossless, escaped and quantised vertices and on arbitrary derived bounds; the escape code collides only for particular bounds", "anchors": ["src/sz_compress_cp_preserve_3d.cpp: sz_compress_cp_preserve_3d_offline_log", "src/sz_decompress_cp_preserve_3d.cpp: sz_decompress_cp_preserve_3d_online_log"]}
{"id": "C50", "title": "3D offline log mode: critical points survive simultaneous perturbation", "statement": "In exact arithmetic the decompressed field of the 3D offline log mode has a critical point in exactly the tetrahedra in which the input has one, the vertices of these tetrahedra are exact, and every value keeps its sign and differs by less than its magnitude times the user's bound. The bound derived for a tetrahedron allows all twelve components to change at the same time.", "quantifier": "all grid sizes, fields, bounds and tetrahedra", "why_tests_cant": "twelve-dimensional continuous perturbation space, all grid sizes", "anchors": ["src/sz_compress_cp_preserve_3d.cpp: max_eb_to_keep_position_and_type_3d_offline, sz_compress_cp_preserve_3d_offline_log", "include/sz_cp_preserve_utils.hpp: max_eb_to_keep_sign_3d_offline"]}
{"id": "C51", "title": "2D extraction tool: what it reports", "statement": "In exact arithmetic the 2D extraction tool reports, for every triangle of every cell that is not at the border of the grid, exactly the zero of the linear interpolant if the Jacobian is invertible and no vertex is a zero of the field: once, with the number of the triangle, the position of the zero and the type given by the eigenvalues of the Jacobian. Matches, lost points and changed types add up to the number of original points; matches, new points and changed types to the number of decompressed points.", "quantifier": "all grid sizes, fields and iteration orders of the hash map", "why_tests_cant": "all fields and grid sizes; a triangle numbered twice or a vertex paired with the wrong corner shows only where critical points happen to lie", "anchors": ["test/cp_extraction_2d.cpp: check_simplex_seq, compute_critical_points, main"]}
{"id": "C52", "title": "2D modes: the extraction tool finds no difference", "statement": "In exact arithmetic, if a field is compressed and decompressed in the relative, the log, the absolute or the relaxed 2D mode, the extraction tool applied to the original and the decompressed field reports only matches: as many as there are original critical points, and no false positives, false negatives or changed types.", "quantifier": "all grid sizes, fields and bounds (relative and log: at most 1; log: no non-zero values below 2^-98; relaxed: bounds for which C21 holds), any previous content of the output, any iteration order", "why_tests_cant": "the evaluation in the paper tests this on a few data sets; the claim is about all fields", "anchors": ["test/cp_extraction_2d.cpp: main", "src/sz_compress_cp_preserve_2d.cpp: sz_compress_cp_preserve_2d_online, sz_compress_cp_preserve_2d_online_log, sz_compress_cp_preserve_2d_online_abs, sz_compress_cp_preserve_2d_online_abs_relax_FN"]}
{"id": "C53", "title": "3D extraction tool: what it reports", "statement": "In exact arithmetic the 3D extraction tool reports, for every tetrahedron of the grid, exactly the zero of the linear interpolant if the Jacobian is invertible and no corner is a zero of the field: once, with the FTK number of the tetrahedron, the position of the zero, and a type that depends only on the characteristic polynomial of the Jacobian (although the tool multiplies inverse coordinates and vectors in the wrong order). The counters add up as in 2D.", "quantifier": "all grid sizes of at most 2^32/6 vertices, fields, classifications of characteristic polynomials, iteration orders", "why_tests_cant": "all fields and grid sizes; keys of type int collide only on grids too large for tests", "anchors": ["test/cp_extraction_3d.cpp: get_cp_type, check_simplex_seq, compute_critical_points, main"]}
{"id": "C54", "title": "3D modes: the extraction tool finds no difference", "statement": "In exact arithmetic, if a field is compressed and decompressed in the 3D absolute, log or offline log mode, the extraction tool finds the same critical points with the same numbers, positions and types in the original and the decompressed field, and so reports matches only.", "quantifier": "all grid sizes, fields and bounds (log modes: no non-zero values below 2^-98; online log mode: no zeros, see C28; bounds above 1 only on grids with cells), any previous content of the output", "why_tests_cant": "the evaluation in the paper tests this on a few data sets; the claim is about all fields", "anchors": ["test/cp_extraction_3d.cpp: main", "src/sz_compress_cp_preserve_3d.cpp: sz_compress_cp_preserve_3d_online_abs, sz_compress_cp_preserve_3d_online_log, sz_compress_cp_preserve_3d_offline_log"]}
{"id": "C55", "title": "Error bounds hold in floating point arithmetic", "statement": "In the 2D relative, 2D absolute and 3D absolute online modes, with every arithmetic operation rounded, each decompressed value equals the input or differs from it by less than the bound (relative mode: bound times the magnitude of the input). For float data this holds exactly as stated, rounding to nearest; for double data up to the factor 1 + 2^-40, with any rounding.", "quantifier": "all grid sizes, fields and bounds not so large that their quotient by DBL_EPSILON overflows, all per-cell bounds that are not NaN, all tie-breaking rules and all log2 functions with error at most 2^-30 (float) or 2^-41 (double); no underflow", "why_tests_cant": "the rounding errors of the bound computation matter only for values within a few units in the last place of a power of two times the threshold; tests do not hit them", "anchors": ["src/sz_compress_cp_preserve_2d.cpp: sz_compress_cp_preserve_2d_online, sz_compress_cp_preserve_2d_online_abs", "src/sz_compress_cp_preserve_3d.cpp: sz_compress_cp_preserve_3d_online_abs", "include/sz_cp_preserve_utils.hpp: eb_exponential_quantize"]}
{"id": "C56", "title": "Log modes: relative error bound in floating point arithmetic", "statement": "In the 2D log, 3D log and unstructured log modes, with every operation rounded, each decompressed value equals the input, or has the same sign and differs from it by less than the relative bound times its magnitude.", "quantifier": "all grid sizes and meshes, fields (values zero, 3D: not zero, or of magnitude between 2^-97 and 2^126), bounds up to 1 (3D: 1/2), all per-cell bounds that are not NaN, float and double data, all library functions of the usual accuracy", "why_tests_cant": "the loss in log2f depends on the exponents of the values; a test on data of moderate magnitude with a loose bound does not show it", "anchors": ["include/sz_cp_preserve_utils.hpp: log_transform", "src/sz_compress_cp_preserve_2d.cpp: sz_compress_cp_preserve_2d_online_log", "src/sz_compress_cp_preserve_3d.cpp: sz_compress_cp_preserve_3d_online_log, sz_compress_cp_preserve_3d_unstructured", "src/sz_decompress_cp_preserve_2d.cpp: sz_decompress_cp_preserve_2d_online_log"]}
{"id": "C57", "title": "2D relative mode: critical points in floating point arithmetic", "statement": "In the 2D relative online mode, with every operation of the bound derivation, prediction, quantisation and reconstruction rounded as IEEE arithmetic does, a triangle contains a critical point of the decompressed field if and only if it contains one of the input field, and the type is the same.", "quantifier": "all grid sizes and fields of float or double values, all bounds, all tie-breaking rules; no overflow or underflow", "why_tests_cant": "the bound formulas cancel only for nearly parallel vectors whose components use all mantissa bits; four specific vectors are needed to see a critical point appear", "anchors": ["src/sz_compress_cp_preserve_2d.cpp: max_eb_to_keep_sign_2d_online, derive_cp_eb_for_positions_online, sz_compress_cp_preserve_2d_online", "src/sz_decompress_cp_preserve_2d.cpp: sz_decompress_cp_preserve_2d_online"]}
{"id": "C58", "title": "Block codecs and interpolation based mode: error bound in floating point arithmetic", "statement": "With every operation rounded as IEEE arithmetic does, every value returned by sz_decompress_2d_with_eb, sz_decompress_2d, sz_decompress_3d and sz3_decompress_cp_preserve_2d_online differs from the input by at most the error bound of its point.", "quantifier": "all grids, block sizes, float or double data, bounds, regression choices and means; no overflow or underflow", "why_tests_cant": "the reconstructed value is accepted after a rounded subtraction compared with <=; a violation needs a value whose distance to the reconstruction is within half an ulp above the bound, which random data hit practically never", "anchors": ["include/sz_compression_utils.hpp: quantize", "include/sz3_utils.hpp: quantize_and_overwrite", "src/sz_compress_3d.cpp: sz_compress_2d_with_eb, sz_compress_2d, sz_compress_3d", "src/sz_compress_cp_preserve_2d.cpp: sz3_compress_cp_preserve_2d_online_abs"]}
{"id": "C59", "title": "3D block codec: what each point is predicted from", "statement": "At every point of a Lorenzo block, the value returned by sz_decompress_3d is the mean, if the mean is in use and the input is closer to it than the bound, and otherwise the quantisation of the input against the Lorenzo prediction from the returned values of its seven neighbours: the neighbours in the whole grid (zero outside) with dependent blocks, those in the same block (zero outside) with independent blocks. Hence with independent blocks the values of a Lorenzo block depend on the data of that block only.", "quantifier": "all grids, block sizes, radii, means, choices of regression blocks, any arithmetic", "why_tests_cant": "the predictions come from a rolling buffer of block_size+1 layers that is filled block by block and copied; a stale or foreign value would still decompress within the bound, because compressor and decompressor share the mistake, so only the compression ratio would suffer", "anchors": ["src/sz_compress_3d.cpp: prediction_and_quantization_3d, prediction_and_quantization_3d_with_border_prediction, sz_compress_3d", "src/sz_decompress_3d.cpp: prediction_and_decompression_3d, prediction_and_decompression_3d_with_border_prediction, sz_decompress_3d", "include/sz_compress_block_processing.hpp: block_pred_and_quant_lorenzo_3d, block_pred_and_quant_regression_3d_with_buffer"]}
{"id": "C60", "title": "3D encoder with one bound per point writes a decodable stream", "statement": "The stream of sz_compress_3d_with_eb together with the grid size and the bounds determines a field that differs from the input by at most the bound of each point as the compressor computes the difference, equals the input where the bound is zero, and does not depend on the block size; no other information is needed. (The repository has no decompressor for this stream. Overruns of the buffer of unpredictable values, C36, are outside the statement.)", "quantifier": "all grids, block sizes, data, non-negative bounds, any arithmetic", "why_tests_cant": "no decompressor exists to run; that the stream is complete is a statement about all streams", "anchors": ["src/sz_compress_3d.cpp: prediction_and_quantization_3d_with_border_prediction_with_eb, sz_compress_3d_with_eb", "include/sz_compress_block_processing.hpp: block_pred_and_quant_lorenzo_3d_with_eb"]}
{"id": "C61", "title": "Regression coefficients are the least-squares fit", "statement": "In exact arithmetic the coefficients computed for a block are those of the plane (2D) or the linear function of three coordinates (3D) that minimises the sum of squared differences to the data of the block, and no other coefficients do as well.", "quantifier": "all data, block positions and block sizes of at least two in each direction, all strides at least the block size", "why_tests_cant": "the code computes closed formulas from three or four weighted sums accumulated in nested running totals; a wrong weight or constant only costs compression ratio, since the residuals are quantised against whatever was fitted", "anchors": ["include/sz_regression_utils.hpp: compute_regression_coeffcients_2d, compute_regression_coeffcients_3d"]}
{"id": "C62", "title": "How a block chooses between Lorenzo prediction and regression", "statement": "In exact arithmetic a block uses regression iff it has at least 8 (2D) or 4 (3D) points in each direction and the absolute errors of the fitted plane summed over the diagonals of the block are smaller than those of Lorenzo prediction from the original data, each with a surcharge of 0.81 (2D) or 1.22 (3D) times the precision, or the distance to the mean if that is smaller. In any arithmetic the choice and the coefficients depend on the data of the block only; with independent blocks the decompressed values of a Lorenzo block depend only on the data of that block.", "quantifier": "all data, grids, blocks, means, precisions", "why_tests_cant": "decompression is correct whatever is chosen, so a test sees only the stream size; that no value outside the block is read is a statement about all data", "anchors": ["include/sz_compress_block_processing.hpp: sz_blockwise_selection_2d, sz_blockwise_selection_3d", "src/sz_compress_3d.cpp: prediction_and_quantization_2d_with_border_prediction, prediction_and_quantization_3d, prediction_and_quantization_3d_with_border_prediction"]}
{"id": "C63", "title": "sz_compress_3d and sz_compress_2d with all their choices: termination, capacity, mean and bound", "statement": "For grids with at least nine values sz_compress_3d terminates; it chooses a capacity that is a power of two from 32 to 131072 and large enough for more than 99.9 percent of the sampled predictions unless it is the largest; with the rough mean m, the average over the first sampling pass, the mean is used iff some m + k*precision (|k| up to 4094) has more than half of the samples within the precision, or more than the number of samples whose prediction is closer than the precision, and it is then the average of all values within the precision of the m + k*precision with most samples (samples at exactly the precision may or may not count). sz_decompress_3d and sz_decompress_2d return every value within the precision as the compressor computes the difference, provided no Huffman code is longer than 64 bits (C03); within the precision in exact arithmetic, and within (1+2^-24) times it when float values are rounded to nearest. (On a 1x1x2 grid sz_compress_3d never returns.)", "quantifier": "all data, positive precisions, block sizes, both traversals, any arithmetic for termination and round trip", "why_tests_cant": "the choices are made by sampling loops over data-dependent histograms; the sampled positions depend on the grid sizes in an irregular way", "anchors": ["include/sz_optimize_quant_intervals.hpp: optimize_quant_invl_3d", "src/sz_compress_3d.cpp: sz_compress_3d, sz_compress_2d", "src/sz_decompress_3d.cpp: sz_decompress_3d, sz_decompress_2d"]}
{"id": "C64", "title": "Blocks on which the data are affine", "statement": "In exact arithmetic, storing the regression coefficients changes the fitted plane by at most a tenth of the precision anywhere in the block, whatever coefficients were stored before. Hence, if the data are affine on every block and every block has at least 8 (2D) or 4 (3D) points in each direction, and the mean is not in use, then every block uses regression, every quantisation code is the middle one, no value is stored verbatim, and every value is returned within a tenth of the precision.", "quantifier": "all piecewise affine data, positive precisions, grids, block sizes, both traversals, all capacities", "why_tests_cant": "relates precision of coefficients, block size, fit and choice for all slopes and offsets", "anchors": ["include/sz_compression_utils.hpp: compress_regression_coefficient_2d, compress_regression_coefficient_3d", "include/sz_regression_utils.hpp", "src/sz_compress_3d.cpp: sz_compress_2d, sz_compress_3d"]}
{"id": "C65", "title": "Values stored bit by bit with a shortened mantissa", "statement": "out_of_range_data_decode returns, for every value given to out_of_range_data_encode with its number of mantissa bits, the value with the remaining mantissa bits cleared and its sign kept (zero and NaN come back with the sign bit set), whatever the numbers of bits of the values before it; the error is less than one unit of the last bit kept.", "quantifier": "all finite sequences of float or double patterns and all numbers of mantissa bits of each", "why_tests_cant": "the bit cursor is carried from value to value, so whether a value survives depends on the bit offset left by all previous ones; tests with a fixed number of bits do not reach all offsets", "anchors": ["include/sz_compression_utils.hpp:6-33", "include/sz_decompression_utils.hpp:6-32"]}
{"id": "C66", "title": "What verify reports", "statement": "For a non-empty array verify prints, in exact arithmetic, the extreme values, the largest absolute error, its quotient by the range, the largest relative error among the values of magnitude above one, the peak signal to noise ratio, the normalised root mean square error and the correlation, which lies in [-1, 1]. Hence after compression in the 2D absolute (relative) mode the largest absolute (relative) error printed is at most the bound. A value other than the first whose error is NaN does not change the largest error printed.", "quantifier": "all pairs of arrays of equal positive length", "why_tests_cant": "the numbers are accumulated over the whole array; the claim that they bound every element is about all arrays", "anchors": ["include/utils.hpp:51-106"]}
{"id": "C67", "title": "Critical points kept in files", "statement": "Critical points recorded with their simplex numbers and read back under the same prefix are the same points under the same keys, provided the keys (simplex numbers as int) are distinct; comparing a field with points read from files gives the same counters as comparing it with the points themselves. Points recorded without numbers cannot be read, and no run of the tools writes the file of original points under the name they look for.", "quantifier": "all lists of points with distinct keys, all prefixes, all previous contents of the file system", "why_tests_cant": "the points are split over three files and reassembled by index for any number of points and any iteration order of the hash map; which names a run can write depends on a prefix given by the user", "anchors": ["test/cp_extraction_2d.cpp:149-218", "test/cp_extraction_2d.cpp:228-231", "test/cp_extraction_2d.cpp:300-310", "test/cp_extraction_3d.cpp:211-281", "test/cp_extraction_3d.cpp:304-307"]}
{"id": "C68", "title": "Approximate roots in the 3D offline mode", "statement": "asqrt1 and acbrt1 are within [-2e-7, 5e-7] and [-4e-7, 1.7e-6] (relatively) of the square and cube root of every positive normal float. A 3D offline log pass that computes its bounds with float sums and acbrt1 still reproduces every tetrahedron with a critical point exactly, keeps every sign and the user's relative bound, and keeps the status of every tetrahedron whose own bound is at least 2e-6 above the bounds in use at its corners.", "quantifier": "all positive normal floats, all float arithmetics with relative error 2^-24, all grids and fields whose components are zero or between 2^-41 and 2^39 in magnitude, all user bounds", "why_tests_cant": "the roots start from integer operations on the bit pattern; whether two Newton steps suffice is a statement about all two thousand million floats and about every rounding of the nine operations", "anchors": ["include/sz_cp_preserve_utils.hpp:80-125", "src/sz_compress_cp_preserve_3d.cpp:257-351"]}
{"id": "C69", "title": "The lossless stage gives back the stream", "statement": "If zstd keeps the promises of its manual, every buffer of fewer than 100 or more than 320 bytes comes back unchanged from sz_lossless_compress followed by sz_lossless_decompress: the block allocated for the output is then at least as large as ZSTD_compressBound asks for. From 100 to 319 bytes the block is always smaller, so success is not promised; a failure of zstd is not noticed: its error code is returned as a size, decompressing with it reads outside the block, and sz_lossless_decompress returns the requested size whatever happens.", "quantifier": "all buffers, all contents of freshly allocated memory, all implementations of zstd that keep the documented contract, all roundings of double", "why_tests_cant": "tests compress a handful of large streams with one version of zstd; the capacity is computed in floating point and must suffice for the worst buffer of every length", "anchors": ["src/sz_lossless.cpp:11-62", "include/sz_lossless.hpp:9"]}
{"id": "C70", "title": "The checks of the drivers with one bound per point never fire", "statement": "test/sz_compress_2d_with_eb.cpp, run on any field and any non-negative bounds, passes its own comparison fabs(data[i] - dec_data[i]) > eb[i] for every element; with quantised bounds the result also respects the bounds the user gave. In exact arithmetic the relative comparison of test/sz_compress_test_with_eb.cpp never fires either, and values whose absolute bound is below the threshold come back unchanged. The scratch block for the quantised bounds is too small for four or fewer elements.", "quantifier": "all fields, bounds, grid sizes, thresholds and bases, all arithmetics with symmetric distances", "why_tests_cant": "the drivers are the tests: that they cannot fail on any input is a statement about all inputs, through quantiser, entropy coder, lossless stage and decoder", "anchors": ["test/sz_compress_2d_with_eb.cpp:11-79", "test/sz_compress_test_with_eb.cpp:38-91"]}
{"id": "C71", "title": "Critical points of the 2D absolute mode in floating point", "statement": "Run in float or double arithmetic with correct rounding, the 2D online compressor with an absolute error bound keeps every critical point of the input, and the three vertices of each triangle that contains one are reproduced exactly; and it creates no critical point. The first half holds for all inputs. The second half fails for nearly parallel vectors.", "quantifier": "all fields, all grid sizes, all bounds, all rounding directions, both overloads of fabs, every log2 (first half)", "why_tests_cant": "rounding errors of the sign tests matter for vectors that are parallel up to the last bits; random fields do not contain them", "anchors": ["src/sz_compress_cp_preserve_2d.cpp:724-771", "src/sz_compress_cp_preserve_2d.cpp:989-1242"]}
{"id": "C72", "title": "Recompressing a decompressed field changes nothing", "statement": "If a field that was decompressed from the stream of sz_compress_2d_with_eb or sz_compress_3d_with_eb is compressed again with the same bounds, the stream is the same byte for byte, so errors do not accumulate over repeated cycles. This holds in exact arithmetic and in float and double arithmetic with rounding to nearest.", "quantifier": "all fields, all bounds, all grid sizes and block sizes; all predictions", "why_tests_cant": "the second run could find another code wherever the rounding error of a reconstruction is comparable with the bound; that needs bounds near the last bits of the data", "anchors": ["include/sz_compression_utils.hpp:49-81", "src/sz_compress_3d.cpp:524-567", "include/sz_compress_block_processing.hpp:115-131"]}
{"id": "C73", "title": "Fields of integers come back exactly with the bound one half", "statement": "Data that are integers of moderate size (up to 2^21 in 2D, 2^20 in 3D), compressed with sz_compress_2d_with_eb or sz_compress_3d_with_eb with the bound 1/2 (or 0) at every point, are reconstructed exactly. This holds whatever the rounding of the arithmetic, since all predictions are integers that are computed without error. The bound 1 does not suffice: the one-point field 1 becomes 2.", "quantifier": "all fields of integers in the range, all bounds in {0, 1/2}, all grid sizes and block sizes, all roundings", "why_tests_cant": "a single wrong prediction or a sum that is rounded anywhere in the grid would destroy exactness; the set of fields is unbounded", "anchors": ["include/sz_compression_utils.hpp:49-81", "include/sz_prediction.hpp:10-30", "src/sz_compress_3d.cpp:524-567"]}
{"id": "C74", "title": "The predictors are exact on smooth data and exact predictions cost the middle code", "statement": "Each interpolation formula of the SZ3 mode reproduces all polynomials of the degree that its number of points allows, and no more; the 2D Lorenzo prediction is exact off the first row and column precisely for sums of a function of the row and one of the column; the 3D Lorenzo prediction is exact precisely for sums of three functions of two coordinates each. A value that its prediction meets within the bound gets the middle code and is replaced by the prediction, so smooth data compress to one symbol. In a whole run of the 2D codec with the same bound everywhere, fields of the above form get only the five codes around the middle off the first row and column, although predictions use reconstructed values; for integer fields and the bound 1/2 the codes are the middle code plus the mixed second difference of the input.", "quantifier": "all polynomials, all fields, all grids and block sizes, all bounds; the last part for all roundings", "why_tests_cant": "a wrong coefficient in a formula still decodes within the bound, because the decoder uses the same formula; it only makes the streams larger, which no round-trip test reveals", "anchors": ["include/sz3_utils.hpp:196-214", "include/sz3_utils.hpp:39-75", "include/sz_prediction.hpp:10-30", "src/sz_compress_cp_preserve_2d.cpp:629-664", "src/sz_compress_cp_preserve_3d.cpp:849-884"]}
{"id": "C75", "title": "The sign-keeping bounds of the bilinear mode keep the sign", "statement": "The bounds from which derive_cp_eb_bilinear_online is composed keep the sign of the quantity they are named after under relative changes of the two components of the fourth corner below the bound: the linear form A(1+e1)+B(1+e2)+C (and no larger bound would), the quadratic polynomial (and a bound below one is a root), the quadratic form on the square for cylinders and for saddles; and a cell whose discriminant is negative, which has no zero in the plane, has none after any change within the derived bound. A cell whose elimination polynomial is degenerate (degree below two, root at the edge, double root, opposite roots) gets the bound zero.", "quantifier": "all real coefficients, all cells, all changes below the bound", "why_tests_cant": "the bounds are followed by a verification that reverts wrong reconstructions, so that errors in the bounds never show in an end-to-end test; wrong cases lie in thin sets of the coefficients", "anchors": ["src/sz_compress_cp_preserve_2d_bilinear.cpp:9-42", "src/sz_compress_cp_preserve_2d_bilinear.cpp:44-142", "src/sz_compress_cp_preserve_2d_bilinear.cpp:144-346", "src/sz_compress_cp_preserve_2d_bilinear.cpp:355-595"]}
{"id": "C76", "title": "The sign convention of the components does not matter", "statement": "Compressing a 2D field whose components have their signs flipped gives the same error bound codes, mirrored value codes and negated stored values, and decompresses to the flipped field: in the absolute online mode for either component, in the relative online mode for both together, and for scalar fields in the 2D and 3D codecs with one bound per point.", "quantifier": "all fields, grids, limits, block sizes, sign choices; all symmetric monotone roundings, so float and double", "why_tests_cant": "a test compares a few fields; asymmetric truncation or a sign test on the wrong side shows only for differences at code boundaries and for zero differences", "anchors": ["include/sz_prediction.hpp:1-30", "src/sz_compress_cp_preserve_2d.cpp:390-537", "src/sz_compress_cp_preserve_2d.cpp:544-714", "src/sz_compress_cp_preserve_2d.cpp:724-771", "src/sz_compress_3d.cpp:524-567"]}
{"id": "C77", "title": "The order of the axes does not matter to the codecs with one bound per point", "statement": "The transposed 2D field with the transposed bounds decompresses to the transposed result, for any block sizes; the same holds for every order of the axes of a 3D field.", "quantifier": "all fields, bounds, grids and block sizes; 2D in any arithmetic with commutative addition", "why_tests_cant": "points are visited in another order and blocks are cut at other places, so the streams differ; equality of the results has to hold for all sizes and data", "anchors": ["src/sz_compress_3d.cpp:198-236", "src/sz_compress_3d.cpp:524-567", "include/sz_prediction.hpp:1-30"]}
{"id": "C78", "title": "The unit of the data does not matter", "statement": "Expressing a field (and its absolute bounds) in another unit changes neither the value codes nor which values are stored, and the result decompresses to the field in the new unit: for the 2D online modes in relative and absolute form and for the 2D and 3D codecs with one bound per point.", "quantifier": "all fields, grids, bounds, block sizes; all factors in exact arithmetic and all powers of two in floating point (no overflow or underflow)", "why_tests_cant": "whether a constant hidden in the code is compared with data can only be seen at the scale of that constant; the claim ranges over all scales", "anchors": ["src/sz_compress_cp_preserve_2d.cpp:390-537", "src/sz_compress_cp_preserve_2d.cpp:544-714", "src/sz_compress_cp_preserve_2d.cpp:724-771", "include/sz_prediction.hpp:1-30", "src/sz_compress_3d.cpp:524-567"]}
{"id": "C79", "title": "Reported types describe the eigenvalues", "statement": "The type which the extraction tools report for a critical point says what the eigenvalues of the Jacobian there are: in 2D saddle, node, focus or center; in 3D how many eigenvalues have a negative real part and whether two are complex.", "quantifier": "all Jacobians with nonzero determinant; all fields and grids; every reported entry (exact arithmetic; FTK's eigenvalue solvers assumed exact)", "why_tests_cant": "the classes are open conditions on real matrices separated by surfaces of measure zero; finitely many samples say nothing about the boundary cases nor about all matrices of a class", "anchors": ["test/cp_extraction_2d.cpp:62-106", "test/cp_extraction_3d.cpp:30-38", "test/cp_extraction_3d.cpp:79-117"]}
{"id": "C80", "title": "Extracted critical points do not depend on the unit of the data", "statement": "Expressing the field in another unit changes neither which critical points the extraction tools report nor their positions nor their types.", "quantifier": "all fields and grids, all nonzero factors in 2D (negative ones exchange attracting and repelling), all positive factors in 3D; exact arithmetic", "why_tests_cant": "the effect of a constant compared with data is seen only at the scale of that constant; the claim ranges over all scales and fields", "anchors": ["test/cp_extraction_2d.cpp:62-147", "test/cp_extraction_3d.cpp:79-209"]}
{"id": "C81", "title": "The drivers leave the reconstruction in the .out files", "statement": "A run of the 2D or 3D driver on component files that fit the grid ends with a file NAME.out next to every input NAME, which holds exactly the values the compressor reconstructed, and changes no other file.", "quantifier": "all component files, grids, bounds and user parameters; all contents of new memory; every zstd that keeps its documented contract; the SZ3, relative, absolute, logarithmic and offline modes of the drivers", "why_tests_cant": "the drivers are the tests; whether the chain file, compressor, block, lossless stage, decompressor, file is the identity on reconstructions for every field, and which inputs run out of the allocated block, is a statement about all inputs", "anchors": ["test/sz_compress_cp_preserve_2d_test.cpp:7-58", "test/sz_compress_cp_preserve_3d_test.cpp:7-63", "include/utils.hpp:12-49"]}
{"id": "C82", "title": "Missing values (NaN, infinities) come back, and leave the rest alone", "statement": "A field may contain NaN or infinities, for example as fill values. Every value that is not finite comes back bit for bit, and the finite values around keep the user's bound and their critical points.", "quantifier": "all fields with any number of values that are not finite, all bounds, all results of the undefined conversions of such values to int; the 2D and 3D critical-point modes and the block codecs", "why_tests_cant": "the code has no notion of missing values; they pass through comparisons that are silently false and through conversions that are undefined, in combinations no test data set covers", "anchors": ["src/sz_compress_cp_preserve_2d.cpp:545-714", "src/sz_compress_cp_preserve_2d.cpp:724-771", "include/sz_def.hpp:147-153", "include/sz3_utils.hpp:39-76", "include/sz_compression_utils.hpp:49-81", "src/sz_compress_cp_preserve_3d.cpp:1305-1475"]}
{"id": "C83", "title": "The absolute bound holds in IEEE-754 arithmetic, from bytes to bytes", "statement": "In the 2D mode with an absolute bound every component of the decompressed field differs from the input by at most the user's bound when the code runs in IEEE-754 single and double precision, for every finite input: from the bit patterns of the data to the bit patterns the decompressor returns, with subnormal numbers, overflow and signed zeros.", "quantifier": "all grids, all fields of finite float or double values, all bounds, every log2 of the stated accuracy, both overloads of fabs, every result of the conversions C++ leaves undefined", "why_tests_cant": "the bound passes through a minimum over derived bounds that may be NaN or infinite; a test with ordinary data never reaches overflow, and no test covers all bit patterns", "anchors": ["src/sz_compress_cp_preserve_2d.cpp:724-771", "src/sz_compress_cp_preserve_2d.cpp:989-1242", "include/sz_def.hpp:147-153", "include/sz_cp_preserve_utils.hpp:14-22", "src/sz_decompress_cp_preserve_2d.cpp:109-165"]}
{"id": "C84", "title": "The absolute bound of the 3D mode holds in IEEE-754 arithmetic, from bytes to bytes", "statement": "In the 3D mode with an absolute bound every component of the decompressed field differs from the input by at most the user's bound when the code runs in IEEE-754 single and double precision, for every finite input: from the bit patterns of the data to the bit patterns the decompressor returns, whatever the critical point test flags.", "quantifier": "all grids, all fields of finite float or double values, all bounds, all bitmaps of flagged cells, every log2 of the stated accuracy, every result of the conversions C++ leaves undefined", "why_tests_cant": "the bound of a vertex is a minimum over up to 24 tetrahedra of quotients of sums of triple products that may overflow; ordinary test data never reach that, and no test covers all bit patterns", "anchors": ["src/sz_compress_cp_preserve_3d.cpp:1155-1239", "src/sz_compress_cp_preserve_3d.cpp:1305-1475", "include/sz_def.hpp:147-148", "include/sz_cp_preserve_utils.hpp:14-22", "src/sz_decompress_cp_preserve_3d.cpp:205-280"]}
{"id": "C85", "title": "The relative bound of the 2D mode holds in IEEE-754 arithmetic, from bytes to bytes", "statement": "In the 2D mode with a relative bound every component of the decompressed field differs from the input by at most the user's bound times its magnitude when the code runs in IEEE-754 single and double precision, for every finite input: from the bit patterns of the data to the bit patterns the decompressor returns.", "quantifier": "all grids, all fields of finite float or double values, all relative bounds up to 1, every log2 of the stated accuracy, every sqrt that gives no NaN for numbers that are not negative, every result of the conversions C++ leaves undefined", "why_tests_cant": "the bound of a vertex is a minimum over formulas with square roots, products of four values and quotients that may overflow, underflow or become NaN; no test covers all bit patterns", "anchors": ["src/sz_compress_cp_preserve_2d.cpp:390-537", "src/sz_compress_cp_preserve_2d.cpp:545-714", "src/sz_compress_cp_preserve_2d.cpp:52-61", "include/sz_def.hpp:147-148", "include/sz_cp_preserve_utils.hpp:14-22", "src/sz_decompress_cp_preserve_2d.cpp:109-165"]}
{"id": "C86", "title": "In IEEE-754 arithmetic the index arrays stay inside the tables of the entropy coder", "statement": "For data and bounds of moderate size (float: up to 2^60, 2^58 in the relative mode, 2^38 in 3D; double: up to 2^400, 2^248, 2^300) the 2D absolute, 2D relative and 3D absolute compressors, computing in IEEE-754 arithmetic, hand to the entropy coder only bound codes in [0, 2*1024) and data codes in [0, 2*65536): the histogram, code and length tables are never accessed out of bounds, whatever the undefined conversions to int give. A single finite fill value breaks this: the code of the bound becomes the conversion of infinity to int.", "quantifier": "all grids, all fields of float or double bit patterns within the size limits, every log2 of the stated accuracy, every sqrt, every result of the conversions C++ leaves undefined, both overloads of fabs, all bitmaps of critical points", "why_tests_cant": "the codes are truncated logarithms and quotients of rounded values; whether one of them can leave the table depends on every rounding and overflow", "anchors": ["src/sz_compress_cp_preserve_2d.cpp:629-709", "src/sz_compress_cp_preserve_2d.cpp:1080-1237", "src/sz_compress_cp_preserve_3d.cpp:1351-1470", "include/sz_cp_preserve_utils.hpp:14-22", "src/sz_huffman.cpp:60-76", "src/sz_huffman.cpp:195-211"]}
{"id": "C87", "title": "Block codecs on arbitrary bit patterns: bound kept in IEEE-754 arithmetic, NaN and infinities exact", "statement": "Whatever float bit patterns the input contains (NaN, infinities, subnormal numbers, huge values), sz_compress_2d / sz_compress_3d with a finite positive precision and sz_compress_2d_with_eb with finite bounds that are not negative (float or double data) write a stream from which the decompressor obtains, at every point, either the same bits as the input or a finite value whose distance from the finite input is at most (1 + 2^-24) times the precision of that point (2^-53 for double). NaN and infinities therefore keep their bits; points with bound zero too. The factor is needed: a field with a distance above the bound exists.", "quantifier": "all bit patterns as data, all finite positive precisions (bounds: finite, not negative), all grid and block sizes, all selections of regression blocks and coefficients (NaN included), all radii and means of the 3D codec, dependent and independent blocks, every result of conversions to int that C++ leaves undefined", "why_tests_cant": "a test fixes data; the claim covers every overflow, underflow, rounding and NaN in prediction, quantisation and reconstruction at once", "anchors": ["include/sz_compression_utils.hpp:49-99", "include/sz_decompression_utils.hpp:50-73", "include/sz_prediction.hpp:4-28", "include/sz_compress_block_processing.hpp:26-280", "src/sz_compress_3d.cpp:11-120", "src/sz_compress_3d.cpp:124-236", "src/sz_compress_3d.cpp:318-436"]}
{"id": "C88", "title": "No critical point of moderate data is lost in IEEE-754 arithmetic (2D absolute mode, bytes to bytes)", "statement": "sz_compress_cp_preserve_2d_online_abs on float data of magnitude at most 2^60 (double: 2^400), bound of the user in the same range, NaN-free: after sz_decompress_cp_preserve_2d_online of the bytes, the six values at the vertices of every mesh triangle whose linear interpolant has a zero are the same bits as in the input, so the triangle still has its critical point. This includes all roundings, underflow and subnormal values, and both overloads of fabs. Outside these magnitudes a critical point can be lost (a fill value of 2^120 suffices), and critical points can be created even for small integers; both are shown by concrete bytes.", "quantifier": "all fields of bit patterns of that magnitude, all grid sizes below 2^59 vertices, all bounds, all triangles, any log2 accurate to 2^-30, any result of undefined conversions, anything behind the stream", "why_tests_cant": "a test fixes a field; the claim covers every rounding, underflow and overflow pattern of the determinants, of their sum and of the quotients in all triangles", "anchors": ["src/sz_compress_cp_preserve_2d.cpp:724-771", "src/sz_compress_cp_preserve_2d.cpp:989-1242", "src/sz_decompress_cp_preserve_2d.cpp:109-166"]}
{"id": "C89", "title": "The driver for unstructured meshes: from files to files", "statement": "sz_compress_cp_preserve_3d_unstructured_test on a file of 4*m indices, a file of 3*n coordinates and a file of data leaves in <data>.out exactly the compressor's reconstruction of the n vertices, in the layout of the data file, and changes no other file. It gets to its end only if the numbers of indices and coordinates are multiples of 4 and 3, the data cover at least n vertices (more are dropped without a message) and every index is that of a point; the coordinates themselves have no influence on the output.", "quantifier": "all meshes, all contents of the files, all data, any arithmetic, any correct lossless stage", "why_tests_cant": "a test runs one mesh; the claim covers every mesh and every content of the files, including meshes so small that the output block is overrun", "anchors": ["test/sz_compress_cp_preserve_3d_unstructured_test.cpp:8-54", "src/sz_compress_cp_preserve_3d.cpp:985-1145", "src/sz_decompress_cp_preserve_3d.cpp:120-196"]}
{"id": "C90", "title": "The interpolation based mode in IEEE-754 arithmetic", "statement": "sz3_compress_cp_preserve_2d_online_abs followed by sz3_decompress_cp_preserve_2d_online, on float data and a bound of at most 2^60 (double: 2^400), compress and decompress without failure; every component that comes back is a number within (1+2^-22) times (double: 1+2^-29) the bound of the user, and the vertices of every triangle with a critical point come back bit for bit, so none is lost. The factor cannot be dropped: the quantiser rounds the distances it compares, and with the bound 1 a value can come back 1+2^-30 away. Critical points can be created, and beyond the size limit they can be lost.", "quantifier": "all grids of at least 3 (double: 2) and fewer than 2^59 vertices, all finite bit patterns of that size, all bounds, every log2 accurate to 2^-30, any result of the conversions to int that C++ leaves undefined", "why_tests_cant": "rounding of predictions, differences and reconstructions depends on every bit of the data; the bound can be exceeded by less than a test would notice", "anchors": ["src/sz_compress_cp_preserve_2d.cpp:1540-1811", "src/sz_decompress_cp_preserve_2d.cpp:160-369", "include/sz3_utils.hpp:20-215"]}
{"id": "C91", "title": "Critical points of the 3D absolute mode in IEEE-754 arithmetic", "statement": "If the critical point test of compute_cp flags every tetrahedron in which the linearly interpolated field has a zero, then sz_compress_cp_preserve_3d_online_abs followed by sz_decompress_cp_preserve_3d_online_abs, on float data and a bound of at most 2^38 (double: 2^300), loses no critical point: the vertices of every such tetrahedron come back bit for bit. Critical points can be created on moderate data even if the test is right about every tetrahedron, and if the test misses one, the error bounds do not protect it.", "quantifier": "all grids of fewer than 2^58 vertices with at least one coded value, all finite bit patterns of that size, all bounds, every test that misses no critical point, every log2 accurate to 2^-30, any result of the conversions to int that C++ leaves undefined", "why_tests_cant": "the determinants of near-degenerate tetrahedra have the wrong sign after rounding for rare combinations of values only", "anchors": ["src/sz_compress_cp_preserve_3d.cpp:1156-1303", "src/sz_compress_cp_preserve_3d.cpp:1305-1475"]}
{"id": "C92", "title": "Vertices with a zero component come back bit for bit in IEEE-754 arithmetic", "statement": "In the 2D and 3D absolute modes and the 2D relative mode, every vertex one component of which is zero (of either sign; masked regions, walls) is returned with exactly the bits of the input in all components. In the absolute modes this holds for every other content of the field (NaN, infinities, huge values) and every bound, in the relative mode for data of at most 2^58 (double: 2^248).", "quantifier": "all grids, all bit patterns as data and as bound (relative mode: of that size), every bitmap of critical points, every log2 of the stated accuracy, both overloads of fabs, every index array that the entropy coder can represent", "why_tests_cant": "the relative mode has no test for zeros, the claim depends on the bound of the zero component being computed as 0 after every possible history of the neighbours", "anchors": ["src/sz_compress_cp_preserve_2d.cpp:1053-1130", "src/sz_compress_cp_preserve_2d.cpp:609-690", "src/sz_compress_cp_preserve_3d.cpp:1351-1446"]}
{"id": "C93", "title": "The 2D log mode in IEEE-754 arithmetic", "statement": "For float and double bit patterns, sz_compress_cp_preserve_2d_online_log followed by sz_decompress_cp_preserve_2d_online_log returns, for every component, a number with the sign of the original whose relative error is at most the user's bound plus 2^-14; zeros come back bit for bit. Claimed for data that are zero or of magnitude between 2^-97 and 2^58 (double: 2^124); for all finite data it is false, a finite value near the top of the range comes back infinite.", "quantifier": "all grids of fewer than 2^59 vertices, all bit patterns of that size, every relative bound of at most 1, every log2/log2f/exp2/sqrt of the stated accuracy, both overloads of fabs, every result of an undefined conversion to int, every data behind the stream; for every index array with code words of at most 64 bits", "why_tests_cant": "the error is the composition of a rounded logarithm, a quantisation with feedback into the bounds of the later vertices, and a rounded exponential, over all data and all accurate math libraries", "anchors": ["src/sz_compress_cp_preserve_2d.cpp:773-979", "src/sz_decompress_cp_preserve_2d.cpp:175-252", "include/sz_cp_preserve_utils.hpp:133-149"]}
{"id": "C94", "title": "The self contained entropy coded stream", "statement": "encode_withTree followed by decode_withTree returns the array; the first two big endian words of the stream are the number of tree nodes and half the number of states, and a tree object made for that stored number of intervals (even number of states) suffices for reading. Everything encode_withTree writes lies inside the block it allocates. The last part is false for short arrays: for every array of one element the stream is four bytes longer than the block.", "quantifier": "all non-empty arrays of symbols below the number of states (at most 2^26), all evaluation orders of the merge loop, all contents of the memory, all continuations of the stream, code words of at most 64 bits; bounds: sixteen or more elements and code words of at most 24 bits", "why_tests_cant": "heap writes behind a small block usually go unnoticed, and the stream layout depends on the node count through three size classes", "anchors": ["src/sz_huffman.cpp:26-56", "src/sz_huffman.cpp:651-709"]}
{"id": "C95", "title": "The structured 3D log mode in IEEE-754 arithmetic", "statement": "For float and double bit patterns, sz_compress_cp_preserve_3d_online_log followed by sz_decompress_cp_preserve_3d_online_log returns, for every component, a number with the sign of the original whose relative error is at most the user's bound plus 2^-14. No quantised bound of such a run is taken for an escape by the decompressor. Claimed for nonzero data of magnitude between 2^-97 and 2^38 (double: 2^124); for all finite data it is false, a finite value near the top of the range comes back infinite.", "quantifier": "all grids of fewer than 2^58 vertices, all bit patterns of that size, every relative bound of at most 1, every log2/log2f/exp2 of the stated accuracy, every result of an undefined conversion to int, every data behind the stream; for every index array that is not empty and has code words of at most 64 bits", "why_tests_cant": "the error is the composition of a rounded logarithm, a quantisation with feedback into up to 24 tetrahedra per later vertex, and a rounded exponential, over all data and all accurate math libraries", "anchors": ["src/sz_compress_cp_preserve_3d.cpp:597-974", "src/sz_decompress_cp_preserve_3d.cpp:7-110", "include/sz_cp_preserve_utils.hpp:30-46"]}
{"id": "C96", "title": "The unstructured log mode in IEEE-754 arithmetic", "statement": "For float and double bit patterns, sz_compress_cp_preserve_3d_unstructured followed by sz_decompress_cp_preserve_3d_unstructured returns, for every component, a number with the sign of the original whose relative error is at most the user's bound plus 2^-14. Claimed for nonzero data of magnitude between 2^-97 and 2^38 (double: 2^124); with zeros it is false, the vector (0, 3, 3) comes back as (0, -4, 4).", "quantifier": "all numbers of vertices n with 3n below 2^31, all index arrays with valid vertex numbers (cells may repeat or be degenerate), all bit patterns of that size, every relative bound of at most 1, every log2/log2f/exp2 of the stated accuracy, every result of an undefined conversion to int, every data behind the stream; for every index array that is not empty and has code words of at most 64 bits", "why_tests_cant": "the bound of a vertex depends on all cells around it and on the already changed neighbours; the claim ranges over all meshes, all data and all accurate math libraries", "anchors": ["src/sz_compress_cp_preserve_3d.cpp:985-1145", "src/sz_decompress_cp_preserve_3d.cpp:112-196"]}
{"id": "C97", "title": "What verify reports about arrays of IEEE-754 numbers", "statement": "Called on two non-empty arrays of finite float or double bit patterns, verify prints as maximal absolute error the rounded error of one element. If the printed number is below a number b of the element type, every exact error is below b; if every exact error is at most b, the printed number is at most b. The printed minimum and maximum are those of the original, and the printed range is their rounded difference. A NaN in the reconstruction behind the first element is not reported: the printed maximal errors can be 0.", "quantifier": "for every format, both arrays of any length, every number b of the format, whatever sqrt and log10 return", "why_tests_cant": "The report is the oracle of the tests themselves; whether a small printed error excludes a large one in some element depends on rounding and on comparisons with NaN over all arrays.", "anchors": ["include/utils.hpp L51-106"]}
{"id": "C98", "title": "Zeros survive the structured 3D log mode on IEEE-754 numbers", "statement": "Compress, with a relative bound of at most 1, data whose components are zero or of moderate size in the structured 3D mode that codes logarithms, then decompress the bytes: every zero component comes back as a zero, and every nonzero component comes back with its sign and a relative error of at most the user's bound plus 2^-14. The compressor itself continues with a tiny nonzero number in the place of a zero.", "quantifier": "all grids of fewer than 2^58 vertices, all bit patterns that are zero or between 2^-97 and 2^38 (double: 2^124) in size, every relative bound of at most 1, every log2/log2f/exp2 of the stated accuracy, every data behind the stream; for every index array that is not empty and has code words of at most 64 bits", "why_tests_cant": "Zeros are coded as the logarithm -100 and recognised by a comparison with -99 after prediction, quantisation and rounding; that no bound and no neighbourhood moves a coded zero above -99 or a coded nonzero component below it is a statement about all data.", "anchors": ["src/sz_compress_cp_preserve_3d.cpp:597-974", "src/sz_decompress_cp_preserve_3d.cpp:7-110", "include/sz_cp_preserve_utils.hpp:30-46"]}
{"id": "C99", "title": "The modes with a relative bound keep every sign in IEEE-754 arithmetic", "statement": "In the 2D mode with a relative bound, the 2D log mode, the structured 3D log mode and the log mode for unstructured meshes, every component of every vertex comes back from the bytes positive, negative or zero as it was. Hence a cell on whose vertices one component has one strict sign contains no critical point, neither of the input nor of the result. For other cells this fails: with the bound 1/2 and integer data below 2^24 the 2D mode creates a critical point.", "quantifier": "all grids, meshes and bit patterns with the limits on the size of the data of C85, C93, C96 and C98, every relative bound below 1 (double, 2D relative mode: 1 - 2^-29; log modes: at most 1), every log2/log2f/exp2/sqrt of the stated accuracy, anything behind the stream; zeros included except in the unstructured mode", "why_tests_cant": "that a sign survives is the composition of prediction, quantisation, rounding and entropy coding over all data; a test sees the signs of its own data sets only", "anchors": ["src/sz_compress_cp_preserve_2d.cpp:545-714", "src/sz_compress_cp_preserve_2d.cpp:773-980", "src/sz_compress_cp_preserve_3d.cpp:597-974", "src/sz_decompress_cp_preserve_3d.cpp:7-110"]}
{"id": "C100", "title": "The bilinear mode keeps its relative error bound in IEEE-754 arithmetic", "statement": "For data that are zero or of magnitude between 2^-97 and 2^124 and a relative bound of at most 1, the 2D mode for bilinear cells runs in IEEE-754 arithmetic, and every component that the decompressor reads from the bytes is a number with the sign of the original and a relative error of at most the bound of the user plus 2^-14; zeros come back bit for bit. This holds whatever the extraction of critical points and sqrt return. Without the limit it fails: 1.5*2^127 can come back as infinity.", "quantifier": "all grids with fewer than 2^59 vertices, all float and double bit patterns within the limits, every log2/log2f/exp2 of the stated accuracy, every sqrt, every extraction and classification of critical points in the verification, anything behind the stream", "why_tests_cant": "the derived bound divides polynomials of degree four of the data; one NaN among them would switch the bound of the user off, and tests cannot cover the data for which an intermediate result overflows or vanishes", "anchors": ["src/sz_compress_cp_preserve_2d_bilinear.cpp:9-595", "src/sz_compress_cp_preserve_2d_bilinear.cpp:755-1070", "src/sz_decompress_cp_preserve_2d.cpp:175-252"]}
{"id": "C101", "title": "The bilinear mode keeps critical points, their types and the signs in IEEE-754 arithmetic", "statement": "For double data that are zero or of magnitude between 2^-97 and 2^124 and a relative bound of at most 1, the extraction of critical points that the 2D mode for bilinear cells uses finds in every cell of the field read back from the bytes as many critical points as in the input, of the same types in the same order. For float data this holds if exp2 is computed in single precision. Every component of every vertex keeps its sign, so that a cell on whose corners one component has one strict sign has no critical point, neither of the input nor of the result.", "quantifier": "all grids with fewer than 2^59 vertices, all cells, all bit patterns within the limits, every log2/log2f/exp2 of the stated accuracy, every sqrt, every extraction and classification of critical points, anything behind the stream", "why_tests_cant": "every vertex is verified against values that later vertices still change, in an order fixed by the scan; the claim is about the bits that the decompressor computes, not about the values that the compressor verified", "anchors": ["src/sz_compress_cp_preserve_2d_bilinear.cpp:719-753", "src/sz_compress_cp_preserve_2d_bilinear.cpp:830-1042", "src/sz_decompress_cp_preserve_2d.cpp:175-252"]}
{"id": "C102", "title": "The relaxed 2D mode in IEEE-754 arithmetic, from bytes to bytes", "statement": "For float and double data of any kind, NaN and infinite values included, and a bound of at least 16 thresholds (2^-48) and at most 2^121 (float) or 2^399 (double), the relaxed 2D mode writes a stream if no code word of the data codes exceeds 64 bits, and from that stream, whatever follows it, the decompressor obtains exactly the field the compressor left in the array. A component that is a number of at most 2^125 (2^1021) comes back as a number at a distance of at most 17/16 of the bound plus 2^-22 of its magnitude (double: 1+2^-28 of the bound plus 2^-51 of the magnitude). Zero vectors and the vertices of triangles that test positive come back bit for bit. A triangle that tests negative either comes back bit for bit or tests negative with its vertices taken in some order; it can test positive, and hold a critical point, with its vertices in the order of the extraction.", "quantifier": "all grids with fewer than 2^59 vertices, all bit patterns, every log2 of the stated accuracy, every outcome of the conversions that C++ leaves undefined, anything behind the stream", "why_tests_cant": "the cell test rounds, and depends on the order of the vertices, which differs between the verification and the extraction; whether all of the tried bounds have valid codes and how rounding adds up is a matter of all bounds and all bit patterns", "anchors": ["src/sz_compress_cp_preserve_2d.cpp:1251-1325", "src/sz_compress_cp_preserve_2d.cpp:1328-1511", "src/sz_decompress_cp_preserve_2d.cpp:87-173"]}
{"id": "C103", "title": "check_cp in IEEE-754 arithmetic against the exact geometry", "statement": "On three float or double vectors whose components are integers of magnitude at most 512, times a power of two 2^k for which products stay in the range of the format, check_cp answers yes only if the linear interpolant has a zero in the closed triangle. It answers yes if the triangle is not degenerate and the zero lies in its interior, and no if the triangle is degenerate. A zero on an edge can be missed in float, and whether it is missed depends on the order of the vertices.", "quantifier": "all such vectors, both element types", "why_tests_cant": "2^60 combinations of values with four roundings behind exact determinants; the failing cases are those where two rounded quotients add up to more than 1", "anchors": ["src/sz_compress_cp_preserve_2d.cpp:1251-1298"]}
{"id": "C104", "title": "The relaxed 2D mode on fixed-point data keeps and adds no inner critical points", "statement": "Let all components of a float or double field be multiples of 2^k, -50 <= k <= 50, of magnitude at most 256 units 2^k, and the bound be between 8 and 128 units. Then what the decompressor reads back from the stream of the relaxed 2D mode are multiples of 2^k of at most 512 units. Every triangle of the mesh with a critical point in its interior, and a linear interpolant that is not degenerate, comes back bit for bit. No triangle without a critical point has such an inner critical point afterwards.", "quantifier": "all grids with fewer than 2^59 vertices, all such data and bounds, every log2 of the stated accuracy, anything behind the stream", "why_tests_cant": "the cell test rounds and is applied to values produced by a history of tentative updates; that no combination of quotients crosses a limit is a matter of all fields", "anchors": ["src/sz_compress_cp_preserve_2d.cpp:1251-1325", "src/sz_compress_cp_preserve_2d.cpp:1328-1511", "src/sz_decompress_cp_preserve_2d.cpp:110-166"]}
{"id": "C105", "title": "The entropy coder frees every block of memory exactly once", "statement": "Compressing a non-empty array of symbols below state_num, Huffman_encode_tree_and_data uses and frees only allocated blocks, and afterwards exactly the blocks are allocated that were allocated before: no double free, no leak, no block of the caller's freed; it allocates eleven blocks plus one per distinct symbol. Huffman_decode_tree_and_data leaves exactly one block more, the array it returns. With a symbol not below state_num the encoder writes outside an array.", "quantifier": "all symbol arrays, all state_num, all states of the heap, both evaluation orders of the tree construction", "why_tests_cant": "leaks and double frees are silent in ordinary runs; which blocks exist depends on the set of occurring symbols", "anchors": ["src/sz_huffman.cpp: createHuffmanTree, build_code, init, convert_HuffTree_to_bytes_anyStates, reconstruct_HuffTree_from_bytes_anyStates, SZ_ReleaseHuffman", "src/sz_compression_utils.cpp: Huffman_encode_tree_and_data", "src/sz_decompression_utils.cpp: Huffman_decode_tree_and_data"]}
{"id": "C106", "title": "The compressors and decompressors leave no block of memory behind", "statement": "Every compressor returns with exactly one more block allocated than before, the stream; every decompressor frees the component arrays it is given and leaves exactly the new ones; no block is freed twice or after the caller took it over.", "quantifier": "all modes, all symbol arrays of the entropy coder, all states of the heap, null or allocated component arrays", "why_tests_cant": "leaks and double frees are silent in ordinary runs", "anchors": ["src/sz_compress_cp_preserve_2d.cpp", "src/sz_compress_cp_preserve_2d_bilinear.cpp", "src/sz_compress_cp_preserve_3d.cpp", "src/sz_decompress_cp_preserve_2d.cpp", "src/sz_decompress_cp_preserve_3d.cpp", "src/sz_compress_3d.cpp: sz_compress_2d_with_eb", "src/sz_decompress_3d.cpp: sz_decompress_2d_with_eb"]}
