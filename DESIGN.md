# cpSZ: formal model and proofs

Target: `szcompressor/cpSZ` at the pinned commit in `/repo` (C++).  The model is
written in Lean 4 under `lean/Verif`.  Properties are listed in
`properties.jsonl`; `MANIFEST.json` maps each property to theorem names.

## How the code is modelled

Four layers, each faithful to a different aspect of the C++ code.

1. **Byte layer.**  Streams are lists of bytes (or a memory, a function from addresses to bytes, where the
   code overwrites or ORs into a buffer).  Fixed width integers are little endian
   byte strings (x86-64, the only platform for which the `memcpy` based format is
   meaningful).  Huffman coding, tree serialisation, sign bitmaps, headers and
   buffer sizes live here.  Undefined behaviour (null dereference, shift by the
   width, out of bounds access) is an explicit outcome (`none`) or an arbitrary
   parameter, never assumed away.
2. **Arithmetic-agnostic layer.**  Compressors and decompressors are functions
   over a record of *uninterpreted* operations (`+ - * / fabs < <= log2 pow
   exp2 trunc` at element type `T` and at `double`).  Theorems at this layer (the
   decoder reproduces the encoder's mirror, codes stay in range, accepted values
   passed the error test) hold for every interpretation of the operations, so in
   particular for IEEE-754 with any rounding, NaN and infinities, as long as the
   compiler evaluates the same expression to the same value in both programs.
3. **Exact layer.**  The same bound formulas over the real numbers (or any
   linearly ordered field where no square root or logarithm occurs).  The
   topological statements (critical points and types) are proved here.  The gap
   between exact and floating point evaluation of the bound formulas is *not*
   closed; it is stated in each affected property.  Where rounding decides (C10,
   C11, C21, C55-C58), a *rounded* interpretation is used: exact operations followed by any
   monotone odd rounding (`IsRounding`), or the concrete `fl rnd p` with `p` bits
   (Rounding.lean).
4. **IEEE-754 layer.**  Elements and `double`s are bit patterns (`Ieee/Bits.lean`), every operation
   decodes, computes exactly over ℚ, rounds to nearest even with subnormal numbers and overflow,
   and encodes, with signed zeros, infinities and NaN.  It is computable, so runs on bit patterns
   are evaluated by the kernel, and finite, so the theorems about bytes apply to it.  Theorems
   assume only a contract (`IsIeee`) that this arithmetic is proved to meet (`bits_ieee`).

## Trusted base

* the Lean 4.33.0 kernel; the axioms `propext`, `Classical.choice`, `Quot.sound`
  (whatever subset `#print axioms` reports); no other axioms, no `sorry`, no
  `native_decide`, no `bv_decide`;
* the transcription of the C++ functions into Lean, each definition citing file
  and lines; simplifications are named in the comment of the definition;
* for the IEEE-754 layer: `float` and `double` are binary32 and binary64, rounding to nearest, no
  contraction to fused operations and no excess precision (`-O2` on x86-64 as in CMakeLists.txt);
  `log2` of the library accurate as stated in `LogOk` and exact for 4;
* not modelled: zstd itself (only its documented contract, C69), FTK (`ftk::...` calls; those of the extraction tools are replaced by the formulas stated in Extract/*),
  printing, timing, failing file operations, memory allocation failure, argument parsing in
  the test drivers (of the drivers `verify`, C66, the lossless stage, C69, and the two drivers with one bound per
  point, C70, are modelled; the drivers of the critical-point modes from file to file, C81; file I/O of
  the extraction tools, C67).

## Plan per property

See the table at the end of this file (kept current while the proofs grow).

| id | model | proof idea |
|----|-------|-----------|
| C01 | heap, tree building, code table, bit writer, tree bytes, decoder | bit writer = concatenation of code words; decoder walk inverts it; tree bytes round trip |
| C02 | as C01 | induction over the queue operations: the multiset of leaves is invariant |
| C03 | as C01; `Huffman/Trie.lean` is the same queue on a binary tree of slots, proved equal to the list model, for evaluation by the kernel only | false: a Fibonacci histogram of 66 symbols (fewer than 2^48 elements) gives a comb of depth 65 whatever the argument evaluation order; a histogram of 700 symbols and 1897276100 elements (fewer than 2^31) gives depth 67 because `qremove` does not restore the heap order, with two sibling leaves at depth 65; the writer ignores bit 65 when it is not byte aligned, so two arrays get the same bytes; partial theorem for at most 65 symbols |
| C04 | as C01; heap order of the queue | Huffman's exchange argument on code lengths with Kraft's inequality: optimal among all prefix codes if every merge joins two least frequent entries; the first merge does (heap after the insertions); false in general: witness histogram whose code is longer than another prefix code |
| C05 | bit writer on a memory | invariant relating pointer, missing bits, written region |
| C06 | tree serialisation | pre-order numbering induction, three widths |
| C07 | queue with explicit null | counterexample theorem and positive part |
| C08 | bitmap functions | induction on bytes |
| C09 | header reads/writes | round trip lemmas |
| C10, C11 | quantiser, both layers | case analysis; floor arithmetic |
| C12 | `eb_exponential_quantize` over ℝ | floor of a logarithm |
| C13, C14 | 2D online encoder/decoder | simulation invariant along the raster scan |
| C15, C16, C41 | bound formulas over ℝ | sign analysis of 2×2 minors; quadratic bound for the discriminant |
| C17 | neighbour tables | linear arithmetic on grid coordinates, exhaustive over the six table rows |
| C18, C19 | log mode | as C13/C15 |
| C20 | absolute mode | as C13/C15 |
| C21, C22 | relaxed mode (Relax/*) | round trip by lockstep where no bound has code zero; error bound over ℝ by an invariant of the scan; cells by an invariant over the tentative updates (cells not yet complete are untouched or were tested after their last update); witnesses evaluated step by step, one of them in rounded arithmetic (`fl`, Rounding.lean) |
| C23–C25 | SZ3 mode (Sz3/*) | the interpolation passes are reduced to a list of events (position, coordinates, predictor); C23: arithmetic of multiples of the stride, every event reads earlier events only; C24: lockstep induction over the events; C25: invariant along the run over ℝ, exact 2 by 2 witness for the non-strict bound |
| C26 | 3D tables | as C17 |
| C27–C30 | 3D modes | as 2D; witnesses for sentinel collision, zero handling, sign misalignment |
| C31, C32, C43, C44 | block codec (Block/*) | the loops are reduced to a list of events (block start, point, buffer shift) shared by encoder and decoder; lockstep induction over events; closed forms give tiling and buffer bounds; C43: the rolling buffer refines the whole grid, whose reconstruction equation has one solution |
| C33 | offline modes (Offline2D/*) | exact condition for agreement of the two bounds; whole stream from the block codec round trip with bounds per point; witnesses on one row |
| C34, C46 | offline bound (Offline2D/Bound) | a sum of monomials of degree d keeps its sign when its arguments change by relative errors below the bound of `max_eb_to_keep_sign`; applied to minors, determinant, trace, discriminant; minimum over incident triangles gives the grid; end to end over ℝ with the block codec |
| C47, C48 | bilinear mode (Bilinear/*) | the verification is moved into the plan of the generic per-vertex mode, which gives round trip and error bound; the types found in each cell are an invariant of the scan for any extraction; over ℝ the extraction finds exactly the zeros of regular cells (eigenvalue problem), two zeros of a cell have determinants of opposite sign, which gives a bijection; exact witness on one degenerate cell |
| C49, C50 | 3D offline log mode (Offline3D/*) | the sweep over the six tetrahedra per cube is a fold over in-bounds cells; the decoder result is described through the coded logarithms (`lockstep_dec`) because the compressor's reconstruction is not used; the bound keeps the sign of one minor and of the sum of the other three under simultaneous perturbation (Offline3D/Bound.lean); C49 any arithmetic, C50 exact arithmetic |
| C51, C52 | 2D extraction tool (Extract/Report.lean, Extract/Two.lean) | the hash map is an association list filled in call order, iterated in any order (`List.Perm`); the test of a triangle is equivalent to a specification with weights and Jacobian (`checkTri_iff`); the counters are counted over the lists; C52 combines this with C14-C16, C19, C20, C22: a triangle has the same entry in both fields up to the position (`SameTri`) |
| C53, C54 | 3D extraction tool (Extract/Three.lean) | as C51; Jacobian and characteristic polynomial are Mathlib matrices and `Matrix.charpoly` (the tool computes X⁻¹U, which is similar to the Jacobian UX⁻¹); C54 from C27, C29, C50: critical cells are exact and no cell gains a critical point, so the maps are equal |
| C55 | online modes over `roundedOps` (FloatErr.lean, RoundedRun.lean) | quantised bounds are powers of two times a power of two, so the acceptance test in rounded arithmetic bounds the exact difference, and with `p` bits and rounding to nearest leaves a margin of `2^(-p-2)`; the bound itself exceeds the requested one by at most two roundings in `double` and the error of `log2`; invariant of the scan; the bounds derived per cell are arbitrary reals |
| C56 | log modes over `roundedL` (LogRounded.lean) | the quantised bound exceeds `log2(1 + eb)` by at most a factor; acceptance test as in C55; `log2f` and `exp2` are any functions with absolute error `2^-16` and relative error `2^-22`; the bound is proved with `2^-14` added (partial), the bound itself is refuted by a run with correctly rounded functions |
| C57 | bound formulas with a rounding after every operation (Bound2DRounded.lean) | positive part: an invariant of the scan over the mirror arrays the run goes through (`Reach`); the acceptance test as in C55 turns a computed bound not above the exact one into a change below the exact one, then the lemmas of C14-C16 apply to every step; negative part: four `float` vectors for which the computed bound is 1/3 and the exact one about 10^-7, evaluated for every rounding to nearest (`derive_wit`), whole run |
| C58 | the rounded interpretations of the block codecs and of the interpolation based mode | a rounded difference `|r x| <= P` means `|x| <= κ P` with `κ = 1 + 2^-24` (float, nearest) or `1 + 2^-52` (double) (`Back`, `fl_back`); the block codecs through the lockstep theorem of C31/C37/C44, the interpolation based mode through an invariant of the scan; the quantised bound of that mode is a power of two (`ebQuant_any`); witnesses evaluated for every rounding to nearest |
| C35 | sizes (Props/Sizes) | length of every section of the stream; Huffman sections have at least 20 bytes |
| C59 | `sz_compress_3d`, `sz_decompress_3d`, rolling buffer | refinement: the events on the buffer are simulated by the same events on the whole grid padded with a zero border (`Block/Buffer3.lean`: which buffer cells hold which grid points after every event, for dependent and independent blocks), then the padded grid is shown to be a fixed point of the stated equation; the choice of predictors is arbitrary |
| C60 | `sz_compress_3d_with_eb`; a decompressor as specification | round trip through the lockstep theorem, values through the refinement of C59, uniqueness of the fixed point gives independence of the block size |
| C61 | `compute_regression_coeffcients_2d/3d` (Block/Fit) | the running totals are the weighted sums; the gradient of the sum of squares vanishes at the computed coefficients; the difference of two sums of squares is a sum of squares of the difference of the planes, zero only for equal coefficients |
| C62 | `sz_blockwise_selection_2d/3d` and their callers (Block/Fit) | loops as sums over the diagonals; congruence of folds for locality; C59 for independent blocks |
| C63 | `optimize_quant_invl_3d`, `sz_compress_3d`, `sz_compress_2d` with all choices (Block/Optimize) | sampling terminates (C45), histogram = counts of the samples, the capacity loop stops at the first prefix sum above the target; round trip and bounds from C38, C44, C58 for the choices made |
| C64 | as C61-C63 | uniqueness of the fit gives the affine function; its cost is zero; invariant over the events: each point lies in the block started last, whose stored coefficients predict it to within a tenth of the precision |
| C65 | `out_of_range_data_encode/decode` on bit patterns (Residue) | invariant of the packing loop: bit k of the buffer is bit k of the concatenated mantissas; the unpacking loop reads these bits; false for `float` (witness) |
| C66 | `verify` in any arithmetic (Verify), real instance | folds as maxima and sums; Cauchy-Schwarz for the correlation; C14 and C20 for the end to end bounds |
| C67 | `readfile`, `writefile`, `record_criticalpoints`, `read_criticalpoints`, files written by a run (Extract/Files) | array round trip per file, reassembly by index, permutation invariance of the counters; suffixes of file names |
| C68 | `asqrt1`, `acbrt1` on bit patterns (Roots), the offline bound with float sums and approximate roots (Offline3D/Approx) | first guess: its cube (square) compared with the argument for every exponent and mantissa; two rounded Newton steps (RootsNear); error of the quotient; a cell with a critical point gets bound 0 because either all flags are set or the critical point is a corner, where all other terms vanish |
| C69 | src/sz_lossless.cpp (Lossless), zstd as two functions with the documented contract | capacity: two-sided estimate of the rounded product with 1.2, then integer arithmetic on `ZSTD_COMPRESSBOUND`; round trip from the contract; the gap with a compressor that insists on the documented capacity |
| C70 | `main` of test/sz_compress_2d_with_eb.cpp and the bounds and checks of test/sz_compress_test_with_eb.cpp (Lossless) | C31 and C69 composed; C12 for the quantised bounds; floor of a logarithm for the relative ones |
| C71 | `derive_cp_eb_for_positions_online_abs` rounded operation by operation (AbsRounded) | monotone rounding keeps the signs of the minors, so all flags of a triangle with a critical point are computed as true and its vertices are stored; induction over the scan; created critical points as for C57 |
| C72 | `quantize` run again on its own result (Requant), block encoder with a bound per point | a representable number other than the rounded one is at least as far away as the rounding error, so the reconstruction is within 3/4 of the bound of the even multiple it was made from; induction over the events of the traversal |
| C73 | block codec with a bound per point, integers, bound one half | predictions are integers below 2^24, hence exact; the accepted reconstruction is an integer within 1/2 of the input; induction over the grid with the recursive description of the reconstruction (C43) |
| C74 | `interp`, `lorenzo`, `lorenzo3`, the quantisers, code sequence of the 2D block codec | polynomial identities; mixed differences vanish iff the field splits (induction over rows and columns); codes of a run from the prediction on the reconstructed grid |
| C75 | sign-keeping bounds of the bilinear mode (Bilinear/Derive) | triangle inequality; factorisation of the quadratic by its roots; convexity reduces the square to its edges and corners; the coefficients are tied to the discriminant, `w`, `f(0)` and `f(1)` of the cell by polynomial identities; exact witnesses for the cases that fail |
| C76 | Quant, Online2D, AbsRounded, Bound2DRounded, block codecs | quantiser commutes with negation (truncation is odd, zero difference goes to the middle code either way); induction over the scan; the bounds depend on products of signs only; uniqueness of the recursion for the block codecs |
| C77 | block codecs with one bound per point | both grids satisfy the recursion of the prediction; induction on the sum of the coordinates; float witness with terms 2^26, 2^26, 1 |
| C78 | Quant, Online2D, AbsRounded, Bound2DRounded, block codecs | all operations commute with a factor the roundings commute with (`Scales`; `scales_fl`: powers of two); relative bounds are homogeneous of degree 0, absolute ones of degree 1; induction over the scan; with the fixed threshold the logarithm of a bound shifts by an integer |
| C79 | Extract/Types (`type3`), Spec2D (`cpType`) | eigenvalues = complex roots of the characteristic polynomial; Vieta; the discriminant is minus the squared product of root differences over 108; its sign by pairing conjugates; counting over distinct roots; 2D by the quadratic formula and exclusion |
| C80 | Extract (2D, 3D), Extract/Types | weights are homogeneous of degree 0, Jacobians of degree 1; `scaleRoots` for the characteristic polynomial; discriminant of degree 6; finiteness of the report |
| C81 | Drivers (files, compressor, block, lossless stage, decompressor, files) | the byte-level round trip of each mode, C69 and the file laws of C67 composed; overruns from C35 |
| C82 | NaN and infinities: rules (`NonFin`), arithmetic over an ordered field (`Fp`), the absolute bound in any arithmetic | invariant of the scan (a prediction error that is not finite has no code); witnesses by evaluation |
| C83 | IEEE-754 rounding over ℚ (Ieee/Round), contract of the operations (Ieee/Arith), arithmetic on bit patterns (Ieee/Bits), the 2D absolute mode with the formula on elements (Ieee/Run) | a code stands for a power of two, below which the rounded difference leaves half a unit; derived bounds are never NaN while products do not overflow (a divisor zero would have set the flag of its branch); minimum with numbers keeps the user's bound; invariant of the scan; C13 for the bytes; witness by evaluation on bit patterns |
| C84 | the 3D absolute mode with the formula on elements (Ieee/Run3) over the same contract and bit patterns | sign bounds are never NaN because the code tests the divisor, so only overflow of the triple products can spoil the minimum; invariant of the scan through `VMode.compress_inv`; C27 for the bytes; witness by evaluation on bit patterns |
| C85 | the 2D relative mode with its formulas on elements (Ieee/Rel) over the same contract, with `sqrt` and the constants `inv_C`, and on bit patterns | the derived bound is NaN or at most 2 (the sign bound without constant term is at most 2, also for subnormal numbers); it is NaN only if a component of the vertex is so small that the vertex is stored verbatim anyway; the radicand is never negative; C13 for the bytes; witness by evaluation on bit patterns |
| C86 | the runs of C83, C84, C85 with their index arrays | the same induction over the run carries the codes: the code `n` of a bound `A <= 2^R` stands for `2^(2n-52) <= 4 A`, so `2n <= R+54`; the quotient of the quantiser is finite and below 65536, its half truncates into [-32768, 32768]; for `float` the bound codes are below 65, so their code words are never too long (C01 for few symbols) and C83-C85 need no assumption on them; witness by evaluation on bit patterns |
| C87 | the block codecs of C31, C37, C44, C60 with `BOps` instantiated by IEEE-754 arithmetic on bit patterns (`bitsB`: `float` predictions, `double` precision, elements of either type) | the quantiser's code is strictly inside half the capacity for every bit pattern of the prediction error and every precision without sign (`quant_code`: quotient and sum are NaN, infinite or at least 1, halving is exact), which is what the round trips of C31, C44, C37 and C60 need; precisions of the coefficients have no sign even when they underflow or overflow (`NN`); an accepted distance means both values are finite, and the exact difference exceeds the rounded one by half a unit in the last place (`round_back`: exact in the subnormal range); witness by evaluation on bit patterns |
| C88 | the run of C83 on bit patterns; `Tri.hasCP` on the numbers that the bit patterns stand for | rounding is monotone on finite results (`round_mono`), so minors of one sign are computed with that sign or as zero, their computed sum is beyond each of them and each quotient is computed as at least 1: the bound of the triangle is zero (`derive_cp`); all other bounds are not NaN, so MINF keeps it (`requiredLoop_zero`); invariant over the sweep: values bounded and vertices of the triangle untouched (`abs2_keep`); witnesses by evaluation on bit patterns |
| C83, C84, C85, C95 (formulas) | the formulas of the four IEEE-754 runs, written for any arithmetic, evaluated with exact or rounded operations on the reals | Props/IeeeAgree: they are the formulas of the exact and the rounded layers (`agree_abs2`, `agree_rel2`, `agree_abs3`, `agree_log3`; the constants: `coefN_invC`); a quotient by zero is `none` in those layers and is excluded |
| C89 | the driver of the unstructured mode on a file system (`driveU`), with the compressor and decompressor of C30 and the lossless stage of C69 | composition of C30_adjacency, C30_roundtrip_partial, `Stage.back` and the files' round trip; necessary conditions by inversion; for small meshes a lower bound of the length of the stream |
| C90 | the interpolation based mode on bit patterns (`sz3Bits`, `runSz3`), its quantiser and interpolation formulas in the element type, its bound quantiser in `double` | an invariant of the working copy over the vertices in their order (`encAll_inv`): later vertices untouched, all values close, vertices of triangles with a critical point unchanged; the decompressor follows (`lockstep_tidy`); concrete runs for the negative claims |
| C91 | the 3D absolute mode on bit patterns (C84) with the bitmap of `compute_cp` for any test | flagged cells are stored (C27) and the bytes round trip (C84); concrete runs with rational weights (critical point) or a separating plane (none) for the negative claims |
| C92 | the runs of C83, C84, C85 on bit patterns | absolute modes: the bound of such a vertex is 0 in every state, so no step changes it (no limit on the data); relative mode: the bound of the zero component is 0 times a finite number; invariant of the run |
| C93 | the 2D log mode on bit patterns (Ieee/LogRun, Ieee/LogLib), the bound formula of C85 | invariant of the run: reconstruction within the bound, logarithm above -99, codes in the tables; accuracy of `log2f`, `exp2` (2^-16, 2^-22) as hypotheses, met by functions that are constructed and proved accurate; round trip from C18 |
| C94 | `encode_withTree`, `decode_withTree` with the memory behind the allocated block (Huffman/WithTree) | round trip from the encoder invariant of C01 and the tree of C06; footprint of the encoder from C05 |
| C95, C96 | the structured and the unstructured 3D log mode on bit patterns (Ieee/Log3), the bound formula on elements | the bound formula never yields NaN for moderate data (the divisor of a sign bound is at least one of its summands), so a bound is at most the user's; invariant of the run from C93; the code of a bound is at most 23 and the escape is 24, so the plan that stores a vertex verbatim where its code would be 24 has the same run (VMode/Guard), and the round trips of C28 and C30 apply to that plan |
| C97 | `verify` of C66 with operations on bit patterns (Props/IeeeVerify) | the comparison of IEEE-754 numbers is transitive and irreflexive, so the loop ends with an error that no other exceeds; rounding is monotone, so the printed error can be compared with numbers of the format as if it were exact; a NaN loses every comparison (`C97_nan_unseen`) |
| C98 | the run of C95 on data with zeros, and the decompressor's comparison with -99 (Props/IeeeLog3Z) | the invariant of C95 extended by zeros: the code accepted for the logarithm -100 is nearer than the bound, which is at most 1, so it stays below -99, and the logarithm of a nonzero component stays above; the decoded arrays follow from a lock-step proof that keeps for every component the value or its zero (`log_roundtrip_fin`, VMode/LockFin) |
| C99 | the IEEE-754 runs of C85, C93, C96 and C98 (Props/IeeeSigns) | a relative error below 1 keeps the sign, an error of 0 keeps a zero; a weighted mean of numbers of one strict sign is not zero (`not_meanZero`), and a critical point of a triangle is a vanishing weighted mean (`cp_meanZero`); the witness by evaluation on bit patterns |
| C100 | bilinear mode on bit patterns (Bilinear/DeriveG, Ieee/Bilinear, Props/IeeeBilinear) | the bound formula over any operations on `double`; every root is guarded by `x > 0` and `MAX(a, b)` is NaN only if `b` is, so a NaN could only come from the polynomials, which are bounded for data of moderate size (`deriveB_nan`); then the run lemma of the log modes with the plan of C47; with exact operations the formula is the one over the reals (`C100_formula_exact`, Props/BilinearAgree) |
| C101 | cells of the bilinear mode on bit patterns (Props/IeeeBilinearCells) | the invariant of C48, or some vertex already scanned is not a number (`sig_or_bad`); C100 excludes the second case at the end of the scan; a number has one bit pattern up to the sign of zero (`enc_dec`), so the conversion of a `double` to `double` changes nothing; signs as in C99 |
| C102 | the relaxed mode and `check_cp` on bit patterns (Props/IeeeRelax) | the tried bounds are the bound of the user and halves of quantised bounds: their codes lie in 1..227 (`tried_codes`), so the decoder reads the bound the encoder used and C21's lockstep applies; no more than two codes, so the first Huffman tree is shallow; one quantization step of a number is analysed with rounding (`tentative_near`); `compress_inv` carries the distance and the zero vectors through the scan; cells from `C22_any_test`; the witness by evaluation of the run |
| C103 | `check_cp` on bit patterns (`chkBits` of Props/IeeeRelax; Props/IeeeCheck) | the determinants are integers below 2^22 times a power of two, hence exact; a quotient that is not zero is at least 2^-21, so that the errors of the roundings (2^-24 each) change no sign of a coordinate that is not zero (`chk_sound`, `chk_complete`); `C103_edge` by evaluation |
| C104 | the run of C102 on fixed-point data (Props/IeeeFixed) | the quantised bounds are powers of two between one unit and 128 (`tried_codes_low`), so prediction and reconstruction are exact multiples of the unit (`tentative_fixed`); invariant of the scan (`relax_fixed`); C103 on the data for what is kept, on the reconstruction, in the order of the verification, for what is not added; inner zeros do not depend on the order (`InnerCP.perm`) |
| C105 | `malloc`/`free` of the Huffman coder (Huffman/Heap): a set of live blocks, `none` for a free or use of a block that is not live | the blocks of the codes are numbered in the order of the leaves (`codePtrs_spec`), hence distinct; invariant of the loop of `SZ_ReleaseHuffman` (`freeCodes_spec`); the set of live blocks at the end equals that at the start |
| C106 | allocations of the modes as straight-line programs on pointer variables, with the entropy coder of C105 (Huffman/Blocks) | which variables hold a block is tracked; the tracking is proved sound for every heap and every content of the symbol arrays (`track_sound`, `leaves_of`) and evaluated for each function; five functions leak one block |
| C36, C37 | buffers, cursor | C36: for every grid a field without predictable values (checkerboard in 2D, fast growing values in 3D); C37: cursor equation, witness for 8-byte elements, round trip where the sizes agree |
| C38 | bit trick, histogram loop (Estimate) | bits of the smeared word by induction over the five steps; loop invariant of the running sum |
| C45 | cursor of the sampling loops (Estimate) | invariant cursor = row start + offset; growing measure; periodic witness for the hang |
| C39 | mean code | case analysis |
| C40 | pwr codec (Pwr) | stream round trip from C31/C44; over ℝ: range of the logarithms by induction over the scan, error of the logarithm = relative error; witnesses on one row of two points |
| C42 | regression coefficients | simulation |

## Findings (statements that turned out false or limited)

* C58: the block codecs and the interpolation based mode compare the rounded distance with `<=`,
  so the bound can be exceeded by half a unit in the last place: values `-1`, `-2^-60` with bounds
  0 and 1 (`C58_block_exceeded`, and `C58_2d_exceeded`, `C58_3d_exceeded`, `C58_sz3_exceeded`).  It is
  never exceeded by a larger factor than `1 + 2^-24` (float), `1 + 2^-52` (double), in the
  interpolation based mode `1 + 2^-23` and `1 + 2^-40`.  The online modes compare with `<` and
  do not have this defect (C55).
* C57: the bound formulas are evaluated in the element type and cancel for nearly parallel
  vectors.  `C57_critical_point_created` is a `float` field on a 2 by 2 grid with integer components
  below `2^24`: the upper triangle has no critical point, the decompressed one has.  What remains true
  is that rounding anywhere else does no harm (`C57_kept_float_partial`,
  `C57_kept_double_partial`).
* C56: the log modes use `log2f` also for `double` data, so a relative bound below about
  `2^-18` is not kept (`C56_bound_exceeded`: float or double values `2^100 (1 + 2^-19)`, bound
  `2^-20`).
* C03: code words may have more than 64 bits and are then written wrongly
  (`C03_long_code_word`, `C03_roundtrip_fails`).  Arrays of fewer than 2^31 elements suffice
  (`C03_long_code_word_int`, `C03_roundtrip_fails_int`).
* C45: on a 1x1x2 grid the rough mean loop of `sz_compress_3d` never ends
  (`C45_rough_mean_loops`); with at least nine values it does.
* C18/C19: the 2D log decompressor takes any coded logarithm below -99 for a zero.
  `C18_small_values_lost` is a one-vertex witness with the value `2^-100`.
* C21: in the relaxed mode a bound between the threshold and 4 times the threshold is coded
  as zero, although vertices are coded with it (`C21_undecodable`; after one retry also a bound
  below 16 times the threshold).  Unlike in the other modes the reconstructed value is not
  compared with the original, so rounding can exceed the bound
  (`C21_rounded_bound_exceeded`, with `float` data).  The retry counter is never
  reset: only the first failing vertices are tried again.
* C22: the verification passes the vertices of a triangle in another order than
  `compute_cp`, which matters for tests that depend on it (`C22_order_matters`).
  `check_cp` is false for singular triangles, so these can get a critical point
  (`C22_degenerate_gained`).
* C24: the assertion in `load` (`sz3_utils.hpp` L163) compares
  the size of the input array with the size of a header, so arrays of one element (or two
  floats) cannot be decompressed (`C24_small_grid_aborts`).  Input with NaN gives a
  negative code (`Sane` excludes it), which is undefined behaviour in the entropy coder.
* C25: the SZ3 mode accepts an error equal to the derived bound
  (`C25_new_critical_point`: a 2 by 2 field gets a new critical point).  No critical point
  is ever lost.  The other 2D modes use a strict test.
* C28: the 3D log compressor, unlike the 2D one, tries to quantise vertices with
  zero components.  It continues with `-2^l`, `l ≈ -100`, while the decompressor
  returns 0 (`C28_zero_mismatch`).  The code `eb_quant_index_max = 24` announces a
  lossless vertex, but a quantised bound of at least 2 (relative bound 3) gets the
  same code (`C28_escape_collision`); on grids with cells the derived bound is at
  most 1, so this needs a grid of width 1.
* C29: because of C28 the statement about a full pass is proved for fields
  without zeros only.
* C30: the unstructured mode writes a sign only for non-zero logarithms but reads one
  per component; `C30_sign_misalignment`: (0,1,-1) decodes to (0,-1,1).
* C33: a bound strictly between the threshold and base times the threshold is coded as
  zero, while the compressor goes on with the bound `threshold`; the decompressor then takes
  lossless data where there is none (`C33_relative_mismatch`, `C33_log_mismatch`).
* C34: the log offline mode decodes values below `2^-99` to zero (`C34_log_small_lost`).
* C35: `sz_compress_cp_preserve_2d_offline` leaves the threshold out of its size, so it
  writes 8 bytes past its buffer and reports 8 bytes too few (`C35_offline_overrun`); the log
  variant is exact.  The online modes overrun their buffer on small grids and for fields
  stored losslessly (`C35_online_small_overflow`, `C35_online_lossless_overflow`), the block
  codec on small arrays (`C35_block_small_overflow`).
* C46: a critical point on an edge can change its type, because the quotient of determinant
  and a zero minor is minus infinity (`C46_edge_type_lost`).
* C48: the extraction of critical points of a bilinear cell divides by two cross products and
  reports no critical point if one vanishes, so such cells are not protected; the derived
  bound tests one of the two, depending on the vertex (`C48_critical_point_lost`).  The
  verification uses `double` values, the field stores `T` (`C48_rounded_store`).  The derived
  bound has further defects (`max_eb_to_keep_sign_2d_online_general` does not use the result for
  one edge, quadratics with vanishing leading coefficient are ignored), which the verification
  makes harmless: C47 and C48 hold for any derived bound.
* C49: as in C28, a bound above 1 on a grid without cells can be quantised to the code that
  announces a lossless vertex (`C49_escape_collision`).  Unlike the online mode (C28, C29) the
  offline mode is not affected by zeros, because bounds are computed from the input only.
* C50: values below `2^-99` other than 0 are decoded to 0 (`C50_tiny_lost`).
* C51: the extraction tool does not look at the cells at the border of the grid
  (`C51_border_missed`), nor at triangles with a zero at a vertex.
* C53: the FTK number of a tetrahedron is converted to `int`; on a grid of 1024^3 vertices two
  tetrahedra share a key and one critical point overwrites the other (`C53_keys_collide`).
* C36: `sz_compress_2d` and `sz_compress_3d` allocate room for 5% of the values as
  unpredictable, but every value may be unpredictable (`C36_overflow_2d`,
  `C36_overflow_3d`).  `sz_compress_3d_with_eb` does the same and in addition stores every value
  with bound zero (`C36_overflow_3d_with_eb`).  `sz_compress_2d_with_eb` allocates enough.
* C60: there is no decompressor for `sz_compress_3d_with_eb`.  The flag `block_independant` is
  written but the blocks are always dependent.
* C59: with independent blocks a regression block still depends on earlier ones, through the
  prediction of its coefficients.
* C37: `sz_decompress_3d` advances by `sizeof(float)` per unpredictable value also for
  `double` (`C37_double_fails`).
* C40: zeros are lost when the block codec moves their logarithm by exactly the
  precision (`C40_zero_lost`), when the precision is below the resolution of the type
  (`C40_small_precision_lost`), and in fields of zeros (`C40_all_zero_lost`).  With one
  bound per point a value with bound zero may coincide with the marker of zeros
  (`C40_with_eb_value_lost`), and below magnitude one the allowance for rounding has the
  wrong sign (`C40_with_eb_bound_exceeded`).
* C65: the mantissa mask `0x000FFFFFFFFFFFFF` is the one for `double`; applied to a `float` it keeps
  exponent bits, which are OR-ed into the bits of the previous value: 1.0f and 1.0f with 3 and 11
  bits come back as 1.875f and 1.0f (`C65_float_corrupts`).  Zero comes back as negative zero.  Only
  commented-out code calls these functions.
* C66: the relative error printed ignores values of magnitude up to one
  (`C66_small_values_ignored`); a NaN that is not the first element is not noticed in the errors
  (`C66_nan_ignored`).
* C67: the 2D tool records the original points under "origin_M", both tools look under
  "origin_", and the 3D tool records none (`C67_never_cached`); a file left there by hand is used
  without checking that it belongs to the data.  The four categories are written without simplex
  numbers and cannot be read back (`C67_without_numbers`).
* C68: the comments at include/sz_cp_preserve_utils.hpp L82-84 and L104-106 (errors from 0 to 2.3e-7 and to
  1.16e-6) ignore the rounding of the `float` operations; the proved ranges are slightly wider. The bound
  computed with these roots can exceed the exact threshold (`C68_exceeds`), so that a tetrahedron without a critical point
  may gain one when the error comes within 2e-6 of the bound; tetrahedra with a critical point are exact in
  any case. `asqrt1` is not used by the compressors.
* C69: for streams of 100 to 319 bytes the output block of `sz_lossless_compress` is smaller than
  `ZSTD_compressBound`; the result of zstd is checked neither there nor in `sz_lossless_decompress`
  (`C69_gap`, `C69_gap_witness`, `C69_error_unchecked`).
* C70: `quantize_and_compress_eb` writes at least 20 bytes to a block of `4*n` bytes (`C70_scratch_overrun`).
* C71: in floating point the 2D absolute mode never loses a critical point but can create one
  (`C71_critical_point_created`).
* C75: several sign-keeping bounds of the bilinear mode are too large: `max_eb_to_keep_sign_quadratic`
  ignores a vanishing leading coefficient (`C75_quadratic_linear_lost`, for a whole cell
  `C75_no_zero_lost`); the cylinder bound assumes positive curvature (`C75_cylinder_concave_lost`);
  at saddles with `f > 0` the corners of the square are not examined, since the function written
  for them is never called (`C75_general_pos_lost`); at L332 the divisor is not the tested expression
  (`C75_general_divisor_lost`); `eb1` is not reset between two edges (`C75_general_stale_lost`).  The
  verification of the bilinear mode makes these harmless (C47, C48).
* C76: in the relative online mode flipping the sign of one component changes the bounds
  (`C76_one_sign_matters`): a saddle becomes a node.  Only flipping both is harmless.
* C77: the 3D codec depends on the order of the axes in floating point (`C77_order_matters_3d`); the
  difference stays within the bounds.
* C78: the online modes compare absolute bounds with `DBL_EPSILON` whatever the unit of the data.  A
  field whose values times the relative bound stay below 4 * 2^-52 is stored verbatim, silently
  (`C78_tiny_field_not_compressed`); in a smaller unit it would be compressed.
* C79, C80: the 3D extraction tool compares the discriminant of the characteristic polynomial with
  the machine epsilon.  An isotropic source, where the field is as regular as can be, is reported as
  SINGULAR (`C79_isotropic_source`), and since the discriminant scales with the sixth power of the
  data, so is every critical point of a field with small values: a source with eigenvalues in the
  ratio 1:2:4 and values up to 0.0056 (`C80_unit_matters`), every field in some unit
  (`C80_all_singular`).
* C81: the 2D driver with the offline mode never ends regularly, because the compressor always
  writes `sizeof(double)` bytes behind its block (`C81_offline_never`); with the relative and absolute
  modes it does not for fields whose values are all stored losslessly (`C81_online_lossless`).  A grid
  size that does not fit the files is not reported but reads or writes outside the arrays
  (`C81_sizes`).
* C82: a NaN in the data makes the bound of its triangles NaN; `MINF(req, NaN)` is NaN and
  `MINF(NaN, b)` is `b`, so the user's bound and the bounds of all earlier triangles are forgotten
  at the finite vertices around.  `C82_neighbours_not_kept`: error 2 with user bound 1/64 and a lost
  critical point in a triangle of finite vertices.
* C82: the quantiser of the SZ3 mode converts `fabs(diff)/eb` to `int` before comparing it with the
  capacity.  With NaN the conversion is undefined; the final check `fabs(dec - data) > eb` is false,
  so NaN is accepted and not stored (`C82_sz3_lost`, `C82_sz3_run`); on x86 the code is
  `32768 - 2^30`, a negative index for the entropy coder (`C82_sz3_negative`).
* C83: finite but large values break the user's bound.  With the netCDF fill value 9.97e36 at one
  vertex the products of a triangle overflow, its bound is `inf - inf` = NaN, and the next `MINF`
  forgets the user's bound: the neighbour 1000 comes back as 1024 with the bound 1/100
  (`C83_fill_value_breaks_bound`, on bit patterns, from the bytes).
* C84: the same in three dimensions (`MIN` instead of `MINF`): 1000 comes back as 1024 with the
  bound 1/100 next to a fill value (`C84_fill_value_breaks_bound`).
* C85: the same in the relative mode: 1000 comes back as 1024 under the relative bound 1/100 next
  to a fill value (`C85_fill_value_breaks_bound`).
* C86: one finite fill value makes the required bound infinite (one triangle gives NaN, the next
  one infinity), and the code of the bound is the undefined conversion of infinity to `int`
  (`C86_fill_value_leaves_table`): with a conversion that saturates, the histogram is written out
  of bounds.
* C87: a `float` field with bound 1 is decoded at the distance `1 + 2^-25` (`C87_exceeded`), the
  bit-pattern counterpart of C58.
* C88: one value of magnitude `2^120` in a field of values about 1000 (bound 1/100) makes the
  absolute mode lose a critical point (`C88_lost`): products overflow, the bound of that triangle is
  NaN, `MINF(NaN, b)` is `b`.
* C89: the block of the unstructured mode has `3*n*sizeof(T)` bytes, the stream at least 72: for
  meshes of five points or fewer (`float`) the compressor writes beyond its end (`C89_small`).  The
  number of data is never compared with the number of points.
* C90: the quantiser of the interpolation based mode computes the difference to the prediction and
  its check of the reconstruction in the element type.  With the bound 1, prediction 1 and the value
  `2^-30` both are rounded to 1, the value −1 is accepted, and the bound is exceeded by `2^-30`
  (`C90_exceeds`).  The online modes compute the check in the element type as well, but reject a
  distance equal to the bound where this quantiser accepts it, so that C83 needs no factor for
  `float`.
* C91: the 3D absolute mode can create a critical point on moderate data although the bitmap is
  right (`C91_created`), and without the bitmap it can lose one (`C91_missed_lost`): the 3×3
  determinants are computed from 2×2 minors rounded to the element type, and their signs are wrong
  when two vectors are nearly opposite.  In 2D the products are rounded monotonically and no
  critical point is lost (C88).
* C93: in the log mode nothing checks the result of `exp2`: a vertex with the finite component
  `1.5 * 2^127` and the relative bound 1 comes back infinite (`C93_overflow`), because the logarithm
  is reconstructed, within its bound, as 128.
* C94: `encode_withTree` requests `length*sizeof(int)+treeByteSize` bytes and forgets the eight bytes of
  its header: for every array of one element it writes and reports four bytes more than it requested
  (`C94_overflow`).  Nothing else in the repository calls it.
* C95, C96: the provisos of C28 and C30 (no code of a bound equal to the escape, no logarithm below
  -99) are met by every run in IEEE-754 arithmetic on data between `2^-97` and `2^38`.  As in C93 a
  finite value near the top of the range comes back infinite (`C95_overflow`), and on bit patterns,
  too, a zero component flips the signs behind it in the unstructured mode (`C96_zero_flips_sign`).
* C97: `verify` does not notice a NaN in the reconstruction unless it is the first element
  (`C97_nan_unseen`): the printed maximal errors are 0 for a reconstruction whose second element is a
  NaN.
* C98: for a coded zero the compressor continues with -2^-100 or a number near it, the decompressor
  with 0 (the example beside `C98_log3_zeros`). Only the stored logarithms, which agree, are used
  for prediction, so the streams stay in step; a -0 comes back as +0.
* C99: the witness of C57 is also one for IEEE-754 bit patterns, bytes to bytes (`C99_created`): the 2D
  mode with a relative bound creates a critical point in a triangle of nearly parallel vectors.
* C100: a derived bound that is NaN would disable the bound of the user (`MINF(NaN, b)` is `b`); in the
  bilinear mode this cannot happen for data up to `2^124`, although several quotients of the formula
  can be infinite or NaN.
* C102: `check_cp` in floating-point arithmetic depends on the order of its vertices. The relaxed mode
  verifies a triangle with the vertices in the order of the tables of the scan, the extraction takes
  them in another one. On a 2x2 `float` field a triangle without a critical point has one in the
  decompressed data, in the exact sense and by the test (`C102_created`). The distance to the input can
  exceed the bound by rounding (`C102_float`: up to 1/16 of it in the estimate).
* C103: `check_cp` on `float` vectors can miss a critical point on an edge, depending on the order of
  the vertices (`C103_edge`: (2,0), (-1,0), (0,1)).
* C106: `sz_compress_cp_preserve_2d_bilinear_online_log` never frees `eb`
  (`C106_bilinear_leaks`), `sz_compress_cp_preserve_2d_offline` and `..._offline_log` never free
  `eb_quant_index` (`C106_offline2d_leaks`, `C106_offline2dLog_leaks`), and their decompressors never
  free `type` (`C106_decOffline2d_leaks`, `C106_decOffline2dLog_leaks`): one block per call.
* The choice between Lorenzo and regression blocks, the fit and the mean/capacity optimisation are
  arbitrary parameters in the block theorems up to C60; C61-C64 model them and instantiate those
  theorems with the choices the code makes.  Conversions of out of range `double` values to
  integers in the sampling (undefined in C++) are arbitrary operations.