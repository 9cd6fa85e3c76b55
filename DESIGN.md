# Formal model of HYPERCV: design

## Approach

* `lean/Verif/` holds a Lean 4 model of the C (and some C++) code in `/repo`, written function by function.
* Semantics of C: every modelled function is a total function into an outcome type with four kinds of
  result: normal return (value + new memory), `exit` (the `hypercv_assert` failure path, exit(1)),
  undefined behaviour (out-of-bounds access, signed int overflow, division by zero, null dereference,
  invalid free, float-to-int conversion out of range), and non-termination where a loop can diverge.
* Memory: a heap of separate byte blocks; typed accesses are little-endian byte accesses; an access outside a
  block is the UB outcome.  `malloc` returns a fresh block with arbitrary contents (an oracle that theorems
  quantify over).  An image's pixel area is a block of its own; the padding slack of the single-malloc
  layout is not accessible in this model (stricter than C); the layout itself is modelled separately (C07).
* `int` arithmetic is checked: out-of-range results are UB.
* float: bit patterns with an exact decode to rationals and round-to-nearest-even, where the property is about
  floating point; exact field arithmetic where the property says "exact arithmetic".

## Per-property plan

| id | title | model / proof plan |
|---|---|---|
| C01 | Interleave conversions preserve every sample | byte-level model of the six routines in the heap semantics; loop-trajectory invariant giving the exact final memory; index maps shown bijective |
| C02 | Interleave conversions round-trip and compose | corollary of C01 over the specification of a cube's (line,sample,band) view |
| C03 | convert2bsq/bil/bip convert a cube in place | composition of C01, copy_to and delete in the heap semantics; frame and leak freedom |
| C04 | hyper_mat_copy returns an equal, independent copy | refuted: for all non-null cubes the result is NULL, for NULL the header is dereferenced |
| C05 | hyper_mat_copy_to makes the destination equal to the source | heap model of memcpy/strncpy level copy |
| C06 | A newly created cube has the requested header and initial contents | heap model; allocator as fresh block; outcome exit/UB/ok characterised for all arguments |
| C07 | Cube storage regions are aligned, in bounds and disjoint | address arithmetic model of the single-malloc layout, for every base address |
| C08 | Every documented data type has a storable element size | element size function; refuted for 6 and 9; partial for the other nine |
| C09 | Cube byte-size computation cannot overflow | int overflow is UB in the model; refuted with witness; partial under the size bound |
| C10 | A newly created image is zero-initialised over all channels | malloc contents universally quantified; refuted for channels>1; partial for 1 channel |
| C11 | delete_simple_mat releases exactly the storage the image owns | address model of the branch on pointers; refuted; partial with exact iff condition on the address |
| C12 | Header round trip | Model/Header.lean: text of the header as a list of characters, printf %d/%f and sscanf/atof modelled (correctly rounded); Proof/Text, TextFloat, FloatBits: decimal round trips; Proof/Header: the loop over the lines. Refuted for the wavelengths in general (unterminated buffer). |
| C13 | Unrelated header lines | Proof/HeaderSkip.lean: the loop over the lines is split at the inserted line; the stored keyword is the only state it changes and is overwritten. Refuted for keywords that begin with 'data'. |
| C14 | Save and reload | Combination of hmsave (bytes and text) with the reader; same restriction as C12. |
| C15 | Interleave tags are compared on exactly their three characters | string model of cmpstr; prefix characterisation |
| C16 | Range extraction returns exactly the requested sub-cube | heap model; three interleave branches; UB outcome for ranges past the end (refutes rejection clause) |
| C17 | Band extraction and insertion are inverse | heap model; byte offsets; insertion refuted for multi-byte types; partial for 1-byte types |
| C18 | Reshaping a cube into an image keeps the element sequence | heap model |
| C19 | Transpose moves element (i,j) to (j,i) and is an involution | heap model of the typed branches; involution |
| C20 | Flips compute the mirrored image and are involutions | heap model of flips; algebraic laws |
| C21 | Border extrapolation always yields an in-range index given by the documented pattern | direct model with fuel-free recursion for the reflect loop; closed forms; periodicity |
| C22 | Padding an image keeps the interior and fills the border by the border rule | heap model of copy_make_border |
| C23 | Fixed thresholding is the documented pointwise function | heap model of the five modes + dispatcher |
| C24 | Threshold modes satisfy their complement and idempotence laws | corollaries of C23 |
| C25 | Otsu thresholding reads only the image | heap model; refuted: every single-channel image triggers an out-of-bounds read |
| C26 | Byte cubes widen exactly | typed little-endian access model + exact float32 encode/decode |
| C27 | Float cubes narrow by rounding to nearest even with saturation | exact float32 decode, round-half-even; refuted for every target with witnesses (`C27_refuted`, `C27_image_refuted`); partial for the ranges that work |
| C28 | Widening a byte or ushort cube to float and back is the identity | corollary of C26/C27 |
| C29 | The vector macros behave as a sequence | refinement of the macro operations (header words + element storage) to List over arbitrary histories |
| C30 | Vector growth is geometric | arithmetic on the capacity sequence |
| C31 | BMP write followed by read returns the image | byte-level file model with universally quantified padding |
| C32 | Writing a BMP leaves the image unchanged and stores rows bottom-up in BGR order | refuted (source is mutated; middle row of odd height not reversed); partial exact characterisation |
| C33 | The integral image equals the sum over the upper-left rectangle | closed form of the recurrence, with the exact condition under which it is the prefix sum; prefix-sum clause refuted (first row and column), box-query clause proved |
| C34 | Gaussian blur with the built-in kernels preserves constant images and stays in range | float model; all products and sums are dyadic with at most 24 bits, so every operation is exact and the only rounding is the final conversion to bytes |
| C35 | filter2D computes the correlation with the kernel | Model/Filter2D; exact trajectory of the accumulation loops; refuted for non-zero destinations and for byte destinations, partial for zero destinations |
| C36 | Laplacian and Sobel of a constant image are zero | integer-valued float arithmetic, exact output for one channel; refuted for several channels and for BORDER_CONSTANT on one row |
| C37 | Erosion and dilation are the set-theoretic operations | Model/Morphology; trajectory of the flag loop; exact output for square and one-row images; refuted at the border, for the dilation, and for every other shape (row stride bug) |
| C38 | Opening is erosion then dilation, closing the reverse | refuted: proved that open = expend and close = corrosion for all shapes and iteration counts |
| C39 | sort_array_down_float sorts | bubble sort with early exit; sorted + permutation |
| C40 | hypercv_factorial returns n! | table; refuted at 10; partial elsewhere |
| C41 | Matrix multiplication computes the product | semiring-generic model of the eight routines; z' = z + x*y proved, so the claim holds exactly for z = 0 |
| C42 | Matrix transpose | heap/list model |
| C43 | Matrix inversion | field-generic Gauss-Jordan; R*A=I by row-operation invariants; the C function refines it step by step (Proof/Invert), exact when all values are representable; no error bounds |
| C44 | Optimal DFT size is the least 5-smooth size | whole-table checks by kernel decide plus binary search invariant; refuted from 14171761 on (multiples of 3^15 are missing) |
| C45 | Colour conversions | heap model |
| C46 | draw_POINT | Model the clipped square loops; Fills composition gives the exact output. Refuted only for coordinates overflowing int. |
| C47 | draw_line | Model the float slope and rows exactly; exact output for integral slopes, rows within one of the line for any slope (error bound of the float slope, Proof/DrawSlope.lean), refutations for horizontal lines, grey images, inverted slope, and lines beyond the segment. |
| C48 | Histogram equalisation | Model counting and cumulation with checked int arithmetic; exact table; refute monotonicity, brightest level, black image and overflow freedom with universal theorems. |
| C49 | Statistics return | Model/Statistics.lean. Refuted for grey statistics and entropy (sizeof of a pointer); proved for mean, variance, contrast. |
| C50 | k-means | Model/Cluster.lean, rand() is an oracle, the endless loop has fuel. One round proved equal to the mathematical round (KmRound); induction over rounds. Refuted in general: negative thresholds never stop; stopping ignores moves to the left and up. |
| C51 | Satellite position | Model/Satellite.lean over the real numbers; trigonometric identities. |
| C52 | C++ cube objects | Model/HyMat.lean: objects as values, with the unspecified contents of fresh storage (raw) as a parameter of every constructor; Proof/HyMat.lean. Refuted for most operations, the rest proved under the condition on raw. |
| C53 | Converting a cube that already has the target interleave returns an equal copy | refuted: NULL for every cube (hyper_mat_copy) |
| C54 | Copying an image gives an independent identical image | `simple_mat_copy` on the heap model; exact final heap; freshness and separation from it. |
| C55 | The saturating cast rounds to nearest even and limits to 0..255 | exact rational model of the float comparison and of cvtsd2si |
| C56 | Popping an empty vector leaves it empty | refuted by a concrete history (size_t underflow); partial for NULL |
| C57 | Binary images to colour | Model/Color.lean; byte arithmetic modulo 256; partial (foreground 1) and refutation (foreground 255). |
| C58 | hypercv_colortransform | Model/Color.lean; end of a non-void function without return is UB; refuted for every input. |
| C59 | Writing a BMP file leaves nothing allocated | Model/Bmp. `C59_write_partial` (3 channels); refuted for every 1-channel image by `C59_refuted`. |
| C60 | Reading a BMP file returns the image it describes | Spec/Bmp states the published file format (`IsBmp24`). `C60_read24_partial` for even heights; `C60_refuted_odd`, `C60_refuted_8bit` refute the rest for every such file. |
| C61 | Means of integer arrays | Accumulation loop over the exact float format; exact partial sums by representability of integers up to 2^24; refutation by absorption of ones at 2^24. |
| C62 | Median and mean blur never return | case split on the inverted assertion |
| C63 | Structuring elements: creation and release | creation by loop trajectory; deletion refuted (entries leak) |
| C64 | Mean and variance | Model/Statistics.lean; assumption: pow(x,2) is the correctly rounded square. Exact accumulation up to 2^24 by induction, then two rounded divisions; refutations by saturation, double, sign. |
| C65 | Contrast | Model/Statistics.lean; same assumption on pow. Accumulation by induction over rows and columns; number of neighbour pairs computed in closed form. |
| C66 | Separable filter, caller's kernels | Proof/Separable.lean: the float operations of both passes in order, for arbitrary bit patterns of the weights. |
| C67 | Read with sizes | Model/Header.lean: fread into a fresh block whose contents are the junk oracle; wavelengths are a fresh block that is never written. |
| C68 | convertTo and range | Proof/HyMat.lean: convertTo_run, range_run (nested filling loops over byte blocks). |
| C69 | Orbit elements | Model/Satellite.lean; contraction argument for the iteration; refuted as a whole. |
| C70 | Transposition of a cube | Model/Spectral.lean; four nested loops by the fill lemmas; out-of-bounds refutation by the failing last step. |
| C71 | Mean over the bands | Model/Spectral.lean; sum in single precision as a fold; refutation for small element types. |
| C72 | Euclidean distance | Model/Spectral.lean with correctly rounded square root (Base/Sqrt.lean). |
| C73 | Spectral angle | Model/Spectral.lean, `acos` a parameter; refuted. |
| C74 | Matching | Model/Spectral.lean; loop invariant with a temporary array; refuted as a match. |
| C75 | Spectrum files | Model/Spectral.lean, a file as the list of what `fscanf` finds; refuted for long files and text. |
| C76 | Absolute radiometric correction | Model/Radiometric.lean; three nested loops by the fill lemmas over the elements in storage order. |
| C77 | Relative radiometric correction | Model/Radiometric.lean; refuted by a universally quantified out-of-bounds theorem. |
| C78 | Linear stretch of a cube | Model/LinearTension.lean; the scan by induction over the elements, the byte by the error bounds of single roundings (Proof/FloatOps.lean), monotone because every rounding is. |
| C79 | Range normalisation | Model/Normalize.lean; the scan by induction over the elements, every byte by error bounds of single roundings; refutations by the same evaluation. |
| C80 | Norm normalisation | Model/Normalize.lean; exact sums by induction while they stay below 2^24, then one division, one product and one rounding; beyond, the error of the float sum (sum_err) and its monotony; the refutation for large images follows the sum until it stops growing at 2^24. |
| C81 | Normalising float images | Model/Normalize.lean; refutations for every float image with the stated extremes and for every byte destination. |
| C82 | Reducing an image | Model/Pyramid.lean; the value from C34 for the temporary image, then the loop over all pixels. |
| C83 | Enlarging an image | Model/Pyramid.lean; the filter from C66 with the doubled kernel, whose sums are exact in float; constant images by parity of the coordinates. |
| C84 | Rotating a cube | Model/Rotate.lean, the C library's cos and sin as parameters; the exact values of the corner coordinates for the angle zero, then a block copy per pixel; the quarter turn by evaluating the floating point computations in the kernel. |
| C85 | Detecting a spectrum | Model/Cem.lean; partial-correctness rules (Proof/Post.lean): the block lengths are invariant, so the read outside the array is reached on every path that does not stop before, for every cube with more than one element; a cube of one element is computed through. |
| C86 | Norm of a vector | Model/Decomp.lean; forward error analysis of float sums of products (Proof/FloatError.lean) and of the root (Proof/FloatRoot.lean). |
| C87 | QR decomposition | Model/Decomp.lean; exact description of the computed factors for every size (Proof/Qr.lean), error bound for the first column, exact evaluation for the identity of every size. |
| C88 | Eigenvectors | Model/Decomp.lean; invariant on the lengths of the arrays through all loops (Proof/Eig.lean); counterexamples evaluated by the kernel. |
| C89 | hypercv_atof converts decimal texts to their value | Model/Atof.lean: the three loops over the characters with float and double arithmetic (pow(10,n) correctly rounded) and checked int for the exponent. Spec/Numeral.lean: numerals as digit lists and their values. Proof by induction over the digits, errors with the invariant of Proof/FloatSum; refutations for all texts of a shape. |
| C90 | Addition of float images | Model/EdgeEnergy.lean: the three nested loops with the stride of the overlap. Proof/FloatAdd.lean: a rule for three nested loops over consecutive elements (flat3_run); refutations for all images of different widths and all small destinations. |
| C91 | Logarithm of float images | Model/EdgeEnergy.lean with the library logarithm as a parameter; loop over rows*cols elements; refutation for several channels. |
| C92 | Edge signal energy | Model/EdgeEnergy.lean composed of the modelled filter2D, addition and deletion. Spec/EdgeEnergy.lean: the mean square response over the rationals. Proof/EdgeEnergy.lean: the filters as exact sums of nine rounded taps, the error by the invariant of Proof/FloatSum. |
| C93 | Discrete Fourier transform | Model/Dft.lean with the library cosine and sine as parameters; Spec/Dft.lean: the transform over the complex numbers. Proof/DftError.lean: error of the argument, of the library, of the products and of the float sum. |
| C94 | The inverse transform gives the image back | Model/Dft.lean. Proof/DftInverse.lean: orthogonality of the roots of unity; Proof/IdftError.lean: the error; Props/Idft.lean composes both runs and derives the refutations. |
| C95 | Magnitude spectrum | Model/Dft.lean; Proof/SpecError.lean: sums, squares, square root; dft_centre: the alternating sign as a shift by half a period. |
| C96 | Magnitude of a complex image | Model/Dft.lean; refutation by the loop rules for failing bodies; accuracy of the remaining cases in Proof/Magnitude.lean. |
| C97 | Mean, variance and standard deviation of a spectrum | Model/Spectral.lean. The invariant of Proof/FloatSum for both sums, the identity of the variance about an inexact mean, the root by Proof/SpecError. |
| C98 | The Otsu threshold maximises the variance between the classes | Model/Otsu.lean, Spec/Otsu.lean (classes, means, variance between the classes). Proof/Otsu.lean: levels within one of the luminance, exact counts and sums, rounding error of the variance, invariant of the search including the NaN of empty classes and the early exit. |
| C99 | Hu's moment invariants of an image | Model/Shape.lean, Spec/Shape.lean (mass, moments about the rounded centre, normalised moments, the seven polynomials). Sums are exact integers below 2^53; Proof/Approx.lean propagates relative errors through quotients and products; the centre is shown to be rounded exactly. |
| C100 | The similarity of two shapes | Sums over a placed picture are reindexed, the centre moves with the picture, so all sums are equal integers and the seven values equal doubles; then the first sum of the similarity is zero and the second positive. Symmetry by commutativity of the rounded operations. |
| C101 | The wavelet filters are those of the named wavelets | Model/Wavelet.lean, Spec/Wavelet.lean (closed formulas with square roots). The run is computed for all heaps; the doubles are within 2^-52 of the decimals, the decimals within 0.000049 of the closed formulas. |
| C102 | The wavelet filters reconstruct every signal | The reconstruction is a sum of shifted copies of the signal; the integer coefficients of the shifts are computed by the kernel from the tables for both parities, the error of the doubles is bounded separately. |
| C103 | Wavelet objects are released completely | Symbolic execution with an exact description of which blocks and headers disappear. |
| C104 | Principal component analysis | Model/Pca.lean on top of the models of the mean, the reshaping, the products, QR and the eigenvectors. Symbolic execution over all heaps; QR and the eigenvector routine enter through their memory safety only (C87, C88), for one band through their exact result. |
| C105 | Resizing fills the destination | Model/Stubs.lean; direct computation. |
| C106 | The Hough transform stores the line of most points | Model/Stubs.lean; direct computation. |
| C107 | Programs that use cubes mean what they say | Spec/Client.lean gives the meaning of a program over independent arrays (no memory) and the representation relation; Model/Client.lean executes the program with the modelled functions. Forward simulation: each operation preserves the relation, then induction over the program. |
| C108 | Programs that use cubes and images mean what they say | Spec/Session.lean extends the meaning of C107 with image variables; the representation relation of the cubes is stated beside the storage of the images and vice versa. Model/Session.lean executes the programs with the modelled functions. Forward simulation, induction over the program. |
| C109 | C++ cubes can be saved and opened with their header files | Model/HyHeader.lean models readHdr, open, writeHdr and save. Spec/HyHeader.lean gives the header text and the harmless lines. Induction over the lines; the failures are proved for all texts that contain them. |
| C110 | Saving writes one image and one header of its own | Model/Files.lean adds a file system (a map from names to contents) and the storage that writehdr allocates. The written names are computed for all names; two calls in sequence are followed through the file system. |
| C111 | Reading a raw image file returns the image | Model/SimpleMatFile.lean models smread; the run is computed for all arguments, and copying and deleting the result are followed. |
| C112 | The report about a cube tells what the cube is | Model/ShowInfo.lean gives the printed text. Induction over the bands for the text, and over the text for the comparison of two reports. |
| C113 | Wavelet decomposition returns the coefficients | Model/Wavedec.lean models the unfinished functions of dwt.c; a function that ends without return gives no value, and using it is undefined behaviour. |
| C114 | Programs that save cubes and read them again | Spec/ClientFiles.lean gives the meaning of programs on an abstract store and an abstract disk; simulation as for C107, where the storage that the library loses is carried along as a list, and every saved cube is tied to the contents of its two files. |
| C115 | Stopped saves | Model/Interrupt.lean lists the actions of hmsave on the two files; a stopped program leaves a prefix of what was written in every open file. The partial theorem follows from the simulation of C114 and the two files of the save; the refutations give the crash point for every program, with a generalisation of reading to files that are too short (load_part). |
| C116 | Correlation matrices | Model/Matrix.lean (correlation, quo*). The product loop is C41; the division loop is one more invariant over the entries. The statement is uniform in the six element types (IntKind); refutations for all matrices that meet a simple condition. |
| C117 | Byte addition | Model/ImageProcess.lean (simple_mat_addition_uchar). Loop invariant over consecutive bytes that also covers shared storage, as for C90; refutations for all images. |
| C118 | Splicing | Model/ImageProcess.lean (hyper_mat_splicing). One memcpy lemma for parts that fit and one for those that do not; positions of the ENVI orders. |
| C119 | Programs with cubes, images and files | Spec/Work.lean joins the meanings of C108 and C114 and adds splicing, byte addition, Sobel and Laplacian; the representation relation of C108 is stated beside any preserved storage, so that the lost blocks of C114 can be carried along. Forward simulation, induction over the program. |
| C120 | Histories of stopped programs | Spec/History.lean: a history is a list of runs, each with the operations done and possibly the save during which it was stopped; the meaning removes only the name being saved. Model/History.lean: a run is the program of C119 followed by any prefix of the file actions of C115, and only the files are carried over. Invariant over the history: every cube that can be relied upon is stored in its two files. |

## Trusted base

* Lean's kernel (4.33.0) and, for the statements, the definitions they mention: the semantics in `Verif/Base`
  (`Sem.lean`: outcomes, heap, checked `int`; `Float.lean`, `Sqrt.lean`: IEEE formats), the models in
  `Verif/Model`, and the vocabulary in `Verif/Spec` and in the `Spec.` definitions beside the theorems.
  Proof files (`Verif/Proof`) and Mathlib are checked by the kernel and need not be trusted.
* Axioms: every theorem in `MANIFEST.json` depends on a subset of `propext`, `Classical.choice`, `Quot.sound`
  (`#print axioms`: 444 on all three, 26 on fewer, 5 on none).
  No axiom of our own, no `sorry`, no `native_decide`, no `bv_decide`.
* The reading of the C and C++ sources.  Nothing connects the Lean definitions to the C text but the comments
  with file and lines on every definition, which a reader has to compare.  No code was compiled or run.

### What the semantics assumes

* x86-64 Linux with gcc: `int` and `float` of 32 bits, `long`, pointers and `double` of 64, little-endian,
  `char` signed, `(int)` of an unrepresentable float is undefined, arithmetic in the format of the operands
  (FLT_EVAL_METHOD 0), no contraction to fused operations, round to nearest even.
* Allocation succeeds unless the number of bytes is negative (then the pointer is null), and gives a new block
  that does not overlap any other; its contents are arbitrary (an oracle in the memory state, which the theorems
  quantify over).  Blocks are never moved or reused, so use after free and double free are detected.
* An access beyond a block is undefined behaviour even if the byte lies in the padding of the allocator or in
  another part of a joint allocation.  The single `malloc` for header, data and wavelengths is modelled as three
  blocks, except in the theorems about the address arithmetic itself (C07, C11), which use concrete addresses.
* `hypercv_assert` prints and calls `exit(1)`: outcome `exit`.  What is printed is not modelled.
* Library functions: `memcpy`, `memset`, `strncpy`, `strcmp` and friends by their standard meaning; `sqrt` is
  correctly rounded; `pow(x, 2)` is the correctly rounded square; `printf %f` and `strtod` are correctly rounded;
  `acos`, `cos`, `sin`, `exp` are parameters (any function) where the theorems do not fix them; `rand` is an oracle.
* Files are byte lists, text files lists of characters; for `fscanf` the list of items it finds.  Reading and
  writing do not fail, `fopen` of a missing file gives null.
* Satellite code (C51, C69) is modelled over the exact reals: rounding is not modelled there.
* Termination: the loops of the C code are modelled by structural recursion over their range; loops without such
  a range carry fuel and an outcome `diverge`, and the theorems state what happens for every fuel.
* C++ objects (C52, C68) are values; the code is modelled as if `_cplusplus` were defined (no compiler does).

### Refuted properties

A property the code does not have is kept in `properties.jsonl` as a user would state it.  Its status is `partial`:
theorems with `refuted` in the name prove the negation (for all inputs of a kind where possible, otherwise for a
concrete one), the `_partial` theorems prove what remains true.  The notes in `MANIFEST.json` say which part is which.

### Which parts of the code are modelled

Generated from the comments of the definitions: source file, lines, definition, module.

* **EdgeSignalEnergy.c** (EdgeEnergy.lean): `edgeWeight1` 15-16, `edgeKernel` 15-22, `edgeSum` 37-40, `cal_edge_signal_energy` 9-46
* **GeometricTransformation.c** (Geometric.lean, Pyramid.lean, Rotate.lean, Session.lean): `simple_mat_flip_horizontal` 9-25, `simple_mat_flip_vertical` 28-44, `simple_mat_flip` 46-72, `hypercv_pyramid_down` 74-103, `pyrUpElem` 129-140, `hypercv_pyramid_up` 105-151, `FV.abs` 175-178, `rotAngle` 159, `cornerSum` 166-173, `extent` 175-178, `wider` 180-181, `rotPixel` 196-204, `rotToBip` 157-158, `hyper_mat_rotate` 154-208, `execImg` 7-72
* **HisEqualization.c** (HisEqualization.lean, LinearTension.lean): `histCount` 24-27, `histCumulate` 29-33, `HisEqualization` 13-37, `linStep` 65-69, `linScan` 57-71, `linM` 72, `linN` 73, `linByte` 79-90, `hyper_mat_linear_tension` 39-93
* **HoughLines.c** (Stubs.lean): `hypercv_hough_trans` 10-71
* **RadiometricCalibration.c** (Radiometric.lean): `relative_radiometric_correction` 9-32, `absolute_radiometric_correction` 40-63
* **cem.c** (Cem.lean): `cemToBsq` 18-19, `cemFilter` 39-56, `hyper_mat_cem` 14-70
* **cluster.c** (Cluster.lean): `kmDist` 10-13, `kmNearest` 67-76, `KmAcc` 40-42, `KmAcc.zero` 52-54, `kmPixel` 65-80, `kmMean` 86-90, `kmMoved` 91-92, `kmRound` 57-102, `kmLoop` 57-102, `hypercv_k_means` 24-105
* **colortransform.c** (Color.lean): `hypercv_colortransform` 21-39, `sm_binary2rgb` 46-65, `sm_gray2rgb` 72-91, `grayMaxStep` 121, `wRed` 127, `grayWeighted` 127, `grayMean` 135, `grayPixel` 116-136, `sm_rgb2gray` 98-142, `sm_bgr2rgb` 150-176
* **datatypechange.c** (Atof.lean, DataType.lean): `atofDigit` 413, `atofInt` 410-429, `atofDecimal` 437, `atofExp` 447, `atofTail` 434-449, `atofRest` 450-453, `atofResult` 454, `atofFinish` 431-454, `hypercv_atof` 393-455, `hyper_mat_uchar2short` 14-36, `hyper_mat_uchar2int` 43-65, `hyper_mat_uchar2float` 72-94, `hyper_mat_uchar2ushort` 101-123, `hyper_mat_float2int` 131-152, `narrow_char` 174-181, `hyper_mat_float2char` 159-189, `hyper_mat_float2short` 196-217, `narrow_ushort` 239-243, `hyper_mat_float2ushort` 224-250, `narrow_uchar` 272-279, `hyper_mat_float2uchar` 257-287, `narrow_uint` 309-316, `hyper_mat_float2uint` 294-324, `hyper_mat_ushort2float` 332-356, `narrow_sm_uchar` 382-383, `simple_mat_float2uchar` 363-386
* **dft.c** (Dft.lean, DftSize.lean): `dftTemp` 67, `dftAngle` 68, `dftSums` 60-71, `dftLoop` 56-75, `dftChecks` 29-32, `hypercv_dft_uchar` 41-76, `hypercv_dft_ushort` 78-113, `hypercv_dft` 27-39, `dftMove` 145, `specSums` 137-149, `specValue` 151, `hypercv_dft_frespectrum` 116-155, `idftSum` 182-190, `idftValue` 192, `idftLoop` 178-194, `idftChecks` 167-169, `hypercv_idft_uchar` 165-195, `hypercv_idft_ushort` 197-228, `hypercv_idft` 157-163, `magnitudeF` 247, `hypercv_magnitude` 230-251, `dftSearch` 15-22, `get_optimal_DFT_size` 9-25
* **dft.h** (DftSize.lean): `optimal_DFT_sizetab` 7-185
* **draw.c** (Draw.lean): `drawCopy` 10-20, `paint3` 34-36, `pointPixel` 30-40, `pointSquare` 26-42, `draw_POINT` 8-44, `lineRow` 69, `linePixel` 71-84, `lineStep` 69-85, `draw_line` 47-88
* **dwt.c** (Wavedec.lean, Wavelet.lean): `sub_wavedec_effects` 38-66, `sub_wavedec` 38-66, `hypercv_wavedec_effects` 145-173, `hypercv_wavedec` 145-173, `hypercv_dwt1D_float` 177-182, `LO_D_db3` 11, `HI_D_db3` 12, `LO_R_db3` 13, `HI_R_db3` 14, `LO_D_bior3_7` 18, `HI_D_bior3_7` 19, `LO_R_bior3_7` 20, `HI_R_bior3_7` 21, `SerialReverse` 24-36, `fillBase` 128-132, `set_wavelet_base` 119-144, `wavelet_base_free` 90-104, `wt_info_free` 106-116, `wt_coefset_free` 73-87
* **dwt.h** (Wavedec.lean, Wavelet.lean): `sub_wavedec_effects` 21-26, `hypercv_wavedec_effects` 11-17, `WaveletBase` 30-36, `WtInfo` 11-17, `WtCoefset` 21-26
* **filter.c** (Filter.lean, Filter2D.lean, Gaussian.lean, Gradient.lean, Integral.lean): `hypercv_make_const_border` 40-69, `copyBorderLoop` 538-551, `hypercv_copy_make_border` 504-553, `filterTap` 116-127, `filterRow` 109-128, `filterPixel` 102-129, `hypercv_filter2D` 86-132, `hypercv_medianblur` 140-170, `hypercv_meanblur` 178-213, `gaussTab` 223-226, `gaussSigma` 241, `gaussT` 249-250, `gaussFill` 247-261, `gaussScale` 263-269, `gaussian_kernel` 217-271, `clampF` 390-393, `gaussRowTap` 368-386, `gaussRow` 364-402, `gaussColTap` 415-431, `gaussCol` 410-451, `hypercv_gaussian_blur_with_kernel` 322-454, `hypercv_gaussian_blur` 282-313, `tapIndex` 107-117, `integralStep` 484-489, `hypercv_integral` 461-491
* **gradient.c** (Gradient.lean, Work.lean): `tapIndex` 47-55, `tapIndex` 111-118, `lapKernel` 25-32, `lapTap` 47-57, `lapPixel` 42-60, `hypercv_laplacian` 16-63, `sobelX` 92, `sobelY` 93, `sobelTap` 111-121, `sobelPixel` 104-127, `hypercv_sobel` 75-130, `execWork` 16-130
* **hypercvresize.c** (Stubs.lean): `simple_mat_resize` 9-19
* **hypermat.c** (Alloc.lean, ClientFiles.lean, Files.lean, Header.lean, HyperMat.lean, Interrupt.lean, ShowInfo.lean, Work.lean): `cubeAllocSize` 180-188, `cubeAddrs` 192-200, `hmreadFile` 225-264, `writehdrFile` 337-386, `hmsaveFile` 309-325, `writehdr` 337-386, `hmsave` 309-325, `fgetsLines` 9-11, `Hdr.init` 86-91, `scanItem` 95, `scanTag` 117-123, `scanTag` 231, `collectWave` 130-137, `waveLoop` 46-59, `readWave` 127-142, `readWave` 39-62, `hdrStep` 95-143, `hdrLoop` 93-144, `readhdr` 82-145, `hmread_with_hdr` 225-264, `hmread_with_size` 275-302, `cmpLoop` 29-31, `cmpstr` 22-35, `memcpyIf` 202-206, `create_hyper_mat_with_data` 172-217, `create_hyper_mat` 155-159, `hyper_mat_copy` 394-408, `hyper_mat_copy_wavelength` 442-457, `hyper_mat_copy_to` 415-435, `hyper_mat_empty` 490-496, `delete_hyper_mat` 502-509, `hmsaveActs` 319, `hmsaveActs` 359-384, `hmsaveActs` 323, `hyper_mat_showinfo` 463-484, `execWork` 225-264
* **hypermat.cpp** (HyHeader.lean, HyMat.lean): `getlineAux` 62, `scanVar` 69-78, `braced` 97-99, `collectBraced` 93-101, `storeWaves` 102-107, `hdrRound` 64-109, `hdrRounds` 62-110, `readHdr` 48-113, `bil2bsq` 120-154, `bil2bip` 161-195, `bsq2bil` 201-238, `bsq2bip` 245-281, `bip2bsq` 288-324, `bip2bil` 331-367
* **hypermat.hpp** (Files.lean, HyHeader.lean, HyMat.lean): `HyMat.saveFile` 228-263, `openHdr` 294-326, `hdrPath` 265-268, `writeHdr` 270-291, `save` 228-263, `HyMat` 24-43, `release` 442-453, `empty` 232-238, `typeOk` 125-133, `tagOf` 146-162, `orZeros` 167-181, `releaseIf` 136-137, `create` 122-182, `default` 83-86, `construct` 88-108, `copyData` 199-208, `copyWaveLength` 210-219, `copy` 184-197, `readFile` 356, `openSize` 327-359, `hmreadSize` 467-472, `hmreadHdr` 455-465, `moveElem` 413-414, `index` 379-409, `convertTo` 361-439, `rangeIndex` 501, `range` 475-553
* **imageprocess.c** (Client.lean, EdgeEnergy.lean, ImageProcess.lean, Interleave.lean, Session.lean, Work.lean): `conversion` 83-375, `conversionIn` 4-76, `simple_mat_addition_float` 599-626, `simple_mat_log` 628-641, `copyElemI` 421-422, `rangeBil` 410-426, `rangeBip` 427-444, `rangeBsq` 445-460, `rangeLoops` 410-462, `rangeWave` 464-470, `hyper_mat_get_range` 388-472, `reshape_hypermat_2_simplemat` 481-498, `hyper_mat_2_simple_mat` 506-520, `simple_mat_2_hyper_mat` 529-542, `simple_mat_transport` 549-567, `simple_mat_addition_uchar` 569-597, `hyper_mat_splicing` 643-653, `copyWave` 119-123, `copyElem` 113-114, `bil2bsq` 83-126, `bil2bip` 133-176, `bsq2bil` 183-226, `bsq2bip` 233-277, `bip2bsq` 284-327, `bip2bil` 334-375, `convert2bsq` 4-26, `convert2bil` 28-51, `convert2bip` 53-76, `execImg` 549-567, `execSession` 481-542, `execWork` 569-597
* **mathprocess.c** (Math.lean): `mean_double` 15-22, `mean_uint` 29-36, `mean_short` 43-50, `mean_ushort` 57-64, `mean_float` 71-78, `mean_uchar` 85-92, `mean_char` 99-106, `mean_int` 113-120, `sortStep` 131-138, `sortRounds` 124-141, `sort_array_down_float` 122-142, `hypercv_factorial_tab` 9, `factLoop` 153-157, `hypercv_factorial` 145-159
* **matrixprocess.c** (Decomp.lean, GaussJordan.lean, Matrix.lean): `rootF` 220, `matrix_norm_float` 215-222, `qrProject` 236-243, `qrColumn` 231-248, `matrix_QR_float` 224-250, `eigEliminate` 266-277, `eigBack` 284-291, `eigColumn` 259-296, `cal_eigen_vector_float` 252-298, `gId` 356-368, `gSwap` 370-383, `gScale` 385-391, `gShear` 394-399, `gFind` 411-415, `gPivot` 409-420, `gRows` 425-431, `gElim` 421-431, `gLoop` 406-432, `gInvert` 402-433, `mulStep` 16, `mulMatrix` 13-16, `MulMatrix_char` 11-17, `MulMatrix_uchar` 25-31, `MulMatrix_short` 39-45, `MulMatrix_ushort` 53-59, `MulMatrix_int` 68-74, `MulMatrix_uint` 82-88, `MulMatrix_float` 96-102, `MulMatrix_double` 110-116, `transStep` 128, `TransMatrix_double` 124-129, `TransMatrix_short` 136-141, `TransMatrix_char` 148-153, `TransMatrix_ushort` 160-165, `TransMatrix_uchar` 172-177, `TransMatrix_int` 184-189, `TransMatrix_float` 196-201, `TransMatrix_uint` 208-213, `correlation_matrix_uchar` 300-306, `correlation_matrix_char` 308-314, `correlation_matrix_short` 316-322, `correlation_matrix_ushort` 324-330, `correlation_matrix_int` 332-338, `correlation_matrix_uint` 340-346, `correlation_matrix_float` 348-354, `set_identity_matrix_float` 356-368, `swap_rows_float` 370-383, `matrix_row_multi_scalar_float` 385-391, `shear_row` 394-399, `findPivot` 411-415, `pivotStep` 409-420, `eliminate` 421-431, `invert_matrix_float` 402-433
* **morphology.c** (Morphology.lean): `morphInside` 55, `morphTap` 57, `morphFlag` 51-61, `corrodePixel` 47-70, `expendPixel` 111-134, `morphRun` 36-71, `hypercv_corrosion` 17-72, `hypercv_expend` 81-136, `hypercv_open` 147-165, `hypercv_close` 175-193
* **normalize.c** (Normalize.lean): `normVal` 39, `normBits` 40, `normSq` 54, `normAbs` 46, `normL1` 44-46, `normL2` 52-54, `normInf` 61-63, `mmStep` 72-73, `normMM` 69-74, `normDiv` 48, `normDivSqrt` 56, `normStretch` 75-79, `normApply` 47-48, `normalizeT` 29-81, `normalizeT` 84-136, `hypercv_normalize_uchar` 29-81, `hypercv_normalize_float` 84-136, `hypercv_normalize` 18-27
* **pca.c** (Pca.lean): `pcaCentre` 20-22, `cal_covariance_matrix` 9-32, `pcaRound` 57-58, `pcaDiagonal` 63-64, `pcaProject` 51-72, `hyper_mat_pca` 36-88
* **shapematch.c** (Shape.lean): `huFirst` 47-56, `huCentre` 57, `huMoments` 61-76, `huNormalise` 79-85, `huValues` 88-101, `calc_hu_moment` 24-102, `calc_similar_hu` 8-21, `hypercv_match_shapes` 105-118
* **simplemat.c** (Bmp.lean, Session.lean, SimpleMat.lean, SimpleMatFile.lean, Statistics.lean, Wavelet.lean): `swapBytes` 152-154, `smread_bmp` 119-176, `bmpHeaders` 211-236, `bmpRows` 252-266, `smwrite_bmp` 183-269, `execImg` 11-111, `create_simple_mat_with_data` 26-61, `create_simple_mat` 11-15, `simple_mat_copy` 95-111, `pixelAddr` 47-48, `delete_simple_mat` 492-509, `smread` 68-88, `statElem` 285-316, `statType` 285, `simple_mat_mean` 276-318, `simple_mat_variance` 325-368, `greyOfMat` 387-390, `simple_mat_grayscale_statistics` 375-399, `contrastTerm` 432-439, `contrastPixel` 432-439, `simple_mat_contrast_ratio` 407-443, `simple_mat_entropy` 451-486, `freePlain` 42
* **simplemat.h** (Draw.lean): `RGB` 48-53
* **spectralprocess.c** (Spectral.lean): `sp_average` 4-10, `sp_variance` 12-19, `sp_standard_deviation` 21-25, `absInt` 96, `samLoop` 90-99, `spectral_angle_mapper` 86-104, `euclidean_distance` 140-150, `spectrum_SAM_match` 39-78, `spectrumLoop` 123-127, `read_spectrum_file` 111-132, `hyper_mat_mean` 156-177, `hyper_mat_transport` 184-202
* **struct_2D.c** (Morphology.lean): `create_2D_struct_with_data` 34-49, `create_2D_struct` 14-25, `delete_S_2D` 55-62
* **struct_2D.h** (Morphology.lean): `S2D` 10-15
* **threshold.c** (Otsu.lean, Session.lean, Threshold.lean): `otsuLuma` 33, `otsuClamp` 34, `otsuIndex` 36, `otsuHist` 27, `otsuSum` 49-52, `otsuG` 46-60, `otsuScan` 40-66, `otsuThreshold` 9-70, `execImg` 72-258, `thresholdLoop` 74-93, `hypercv_threshold_binary` 72-93, `hypercv_threshold_binary_inv` 95-116, `hypercv_threshold_trunc` 118-139, `hypercv_threshold_tozero` 141-162, `hypercv_threshold_tozero_inv` 164-185, `hypercv_threshold_otsu` 189-214, `hypercv_threshold` 218-258
* **type.h** (Alloc.lean, Color.lean, Dft.lean, HyMat.lean, Rotate.lean, Round.lean, TypeH.lean): `align64` 19-22, `align64` 17, `hypercv_colortransform` 250-257, `piD` 226, `tagOf` 38-43, `piConst` 226, `hypercv_round` 97-119, `saturate_cast_float2uchar` 195-205, `get_elemsize` 48-81, `reflectLoop` 164-171, `wrapTail` 176-177, `borderFuel` 138-189, `byte_alignment` 19-22
* **vector.h** (Vector.lean): `vector_set_capacity` 9-14, `vector_set_size` 22-27, `vector_capacity` 34-35, `vector_size` 42-43, `vector_empty` 50-51, `vector_grow` 59-74, `vector_pop_back` 81-84, `vector_erase` 92-104, `vector_free` 111-118, `vector_reserve` 146-149, `vector_push_back` 144-152

## Not modelled

* window_gtk.c, smshow.c (display), GDAL paths, build scripts, tests and sample programs, everything printed except the report of hyper_mat_showinfo.
* hypermat.hpp:240-246: the calls of the GDAL library in save; files that cannot be opened for writing.
