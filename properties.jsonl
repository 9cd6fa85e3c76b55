{"id": "C01", "title": "Interleave conversions preserve every sample", "statement": "bil2bsq, bil2bip, bsq2bil, bsq2bip, bip2bsq and bip2bil applied to a well-formed cube in the expected interleave return a new cube with the same samples/lines/bands/data type and the target interleave tag, in which the element at (line, sample, band) has exactly the bytes the input has at (line, sample, band); wavelengths are copied, the input cube and every other object is unchanged, and no access leaves the buffers.", "quantifier": "all positive lines/samples/bands, all nine supported data types, all data contents whose byte size fits in int, all initial memories", "why_tests_cant": "index arithmetic over four nested loops must be right for every dimension triple and element size; tests use a few small shapes and cannot see out-of-bounds writes at other shapes", "anchors": ["modules/process/src/c_src/imageprocess.c: bil2bsq,bil2bip,bsq2bil,bsq2bip,bip2bsq,bip2bil"]}
{"id": "C02", "title": "Interleave conversions round-trip and compose", "statement": "Converting X to Y and back to X yields byte-identical data and wavelengths; converting X to Y to Z yields the same data as converting X to Z directly.", "quantifier": "all ordered pairs and triples of interleaves, all dimensions, element sizes and contents", "why_tests_cant": "a universally quantified algebraic law over unbounded data", "anchors": ["modules/process/src/c_src/imageprocess.c: bil2bsq,bil2bip,bsq2bil,bsq2bip,bip2bsq,bip2bil"]}
{"id": "C03", "title": "convert2bsq/bil/bip convert a cube in place", "statement": "For a well-formed cube in any of the three interleaves, convert2bsq (convert2bil, convert2bip) returns normally and leaves the same cube object tagged bsq (bil, bip), holding the same sample at every (line, sample, band) and the same wavelengths, also when it already had that interleave; nothing outside the cube changes and no memory is leaked.", "quantifier": "all three source interleaves x all three targets, all cubes, all heaps", "why_tests_cant": "the same-interleave path is a separate branch through the copy routine; whether a non-null result is returned is a property of all inputs on that path", "anchors": ["modules/process/src/c_src/imageprocess.c: convert2bsq,convert2bil,convert2bip", "modules/core/src/c_src/hypermat.c: hyper_mat_copy"]}
{"id": "C04", "title": "hyper_mat_copy returns an equal, independent copy", "statement": "For every non-null cube hyper_mat_copy returns a non-null cube with equal header, data bytes and wavelengths, stored in fresh memory; for a null pointer it does not dereference it.", "quantifier": "all cubes and the null pointer", "why_tests_cant": "independence of storage and totality over all inputs", "anchors": ["modules/core/src/c_src/hypermat.c: hyper_mat_copy"]}
{"id": "C05", "title": "hyper_mat_copy_to makes the destination equal to the source", "statement": "After hyper_mat_copy_to(src,dst) on two cubes with separate storage and equal dimensions and type, dst has src's interleave, data bytes and wavelengths, src is unchanged and no other object is written; different dimensions or types end in the error exit.", "quantifier": "all pairs of distinct cubes with sufficient destination storage", "why_tests_cant": "frame condition (nothing else is written) and all contents", "anchors": ["modules/core/src/c_src/hypermat.c: hyper_mat_copy_to, hyper_mat_copy_wavelength"]}
{"id": "C06", "title": "A newly created cube has the requested header and initial contents", "statement": "create_hyper_mat_with_data returns a cube whose header is the argument list, whose data equals the given data (or is all zero when NULL) and whose wavelengths equal the given ones (or are all zero when NULL), in fresh storage; it ends in the error exit when samples, lines or bands is not positive.", "quantifier": "all argument tuples whose byte size fits in int", "why_tests_cant": "holds for every size and content, including the failing argument combinations", "anchors": ["modules/core/src/c_src/hypermat.c: create_hyper_mat, create_hyper_mat_with_data"]}
{"id": "C07", "title": "Cube storage regions are aligned, in bounds and disjoint", "statement": "For every address the allocator may return, the data region and wavelength region of a created cube start on 64-byte boundaries, lie entirely inside the allocated block after the header, and do not overlap each other or the header.", "quantifier": "all allocator addresses, all data and wavelength sizes", "why_tests_cant": "depends on the address returned by malloc, which a test cannot choose", "anchors": ["modules/core/src/c_src/hypermat.c: create_hyper_mat_with_data", "modules/core/include/c_include/type.h: BYTE_ALIGNMENT"]}
{"id": "C08", "title": "Every documented data type has a storable element size", "statement": "For each data type code documented in the API (1,2,3,4,5,6,9,12,13,14,15) the element size used for allocation is the positive documented size, so creating a cube of that type succeeds.", "quantifier": "all documented data type codes, all dimensions", "why_tests_cant": "the failing codes lead to a negative byte count whose effect depends on memory layout", "anchors": ["modules/core/include/c_include/type.h: get_elemsize", "modules/core/src/c_src/hypermat.c: create_hyper_mat_with_data"]}
{"id": "C09", "title": "Cube byte-size computation cannot overflow", "statement": "For all positive dimensions and supported type create_hyper_mat either returns a cube whose data region has samples*lines*bands*elemsize bytes or reports an error; it never proceeds with a wrapped byte count.", "quantifier": "all dimension triples representable as int", "why_tests_cant": "overflow only occurs for cubes of 2 GiB and above which tests do not allocate", "anchors": ["modules/core/src/c_src/hypermat.c: create_hyper_mat_with_data"]}
{"id": "C10", "title": "A newly created image is zero-initialised over all channels", "statement": "create_simple_mat(rows,cols,type,channels) returns an image with that header and rows*cols*channels zero elements.", "quantifier": "all positive rows, cols, channels and supported types, all prior memory contents", "why_tests_cant": "uninitialised bytes often happen to be zero in tests; the claim must hold for every prior heap content", "anchors": ["modules/core/src/c_src/simplemat.c: create_simple_mat, create_simple_mat_with_data"]}
{"id": "C11", "title": "delete_simple_mat releases exactly the storage the image owns", "statement": "For every address returned by the allocator, deleting an image whose pixels are stored inline frees only the base block, and deleting an image with external pixel storage frees both blocks exactly once; no invalid pointer is ever passed to free.", "quantifier": "all 16-byte aligned allocator addresses for header and pixel block, all image sizes", "why_tests_cant": "which branch is taken depends on allocator addresses", "anchors": ["modules/core/src/c_src/simplemat.c: delete_simple_mat, create_simple_mat_with_data, smread"]}
{"id": "C12", "title": "Header text written by writehdr is read back by hmread_with_hdr", "statement": "Parsing the header file produced by writehdr yields the same samples, lines, bands, data type and interleave, and the same wavelengths whenever each wavelength is exactly representable with six decimals.", "quantifier": "all int values of the dimensions and type, all three interleaves, all wavelength vectors", "why_tests_cant": "decimal formatting/parsing round trip over unbounded digit strings and line counts", "anchors": ["modules/core/src/c_src/hypermat.c: writehdr, readhdr, read_wavelength"]}
{"id": "C13", "title": "Unrelated header fields do not disturb the parsed geometry", "statement": "Adding standard ENVI header lines other than samples, lines, bands, data type, interleave and wavelength to a header file does not change the values returned for those fields.", "quantifier": "all header files and all additional ENVI keyword lines", "why_tests_cant": "quantifies over all header texts; prefix matching of keywords only misfires for particular keywords", "anchors": ["modules/core/src/c_src/hypermat.c: readhdr, cmpstr"]}
{"id": "C14", "title": "Saving and reloading a cube is the identity", "statement": "hmsave followed by hmread_with_hdr on the produced pair of files returns a cube with identical header and data bytes (and wavelengths when exactly representable).", "quantifier": "all well-formed cubes", "why_tests_cant": "all sizes, types and contents", "anchors": ["modules/core/src/c_src/hypermat.c: hmsave, hmread_with_hdr"]}
{"id": "C15", "title": "Interleave tags are compared on exactly their three characters", "statement": "The interleave test used by the conversion routines returns true iff the three tag characters agree, regardless of the bytes that follow the unterminated three-character tag in memory; in general the comparison returns 1 iff one string is a prefix of the other.", "quantifier": "all byte contents following the tag, all strings", "why_tests_cant": "depends on memory contents beyond the array", "anchors": ["modules/core/src/c_src/hypermat.c: cmpstr"]}
{"id": "C16", "title": "Range extraction returns exactly the requested sub-cube", "statement": "hyper_mat_get_range on a well-formed cube and a range inside it returns a cube of the range's size whose element (i,j,k) equals the source element offset by the range start, with the interleave preserved and the source unchanged; a range reaching outside the cube is rejected rather than read out of bounds.", "quantifier": "all three interleaves, all cubes and all ranges", "why_tests_cant": "index arithmetic for all shapes; the rejection clause concerns every out-of-range request", "anchors": ["modules/process/src/c_src/imageprocess.c: hyper_mat_get_range"]}
{"id": "C17", "title": "Band extraction and insertion are inverse", "statement": "hyper_mat_2_simple_mat extracts exactly the elements of the chosen band into the image; simple_mat_2_hyper_mat stores an image as the chosen band leaving all other bands unchanged; extracting after inserting returns the image and inserting what was extracted leaves the cube unchanged.", "quantifier": "all band indices, all dimensions, all data types", "why_tests_cant": "all shapes and types, including multi-byte elements where the byte offset matters", "anchors": ["modules/process/src/c_src/imageprocess.c: hyper_mat_2_simple_mat, simple_mat_2_hyper_mat"]}
{"id": "C18", "title": "Reshaping a cube into an image keeps the element sequence", "statement": "reshape_hypermat_2_simplemat(cube, rows, cols) returns an image with the requested rows and cols and the cube's elements in the same order, and refuses requests that change the number of elements.", "quantifier": "all cubes and target shapes", "why_tests_cant": "all shapes", "anchors": ["modules/process/src/c_src/imageprocess.c: reshape"]}
{"id": "C19", "title": "Transpose moves element (i,j) to (j,i) and is an involution", "statement": "simple_mat_transport swaps row and column of every element of every supported type; applying it twice returns the original image.", "quantifier": "all image sizes, channel counts and element types", "why_tests_cant": "all shapes including non-square ones", "anchors": ["modules/process/src/c_src/imageprocess.c: simple_mat_transport"]}
{"id": "C20", "title": "Flips compute the mirrored image and are involutions", "statement": "simple_mat_flip with code 1/0/-1 places source pixel (i,j) at (i,cols-1-j)/(rows-1-i,j)/(rows-1-i,cols-1-j) for every channel, touching only the destination; each flip applied twice is the identity, and the -1 flip equals the composition of the other two in either order.", "quantifier": "all byte images, all sizes and channel counts, all flip codes", "why_tests_cant": "algebraic laws over all images", "anchors": ["modules/process/src/c_src/GeometricTransformation.c: flip_horizontal, flip_vertical, simple_mat_flip"]}
{"id": "C21", "title": "Border extrapolation always yields an in-range index given by the documented pattern", "statement": "hypercv_border_Interpolate(p,len,type) terminates and returns a value in [0,len): the clamped index for REPLICATE, p mod len for WRAP, and the (half-sample / whole-sample) symmetric periodic extension for REFLECT and REFLECT_101; indices already inside are returned unchanged.", "quantifier": "all len>=1 and all integer p for which the documented extension is defined, all border types", "why_tests_cant": "reflection iterates an input-dependent number of times; only induction covers every p", "anchors": ["modules/core/include/c_include/type.h: hypercv_border_Interpolate"]}
{"id": "C22", "title": "Padding an image keeps the interior and fills the border by the border rule", "statement": "copy_make_border returns an image enlarged by the requested margins whose interior equals the source and whose margin pixels equal the source pixel selected by the border rule (or the fill value).", "quantifier": "all images, margins and border types", "why_tests_cant": "all shapes and margins", "anchors": ["modules/process/src/c_src/filter.c: copy_make_border, make_const_border", "modules/core/include/c_include/type.h: hypercv_border_Interpolate"]}
{"id": "C23", "title": "Fixed thresholding is the documented pointwise function", "statement": "hypercv_threshold with BINARY/BINARY_INV/TRUNC/TOZERO/TOZERO_INV sets each destination pixel to the documented function of the source pixel at the same place, for every threshold and maximum value, touching nothing else.", "quantifier": "all images, thresholds, maxima and the five modes", "why_tests_cant": "all pixel values, thresholds and image sizes", "anchors": ["modules/process/src/c_src/threshold.c: hypercv_threshold and threshold_*"]}
{"id": "C24", "title": "Threshold modes satisfy their complement and idempotence laws", "statement": "BINARY and BINARY_INV outputs add up to the maximum everywhere; TOZERO plus TOZERO_INV outputs add up to the source; TRUNC and TOZERO are idempotent; TRUNC is monotone in the source.", "quantifier": "all images, thresholds and maxima", "why_tests_cant": "relates two runs on arbitrary inputs", "anchors": ["modules/process/src/c_src/threshold.c"]}
{"id": "C25", "title": "Otsu thresholding reads only the image", "statement": "hypercv_threshold with OTSU on a single-channel byte image reads only pixels of that image.", "quantifier": "all single-channel byte images", "why_tests_cant": "out-of-bounds reads are silent in tests", "anchors": ["modules/process/src/c_src/threshold.c: otsuThreshold, threshold_otsu"]}
{"id": "C26", "title": "Byte cubes widen exactly", "statement": "hyper_mat_uchar2short/int/float/ushort return a cube of the new type in which every element has the same numeric value, same geometry and wavelengths.", "quantifier": "all byte cubes", "why_tests_cant": "all contents and sizes", "anchors": ["modules/process/src/c_src/datatypechange.c: hyper_mat_uchar2*"]}
{"id": "C27", "title": "Float cubes narrow by rounding to nearest even with saturation", "statement": "hyper_mat_float2int/char/short/ushort/uchar/uint and simple_mat_float2uchar map every finite element to the nearest integer (ties to even) clamped to the range of the target type.", "quantifier": "all float bit patterns, all cube sizes", "why_tests_cant": "2^32 bit patterns per element; boundary cases at the clamp limits", "anchors": ["modules/process/src/c_src/datatypechange.c: hyper_mat_float2*, simple_mat_float2uchar", "modules/core/include/c_include/type.h: HYPERCV_ROUND"]}
{"id": "C28", "title": "Widening a byte or ushort cube to float and back is the identity", "statement": "hyper_mat_float2uchar(hyper_mat_uchar2float(m)) equals m, and likewise for ushort.", "quantifier": "all byte / ushort cubes", "why_tests_cant": "round trip over all contents", "anchors": ["modules/process/src/c_src/datatypechange.c"]}
{"id": "C29", "title": "The vector macros behave as a sequence", "statement": "Any history of push_back, pop_back on a non-empty vector, erase and free keeps the vector's visible elements equal to the corresponding list, with size and capacity as reported, writes only inside its allocation, and erasing an index out of range changes nothing.", "quantifier": "all histories of operations and all element values, starting from NULL", "why_tests_cant": "unbounded operation histories with reallocation", "anchors": ["modules/core/include/c_include/vector.h"]}
{"id": "C30", "title": "Vector growth is geometric", "statement": "After n push_backs from NULL the capacity is the least power of two >= n and the number of reallocations is at most log2(n)+1.", "quantifier": "all n", "why_tests_cant": "asymptotic claim over all n", "anchors": ["modules/core/include/c_include/vector.h: vector_push_back, vector_grow"]}
{"id": "C31", "title": "BMP write followed by read returns the image", "statement": "smread_bmp applied to the file smwrite_bmp produced for a 3-channel byte image returns an image with the same size and pixels (as they were before the write); for a 1-channel image it returns the grey-replicated 3-channel image.", "quantifier": "all image sizes and contents whose file size fits in int, all contents of uninitialised padding", "why_tests_cant": "row padding depends on width mod 4; uninitialised padding bytes vary between runs", "anchors": ["modules/core/src/c_src/simplemat.c: smwrite_bmp, smread_bmp"]}
{"id": "C32", "title": "Writing a BMP leaves the image unchanged and stores rows bottom-up in BGR order", "statement": "smwrite_bmp does not modify its argument and the file stores row height-1-r of the image, with channels in B,G,R order, at row r.", "quantifier": "all images", "why_tests_cant": "holds for every shape including odd heights", "anchors": ["modules/core/src/c_src/simplemat.c: smwrite_bmp"]}
{"id": "C33", "title": "The integral image equals the sum over the upper-left rectangle", "statement": "integral(src) at (i,j) is the sum of src over rows 0..i and columns 0..j, and rectangle sums are obtained by the four-corner difference.", "quantifier": "all images", "why_tests_cant": "inductive recurrence over all sizes", "anchors": ["modules/process/src/c_src/filter.c: integral"]}
{"id": "C34", "title": "Gaussian blur with the built-in kernels preserves constant images and stays in range", "statement": "gaussian_blur with sizes 1, 3, 5 or 7 in each direction and sigmas that are not positive maps a byte image that is constant in each channel to itself, for every image size, for one and three channels (the program ends for other counts) and for the border modes REPLICATE, REFLECT, WRAP and REFLECT_101; the built-in kernels sum to exactly one, every output is the exactly rounded weighted mean of the neighbourhood, and every output lies between the minimum and maximum of its channel; no other existing memory changes.", "quantifier": "all image sizes, contents and the four border modes", "why_tests_cant": "floating-point exactness over all inputs", "anchors": ["modules/process/src/c_src/filter.c: gaussian_blur, gaussian_kernel, gaussian_blur_with_kernel"]}
{"id": "C35", "title": "filter2D computes the correlation with the kernel", "statement": "After filter2D the destination pixel is the kernel-weighted sum of the border-extended source neighbourhood, independent of the previous contents of the destination.", "quantifier": "all images, kernels, border types and all previous destination contents", "why_tests_cant": "dependence on stale destination contents is invisible when tests use fresh buffers", "anchors": ["modules/process/src/c_src/filter.c: filter2D"]}
{"id": "C36", "title": "Laplacian and Sobel of a constant image are zero", "statement": "laplacian and sobel produce the all-zero image for every constant input.", "quantifier": "all image sizes, all constants, border modes", "why_tests_cant": "all sizes including one-pixel-wide images", "anchors": ["modules/process/src/c_src/gradient.c: laplacian, sobel"]}
{"id": "C37", "title": "Erosion and dilation are the set-theoretic operations", "statement": "corrosion sets a pixel iff the structuring element translated there fits in the foreground; expend sets it iff the translated element meets the foreground; erosion shrinks and dilation grows the foreground.", "quantifier": "all binary images and structuring elements", "why_tests_cant": "all shapes including non-square images", "anchors": ["modules/process/src/c_src/morphology.c: corrosion, expend"]}
{"id": "C38", "title": "Opening is erosion then dilation, closing the reverse", "statement": "hypercv_open equals dilation of the erosion; hypercv_close equals erosion of the dilation.", "quantifier": "all binary images, elements and iteration counts", "why_tests_cant": "relates composite runs on arbitrary inputs", "anchors": ["modules/process/src/c_src/morphology.c: hypercv_open, hypercv_close"]}
{"id": "C39", "title": "sort_array_down_float sorts", "statement": "After the call the array is a permutation of the input in non-increasing order.", "quantifier": "all arrays (of numbers) of every length", "why_tests_cant": "early-exit bubble sort correctness needs induction", "anchors": ["modules/process/src/c_src/mathprocess.c: sort_array_down_float"]}
{"id": "C40", "title": "hypercv_factorial returns n!", "statement": "hypercv_factorial(n) = n! for all 0<=n<=20 and -1 for negative n.", "quantifier": "all n for which the result fits the return type", "why_tests_cant": "table entries are not individually exercised", "anchors": ["modules/process/src/c_src/mathprocess.c: hypercv_factorial"]}
{"id": "C41", "title": "Matrix multiplication computes the product", "statement": "MulMatrix_* sets z to the matrix product x*y for every previous content of z.", "quantifier": "all dimensions, entries and previous contents of z", "why_tests_cant": "stale output contents", "anchors": ["modules/process/src/c_src/matrixprocess.c: MulMatrix_*"]}
{"id": "C42", "title": "Matrix transpose", "statement": "TransMatrix_* stores x(i,j) at y(j,i) for all i,j and applying it twice is the identity.", "quantifier": "all dimensions and entries", "why_tests_cant": "all non-square shapes", "anchors": ["modules/process/src/c_src/matrixprocess.c: TransMatrix_*"]}
{"id": "C43", "title": "Matrix inversion", "statement": "invert_matrix_float leaves in its output a matrix R with R*A = I whenever A is invertible (exact arithmetic), for every dimension, and signals failure otherwise.", "quantifier": "all square matrices of all dimensions", "why_tests_cant": "correctness of Gauss-Jordan elimination for every dimension", "anchors": ["modules/process/src/c_src/matrixprocess.c: invert_matrix_float, swap_rows, row_multi_scalar, shear_row, set_identity"]}
{"id": "C44", "title": "Optimal DFT size is the least 5-smooth size", "statement": "get_optimal_DFT_size(n) returns the least number of the form 2^a 3^b 5^c that is >= n for every n up to the largest table entry, and -1 for negative n.", "quantifier": "all int n", "why_tests_cant": "binary search over 1651 entries: all n must be covered", "anchors": ["modules/algorithm/src/dft.c: get_optimal_DFT_size", "modules/algorithm/include/algorithm/dft.h: optimal_DFT_sizetab"]}
{"id": "C45", "title": "Colour conversions", "statement": "sm_gray2rgb replicates the grey value; sm_rgb2gray computes maximum, rounded mean or weighted sum pixelwise; grey to rgb to grey is the identity for the maximum and mean methods; sm_bgr2rgb swaps the outer channels and is an involution.", "quantifier": "all images and methods", "why_tests_cant": "all contents and sizes", "anchors": ["modules/process/src/c_src/colortransform.c"]}
{"id": "C46", "title": "draw_POINT paints exactly the clipped square", "statement": "draw_POINT changes exactly the pixels of the square of half-width size/2 around the point that lie inside the image to the given colour, and never writes outside the image.", "quantifier": "every pair of separate 1- or 3-channel byte images of equal size, every list of points and every size such that the coordinates of the squares are representable as int, every colour", "why_tests_cant": "clipping for every position", "anchors": ["modules/highgui/src/draw.c: draw_POINT"]}
{"id": "C47", "title": "draw_line paints the segment", "statement": "draw_line changes pixels of the image between the two end points to the given colour for both 1- and 3-channel images.", "quantifier": "all images, end points and colours", "why_tests_cant": "all slopes including horizontal and vertical segments", "anchors": ["modules/highgui/src/draw.c: draw_line"]}
{"id": "C48", "title": "Histogram equalisation maps by the normalised cumulative histogram", "statement": "HisEqualization maps grey level v to floor(255*CDF(v)/N), monotonically, without overflow.", "quantifier": "all byte images", "why_tests_cant": "all histograms", "anchors": ["modules/algorithm/src/HisEqualization.c: HisEqualization"]}
{"id": "C49", "title": "Image statistics are defined for every byte image", "statement": "gray statistics, contrast, entropy, median blur and mean blur return normally for well-formed images.", "quantifier": "all well-formed images", "why_tests_cant": "a failing internal check affects every input of the domain; the claim is universal", "anchors": ["modules/core/src/c_src/simplemat.c: grayscale statistics, entropy", "modules/process/src/c_src/filter.c: medianblur, meanblur"]}
{"id": "C50", "title": "k-means returns stable cluster centres", "statement": "hypercv_k_means returns for every image, number of clusters, random start and threshold; each returned centre lies inside the image and is the (truncated) mean of the foreground pixels nearest to it.", "quantifier": "all grey and colour images, numbers of clusters, random initial centres and thresholds", "why_tests_cant": "The iteration runs over all initialisations and an unbounded number of rounds.", "anchors": ["modules/algorithm/src/cluster.c: hypercv_k_means"]}
{"id": "C51", "title": "Satellite position lies on the orbit sphere", "statement": "The ECEF position computed from latitude, longitude and radius has Euclidean norm equal to the radius (exact arithmetic).", "quantifier": "all angles and radii", "why_tests_cant": "trigonometric identity over reals", "anchors": ["modules/satellite/src/satellite_orbit.c: get_satellite_position_ecef"]}
{"id": "C52", "title": "C++ cube objects can be default constructed, copied and read", "statement": "HyMat's default constructor, copy() and hmread return normally, so that the object interface is usable; conversions between interleaves preserve samples.", "quantifier": "all cubes", "why_tests_cant": "universal claim about constructor behaviour", "anchors": ["modules/core/include/cxx_include/hypermat.hpp", "modules/core/src/cxx_src/hypermat.cpp"]}
{"id": "C53", "title": "Converting a cube that already has the target interleave returns an equal copy", "statement": "bil2bsq, bip2bsq, bsq2bil, bip2bil, bil2bip and bsq2bip called on a cube that is already in the target interleave return a non-null equal copy.", "quantifier": "all cubes already in the target interleave", "why_tests_cant": "must hold for every cube; a test exercises a few sizes", "anchors": ["modules/process/src/c_src/imageprocess.c: bil2bsq,bil2bip,bsq2bil,bsq2bip,bip2bsq,bip2bil", "modules/core/src/c_src/hypermat.c: hyper_mat_copy"]}
{"id": "C54", "title": "Copying an image gives an independent identical image", "statement": "simple_mat_copy returns a new image with the same rows, columns, type, channels and element bytes, in storage that shares nothing with the source, and changes nothing else.", "quantifier": "all images of all types and channel counts, all previous heap contents", "why_tests_cant": "every shape, content and heap state", "anchors": ["modules/core/src/c_src/simplemat.c: simple_mat_copy"]}
{"id": "C55", "title": "The saturating cast rounds to nearest even and limits to 0..255", "statement": "saturate_cast_float2uchar(x) is the nearest integer to x, ties to even, limited to 0..255; +infinity gives 255 and -infinity gives 0.", "quantifier": "all non-NaN float values", "why_tests_cant": "2^32 inputs with half-way cases and limits", "anchors": ["modules/core/include/c_include/type.h: saturate_cast_float2uchar, HYPERCV_ROUND"]}
{"id": "C56", "title": "Popping an empty vector leaves it empty", "statement": "vector_pop_back on an empty vector leaves an empty vector, as it does on a NULL vector.", "quantifier": "all heaps and element sizes, every way of reaching an empty vector", "why_tests_cant": "the empty state is reachable by arbitrarily many histories", "anchors": ["modules/core/include/c_include/vector.h: vector_pop_back, vector_size"]}
{"id": "C57", "title": "Binary images become black and white colour images", "statement": "sm_binary2rgb maps background (0) pixels to black and foreground pixels to white, whatever non-zero value marks the foreground.", "quantifier": "all one-channel byte images with two levels", "why_tests_cant": "depends on the foreground value; a test uses one", "anchors": ["modules/process/src/c_src/colortransform.c: sm_binary2rgb"]}
{"id": "C58", "title": "hypercv_colortransform returns the converted image", "statement": "hypercv_colortransform returns a converted image for each of its conversion codes.", "quantifier": "all images and codes", "why_tests_cant": "a missing return value is undefined behaviour: tests may pass by accident", "anchors": ["modules/process/src/c_src/colortransform.c: hypercv_colortransform"]}
{"id": "C59", "title": "Writing a BMP file leaves nothing allocated", "statement": "smwrite_bmp returns with the same set of live allocations it was called with.", "quantifier": "all images with one or three channels", "why_tests_cant": "leaks are invisible to output checks and depend on the channel count", "anchors": ["modules/core/src/c_src/simplemat.c: smwrite_bmp"]}
{"id": "C60", "title": "Reading a BMP file returns the image it describes", "statement": "For every valid uncompressed BMP file smread_bmp returns the image the file describes (rows bottom-up, colours blue, green, red) without accessing memory outside its buffers.", "quantifier": "all valid uncompressed files, any size and bit depth", "why_tests_cant": "heights, widths and bit depths are unbounded; only some parities go wrong", "anchors": ["modules/core/src/c_src/simplemat.c: smread_bmp"]}
{"id": "C61", "title": "Means of integer arrays are correctly rounded", "statement": "mean_uchar/char/short/ushort/int/uint(t, len) return the arithmetic mean of the len elements rounded once to float and modify nothing.", "quantifier": "for every array length and every element contents", "why_tests_cant": "The error appears only for sums beyond the 24-bit significand; small test arrays never reach it.", "anchors": ["modules/process/src/c_src/mathprocess.c: mean_uint, mean_short, mean_ushort, mean_uchar, mean_char, mean_int"]}
{"id": "C62", "title": "Median and mean blur never return", "statement": "hypercv_medianblur and hypercv_meanblur terminate the process for every non-NULL source image and dereference NULL for a NULL source; neither ever returns to the caller.", "quantifier": "all sources, destinations, window sizes and memory states", "why_tests_cant": "a crash on one image does not show that no image works", "anchors": ["modules/process/src/c_src/filter.c: hypercv_medianblur, hypercv_meanblur"]}
{"id": "C63", "title": "Structuring elements: creation and release", "statement": "create_2D_struct(w,h) returns an element of that size with every entry set, in fresh memory, and rejects sizes below 1; delete_S_2D releases everything create_2D_struct allocated.", "quantifier": "all sizes and memory states", "why_tests_cant": "leaks are not visible in results", "anchors": ["modules/core/src/c_src/struct_2D.c: create_2D_struct, create_2D_struct_with_data, delete_S_2D"]}
{"id": "C64", "title": "Mean and variance of an image", "statement": "simple_mat_mean returns the arithmetic mean of all samples and simple_mat_variance their variance, for every data type the library accepts and every image size, up to floating-point rounding.", "quantifier": "every one-channel image of every data type and size", "why_tests_cant": "The accumulated value depends on every sample and on the image size; wrong results only appear beyond a certain size, for certain data types or for negative samples.", "anchors": ["modules/core/src/c_src/simplemat.c: simple_mat_mean", "modules/core/src/c_src/simplemat.c: simple_mat_variance"]}
{"id": "C65", "title": "Contrast of an image", "statement": "simple_mat_contrast_ratio returns the mean squared difference over all pairs of neighbouring pixels (of the grey version of a colour image), for every image, and leaves memory as it was.", "quantifier": "every grey and colour byte image of every size", "why_tests_cant": "The neighbour pairs at all borders of all sizes have to be counted correctly, including images with a single row, column or pixel.", "anchors": ["modules/core/src/c_src/simplemat.c: simple_mat_contrast_ratio"]}
{"id": "C66", "title": "Separable filter with the caller's kernels", "statement": "hypercv_gaussian_blur_with_kernel replaces every element by the vertical weighted sum of horizontal weighted sums in the continued image, each limited to 0..255, rounded to the nearest integer, for every pair of kernels, and changes no other existing memory.", "quantifier": "all one- and three-channel images, border types and kernels of any length and any float weights", "why_tests_cant": "It ranges over all images, sizes, border types and real-valued weights including negative ones.", "anchors": ["modules/process/src/c_src/filter.c: hypercv_gaussian_blur_with_kernel"]}
{"id": "C67", "title": "Reading an image with given sizes", "statement": "hmread_with_size returns a new cube of the given geometry, type and order that contains the bytes of the file and whose other contents (wavelengths, elements behind the end of a short file) are determined by the arguments; nothing else changes.", "quantifier": "all sizes, types, orders, file contents and states of the memory", "why_tests_cant": "It ranges over all files and over all contents of uninitialised memory.", "anchors": ["modules/core/src/c_src/hypermat.c: hmread_with_size"]}
{"id": "C68", "title": "C++ cubes: conversion in place and parts", "statement": "convertTo changes the order of the elements of a cube object to any other order without changing any element or wavelength and touches no other memory, converting there and back restores every byte; range returns a new cube object that contains exactly the requested lines, samples and bands and their wavelengths.", "quantifier": "all cubes, orders, types and all ranges inside a cube", "why_tests_cant": "It ranges over all geometries, types, contents and ranges.", "anchors": ["modules/core/include/cxx_include/hypermat.hpp: HyMat::convertTo", "modules/core/include/cxx_include/hypermat.hpp: HyMat::range"]}
{"id": "C69", "title": "Orbit elements from parameters", "statement": "hypercv_create_orbit returns an orbit that is determined by its parameters: the eccentric anomaly solves Kepler's equation, the true anomaly is that of the eccentric anomaly, and without corrections the radius lies between perigee and apogee (exact arithmetic).", "quantifier": "all orbit parameters", "why_tests_cant": "It ranges over all parameters and all contents of uninitialised memory.", "anchors": ["modules/satellite/src/satellite_orbit.c: hypercv_create_orbit"]}
{"id": "C70", "title": "Transposition of a cube", "statement": "hyper_mat_transport fills a destination cube of exchanged samples and lines so that element (line i, sample j, band k) of it is element (line j, sample i, band k) of the source; the source and everything else is unchanged, and transposing twice gives the original.", "quantifier": "all band-sequential cubes of every element type, all heaps", "why_tests_cant": "It ranges over all geometries, element types and contents, and over what else is in memory.", "anchors": ["modules/process/src/c_src/spectralprocess.c: hyper_mat_transport"]}
{"id": "C71", "title": "Mean over the bands", "statement": "hyper_mat_mean stores in every pixel of the destination image the mean of the spectrum of that pixel and changes nothing else.", "quantifier": "all band-interleaved-by-pixel cubes and destination images", "why_tests_cant": "It ranges over all geometries, float contents and element types.", "anchors": ["modules/process/src/c_src/spectralprocess.c: hyper_mat_mean", "modules/process/src/c_src/spectralprocess.c: sp_average"]}
{"id": "C72", "title": "Euclidean distance of spectra", "statement": "euclidean_distance is symmetric, zero for equal spectra, and equal to the square root of the sum of the squared differences up to rounding.", "quantifier": "all pairs of float spectra", "why_tests_cant": "It ranges over all float arrays of every length.", "anchors": ["modules/process/src/c_src/spectralprocess.c: euclidean_distance"]}
{"id": "C73", "title": "Spectral angle", "statement": "spectral_angle_mapper is defined for all spectra, symmetric, zero for a spectrum and itself or a positive multiple of it, and distinguishes spectra that are not proportional.", "quantifier": "all pairs of float spectra", "why_tests_cant": "It ranges over all float arrays of every length.", "anchors": ["modules/process/src/c_src/spectralprocess.c: spectral_angle_mapper"]}
{"id": "C74", "title": "Matching pixels with a reference spectrum", "statement": "spectrum_SAM_match returns a new byte image that marks (1) exactly the pixels whose spectrum matches the reference within the threshold; nothing that existed is changed and no memory is lost.", "quantifier": "all cubes, references and thresholds", "why_tests_cant": "It ranges over all cubes, references and thresholds.", "anchors": ["modules/process/src/c_src/spectralprocess.c: spectrum_SAM_match"]}
{"id": "C75", "title": "Reading a spectrum from a file", "statement": "read_spectrum_file returns an array of the given length with the numbers of the file, for every content of the file.", "quantifier": "all files and lengths", "why_tests_cant": "It ranges over all file contents.", "anchors": ["modules/process/src/c_src/spectralprocess.c: read_spectrum_file"]}
{"id": "C76", "title": "Absolute radiometric correction", "statement": "absolute_radiometric_correction returns a new float cube of the same geometry, order and wavelengths in which every element is the element of the argument times the coefficient of its band; nothing that existed changes.", "quantifier": "all float cubes in every storage order and all arrays of one coefficient per band", "why_tests_cant": "It ranges over all geometries, orders, float contents and heaps.", "anchors": ["modules/process/src/c_src/RadiometricCalibration.c: absolute_radiometric_correction"]}
{"id": "C77", "title": "Relative radiometric correction", "statement": "relative_radiometric_correction multiplies every element (line, sample, band) of a cube of unsigned short by the coefficient of its band and sample, taken from a table with one row of samples for every band, and stays inside the table.", "quantifier": "all cubes of unsigned short and all tables of bands \u00d7 samples coefficients", "why_tests_cant": "It ranges over all geometries: square geometries, the ones tests would use, behave.", "anchors": ["modules/process/src/c_src/RadiometricCalibration.c: relative_radiometric_correction"]}
{"id": "C78", "title": "Linear stretch of a cube", "statement": "hyper_mat_linear_tension maps every band of a float cube linearly onto the bytes 0..255: the smallest value of a band becomes 0, the largest 255, larger values never get smaller bytes, and only the data of the destination change.", "quantifier": "all pairs of separate bsq cubes (float and byte) of equal geometry, and all finite contents", "why_tests_cant": "The result depends on the extremes of every band and on float rounding at every magnitude; constant bands and negative values only fail for particular contents.", "anchors": ["modules/algorithm/src/HisEqualization.c: hyper_mat_linear_tension"]}
{"id": "C79", "title": "Range normalisation", "statement": "hypercv_normalize with MINMAX maps the values of an image linearly so that the smallest becomes min(alpha,beta) and the largest max(alpha,beta), in every channel; only the pixels of the destination change and source and destination may be the same image.", "quantifier": "all byte and float images, all limits and all contents", "why_tests_cant": "The result depends on the extremes of all pixels and on rounding; constant images, values beyond the search bounds and further channels only fail for particular inputs.", "anchors": ["modules/algorithm/src/normalize.c: hypercv_normalize", "modules/algorithm/src/normalize.c: hypercv_normalize_uchar", "modules/algorithm/src/normalize.c: hypercv_normalize_float"]}
{"id": "C80", "title": "Norm normalisation", "statement": "hypercv_normalize with INF, L1 or L2 scales an image so that its largest magnitude, the sum of its magnitudes or its Euclidean norm becomes alpha.", "quantifier": "all byte and float images, all alpha and all contents", "why_tests_cant": "The norm sums over all pixels, so its rounding depends on the size and content of the image.", "anchors": ["modules/algorithm/src/normalize.c: hypercv_normalize", "modules/algorithm/src/normalize.c: hypercv_normalize_uchar", "modules/algorithm/src/normalize.c: hypercv_normalize_float"]}
{"id": "C81", "title": "Normalising float images", "statement": "Normalising a float image gives float results (fractions are kept), and images of different types are refused.", "quantifier": "all float images and all destinations of the same size", "why_tests_cant": "The loss depends on the values and the range chosen; the write outside the destination appears for every size but only as memory corruption.", "anchors": ["modules/algorithm/src/normalize.c: hypercv_normalize_float", "modules/algorithm/src/normalize.c: hypercv_normalize"]}
{"id": "C82", "title": "Reducing an image", "statement": "hypercv_pyramid_down writes to pixel (i, j) of a destination of half the size the rounded Gaussian mean of the 5 x 5 neighbourhood of source pixel (2i, 2j); the result never leaves the range of the source; destinations that do not fit are refused; nothing else changes and no memory is left allocated.", "quantifier": "all byte images of at least 2 x 2 pixels with one or three channels, odd and even sizes, all contents", "why_tests_cant": "Every size (odd and even), border pixel and rounding case must be right; a leak or a write behind a destination with fewer channels is invisible to a comparison of pixels.", "anchors": ["modules/process/src/c_src/GeometricTransformation.c: hypercv_pyramid_down"]}
{"id": "C83", "title": "Enlarging an image", "statement": "hypercv_pyramid_up writes an image of twice the size, interpolated from the source; an image with one value is enlarged to the same value everywhere.", "quantifier": "all byte images of at least 2 x 2 pixels with one or three channels, all contents", "why_tests_cant": "The border depends on the parity of the position and on the continuation of the image; rounding and limiting must be right for all contents and sizes.", "anchors": ["modules/process/src/c_src/GeometricTransformation.c: hypercv_pyramid_up"]}
{"id": "C84", "title": "Rotating a cube", "statement": "hyper_mat_rotate returns a new cube that contains every pixel of the source at its rotated position, large enough for the rotated source and zero elsewhere; a rotation by zero degrees returns a cube of the same size with the same values; it never writes outside the new cube, and the source keeps its values.", "quantifier": "all cubes of any size, storage order and data type, and all angles", "why_tests_cant": "The position of each pixel results from rounded floating point arithmetic with the cosine and sine; an offset outside the destination appears only for certain combinations of size and angle.", "anchors": ["modules/process/src/c_src/GeometricTransformation.c: hyper_mat_rotate"]}
{"id": "C85", "title": "Detecting a spectrum", "statement": "hyper_mat_cem returns for every float cube an image of lines x samples values, the output of the constrained energy minimisation filter for the given spectrum at each pixel; a pixel equal to the spectrum gives one; the spectrum is not modified and nothing is left allocated.", "quantifier": "all float cubes with an invertible correlation matrix, all storage orders and spectra", "why_tests_cant": "The result depends on all pixels through the inverse of the correlation matrix; a wrong order of the arguments of a product still compiles, and its out-of-bounds accesses need not crash.", "anchors": ["modules/algorithm/src/cem.c: hyper_mat_cem"]}
{"id": "C86", "title": "Norm of a vector", "statement": "matrix_norm_float returns the Euclidean length of the vector up to a relative error proportional to the number of elements times the precision of float, for every vector whose length is representable, and changes nothing.", "quantifier": "all vectors of finite floats of any length and magnitude whose length is a float", "why_tests_cant": "The error bound and the absence of overflow and underflow must hold for every combination of magnitudes; tests use vectors of moderate size.", "anchors": ["modules/process/src/c_src/matrixprocess.c: matrix_norm_float"]}
{"id": "C87", "title": "QR decomposition", "statement": "matrix_QR_float writes an orthogonal matrix and an upper triangular matrix whose product is the given square matrix up to rounding, changes nothing else and releases what it allocates.", "quantifier": "all square float matrices of every size with independent columns", "why_tests_cant": "The product must reproduce every entry for every matrix; matrices of size one or with a dominating first column look right although the projections are wrong.", "anchors": ["modules/process/src/c_src/matrixprocess.c: matrix_QR_float"]}
{"id": "C88", "title": "Eigenvectors", "statement": "cal_eigen_vector_float, given a square matrix and its eigenvalues, writes for each eigenvalue a column of length one that the matrix multiplies by that eigenvalue up to rounding; it stays inside its arrays and releases what it allocates.", "quantifier": "all square float matrices with distinct eigenvalues, every size", "why_tests_cant": "The relation must hold for every matrix and eigenvalue, including those for which a pivot is zero; a few examples do not meet such pivots.", "anchors": ["modules/process/src/c_src/matrixprocess.c: cal_eigen_vector_float"]}
{"id": "C89", "title": "hypercv_atof converts decimal texts to their value", "statement": "For every text that is a decimal numeral (spaces, optional sign, digits, optional decimals, optional exponent with or without sign), hypercv_atof returns a float near the number that the text stands for, integers that fit are exact, and what follows the numeral in the text has no influence.", "quantifier": "all texts: any number of spaces, leading zeros, digits and decimals, any exponent, any following characters", "why_tests_cant": "the set of numerals is infinite and the rounding error accumulates with the number of digits; a few literals do not show that the sign is dropped in front of every separator or that every negative exponent is read as positive", "anchors": ["modules/process/src/c_src/datatypechange.c:hypercv_atof", "modules/process/include/c_include/datatypechange.h"]}
{"id": "C90", "title": "Addition of float images", "statement": "simple_mat_addition_float writes into the destination, for every pixel and channel that both operands have, the correctly rounded sum of the two values at that pixel and channel, and changes nothing else; the destination may be one of the operands.", "quantifier": "all float images, all sizes, all values, any sharing of pixels between the three images", "why_tests_cant": "the sizes of the three images are independent and the error shows up only for operands of different widths or destinations that are too small; the values range over all floats", "anchors": ["modules/process/src/c_src/imageprocess.c:simple_mat_addition_float"]}
{"id": "C91", "title": "Logarithm of float images", "statement": "simple_mat_log writes into the destination, for every pixel and channel, the logarithm of the value of the source, as given by the C library, rounded to float, and changes nothing else; source and destination may be the same image.", "quantifier": "all float images, all sizes and numbers of channels, all values, every implementation of log", "why_tests_cant": "must hold for every size and number of channels and for every library logarithm", "anchors": ["modules/process/src/c_src/imageprocess.c:simple_mat_log"]}
{"id": "C92", "title": "Edge signal energy", "statement": "cal_edge_signal_energy returns the mean square of the response of the two 3 x 3 edge operators on a grey image, up to rounding, zero for images of one grey level; it reads inside the image, leaves the image and its header unchanged and releases everything it allocates; images that are not grey are rejected.", "quantifier": "all grey byte images of every size and content", "why_tests_cant": "the rounding error depends on all pixels and on the size; the out-of-bounds read needs an image of one row; the change of the header is silent", "anchors": ["modules/algorithm/src/EdgeSignalEnergy.c:cal_edge_signal_energy", "modules/process/src/c_src/filter.c:hypercv_filter2D"]}
{"id": "C93", "title": "Discrete Fourier transform", "statement": "hypercv_dft writes the real and the imaginary parts of the two-dimensional discrete Fourier transform of a one-channel 8- or 16-bit image into the two float images, up to a stated rounding error, and changes nothing else.", "quantifier": "all 8- and 16-bit images of at most 4096 x 4096 and 2^22 pixels, all contents, every cosine and sine of the C library with an absolute error below 2^-50", "why_tests_cant": "the rounding error accumulates over all pixels; the bound has to hold for every content, size and library", "anchors": ["modules/algorithm/src/dft.c:hypercv_dft", "modules/algorithm/src/dft.c:hypercv_dft_uchar", "modules/algorithm/src/dft.c:hypercv_dft_ushort"]}
{"id": "C94", "title": "The inverse transform gives the image back", "statement": "hypercv_idft applied to the real and imaginary parts that hypercv_dft has produced gives back the original image, up to rounding.", "quantifier": "all 8- and 16-bit images, sizes and contents, every library cosine and sine", "why_tests_cant": "the composition of two sums over all pixels; wrong scaling and clipping depend on size and content", "anchors": ["modules/algorithm/src/dft.c:hypercv_idft", "modules/algorithm/src/dft.c:hypercv_idft_uchar", "modules/algorithm/src/dft.c:hypercv_idft_ushort", "modules/algorithm/src/dft.c:hypercv_dft"]}
{"id": "C95", "title": "Magnitude spectrum", "statement": "hypercv_dft_frespectrum writes, for every frequency, the magnitude of the Fourier transform divided by the square root of the number of pixels, with frequency zero in the centre, clipped to 255, and changes nothing else.", "quantifier": "all grey images, sizes and contents, every library cosine and sine", "why_tests_cant": "depends on all pixels; rounding in three stages; sizes of either parity", "anchors": ["modules/algorithm/src/dft.c:hypercv_dft_frespectrum"]}
{"id": "C96", "title": "Magnitude of a complex image", "statement": "hypercv_magnitude writes, for every pixel, the square root of the sum of the squares of the real and the imaginary part at that pixel, up to rounding, and changes nothing else.", "quantifier": "all pairs of float images of one size, all values", "why_tests_cant": "the wrong index of the imaginary part is invisible on images that are symmetric or real, and memory is overrun only from 2 x 3 on", "anchors": ["modules/algorithm/src/dft.c:hypercv_magnitude"]}
{"id": "C97", "title": "Mean, variance and standard deviation of a spectrum", "statement": "sp_average, sp_variance and sp_standard_deviation return the mean, the (population) variance and its square root of the values of a spectrum, up to stated rounding errors; the variance is never negative; nothing is written.", "quantifier": "all float spectra of 1 to 2^22 finite values of magnitude up to 2^48", "why_tests_cant": "rounding errors of three dependent sums over arbitrarily many arbitrary floats", "anchors": ["modules/process/src/c_src/spectralprocess.c:sp_average", "modules/process/src/c_src/spectralprocess.c:sp_variance", "modules/process/src/c_src/spectralprocess.c:sp_standard_deviation"]}
{"id": "C98", "title": "The Otsu threshold maximises the variance between the classes", "statement": "otsuThreshold of a three-channel byte image returns a level that separates the pixels (by luminance) into two non-empty classes with the largest variance between the classes; it returns 0 when all pixels have one level; the image is unchanged.", "quantifier": "all three-channel byte images with 3*rows*columns up to 2147483647, all pixel values", "why_tests_cant": "optimality over all levels for every histogram, computed in floating point with 0/0 for the empty lower classes and an early exit for the empty upper ones", "anchors": ["modules/process/src/c_src/threshold.c:otsuThreshold"]}
{"id": "C99", "title": "Hu's moment invariants of an image", "statement": "calc_hu_moment stores Hu's seven moment invariants of a grey image, up to rounding, in the caller's array and changes nothing else; they do not change when the picture is moved or turned.", "quantifier": "all byte images up to 512 x 512, all pixel values, all channel counts; every library function pow with relative error at most 2^-50", "why_tests_cant": "accuracy of a chain of rounded sums, quotients and products of degree four for every image; black images divide zero by zero; the rounding of the centre matters for some images only", "anchors": ["modules/algorithm/src/shapematch.c:calc_hu_moment"]}
{"id": "C100", "title": "The similarity of two shapes", "statement": "hypercv_match_shapes is symmetric, at most one, and one for the same shape drawn at two places (in particular for an image and itself); it leaves memory as it was.", "quantifier": "all pairs of one-channel byte images up to 512 x 512, all pixel values, all placements; for the symmetry every library function pow", "why_tests_cant": "invariance over all placements on all grounds and equality of floating point results for all pairs of images; leaks are invisible to tests of the result", "anchors": ["modules/algorithm/src/shapematch.c:hypercv_match_shapes", "modules/algorithm/src/shapematch.c:calc_similar_hu"]}
{"id": "C101", "title": "The wavelet filters are those of the named wavelets", "statement": "set_wavelet_base(HYPERCV_WAVE_DB3) and set_wavelet_base(HYPERCV_WAVE_BIOR3_7) return the four filters of Daubechies' wavelet with three vanishing moments and of the biorthogonal spline wavelet 3.7, backwards, correct to four digits after the point, in arrays of their own; every other wavelet number is refused.", "quantifier": "all wavelet numbers, all heap states", "why_tests_cant": "refusal must hold for every other number; the filters are irrational numbers given by closed formulas; separation of the arrays must hold for all heap states", "anchors": ["modules/process/src/c_src/dwt.c:set_wavelet_base", "modules/process/src/c_src/dwt.c:SerialReverse"]}
{"id": "C102", "title": "The wavelet filters reconstruct every signal", "statement": "Decomposing any signal with the two decomposition filters of a wavelet base and joining the halves with its two reconstruction filters gives the signal back, delayed by the filter length minus one, up to 0.0002 of its largest value.", "quantifier": "all bounded two-sided signals of real numbers, all positions, both wavelets, all heap states", "why_tests_cant": "ranges over all signals of all lengths", "anchors": ["modules/process/src/c_src/dwt.c:set_wavelet_base", "modules/process/src/c_src/dwt.c:LO_D_db3", "modules/process/src/c_src/dwt.c:HI_D_db3", "modules/process/src/c_src/dwt.c:LO_R_db3", "modules/process/src/c_src/dwt.c:HI_R_db3", "modules/process/src/c_src/dwt.c:LO_D_bior3_7", "modules/process/src/c_src/dwt.c:HI_D_bior3_7", "modules/process/src/c_src/dwt.c:LO_R_bior3_7", "modules/process/src/c_src/dwt.c:HI_R_bior3_7"]}
{"id": "C103", "title": "Wavelet objects are released completely", "statement": "wavelet_base_free, wt_info_free and wt_coefset_free release the object and everything it refers to, exactly once, and nothing else; null is ignored.", "quantifier": "all heap states, all objects with any combination of missing parts", "why_tests_cant": "leaks are invisible to tests of results; all combinations of missing parts and all kinds of images must be covered", "anchors": ["modules/process/src/c_src/dwt.c:wavelet_base_free", "modules/process/src/c_src/dwt.c:wt_info_free", "modules/process/src/c_src/dwt.c:wt_coefset_free", "modules/process/src/c_src/dwt.c:set_wavelet_base"]}
{"id": "C104", "title": "Principal component analysis projects the centred spectra and leaves nothing behind", "statement": "hyper_mat_pca stores in the result, for every pixel, the product of the centred spectrum with one matrix of vectors chosen for the whole cube; cubes that are not of type float are refused; the result is the projection whatever was in it before and consists of numbers; the source and everything else is unchanged and no memory is left behind.", "quantifier": "all cubes interleaved by pixel of all sizes below 2 GB, all contents including infinities and NaN, all numbers of iterations, all heap states", "why_tests_cant": "ranges over all cubes, all prior contents of the result and all allocator states; leaks and reads beyond the end are invisible to tests of results", "anchors": ["modules/algorithm/src/pca.c:hyper_mat_pca", "modules/algorithm/src/pca.c:cal_covariance_matrix"]}
{"id": "C105", "title": "Resizing fills the destination", "statement": "simple_mat_resize refuses null pointers and images of different types and otherwise fills the destination with an interpolation of the source.", "quantifier": "all images of all sizes and types, all flags, all heap states", "why_tests_cant": "refusal and effect must hold for every pair of images", "anchors": ["modules/process/src/c_src/hypercvresize.c:simple_mat_resize"]}
{"id": "C106", "title": "The Hough transform stores the line of most points", "statement": "hypercv_hough_trans stores distance and angle of a line with the largest number of the given points through lineR and lineTheta.", "quantifier": "all sets of points, all maximal distances, all heap states", "why_tests_cant": "ranges over all sets of points and all distances", "anchors": ["modules/algorithm/src/HoughLines.c:hypercv_hough_trans"]}
{"id": "C107", "title": "Programs that use cubes mean what they say", "statement": "Any sequence of calls that creates cubes, converts them between different orders (into a new cube or in place), cuts ranges, copies cubes or wavelengths into other cubes, releases cubes, and reads and writes elements and wavelengths through the header in between, behaves like the same sequence on independent mathematical arrays: it ends normally, every read gives the value that was last put there, every cube that is alive at the end has its value, cubes never share storage, memory of others is untouched, and exactly the storage of the cubes alive is allocated, so that nothing is leaked once all are released; what is seen does not depend on the state of the heap.", "quantifier": "all finite sequences of operations on any number of cubes of all sizes below 2 GB, types and orders, that use no released cube and stay inside the cubes; all initial heaps, contents of fresh memory and bytes behind the tags", "why_tests_cant": "ranges over all histories of calls of unbounded length; aliasing between cubes and leaks appear only for particular histories", "anchors": ["modules/core/src/c_src/hypermat.c:create_hyper_mat", "modules/core/src/c_src/hypermat.c:hyper_mat_copy_to", "modules/core/src/c_src/hypermat.c:hyper_mat_copy_wavelength", "modules/core/src/c_src/hypermat.c:delete_hyper_mat", "modules/process/src/c_src/imageprocess.c:convert2bsq", "modules/process/src/c_src/imageprocess.c:bil2bsq", "modules/process/src/c_src/imageprocess.c:hyper_mat_get_range"]}
{"id": "C108", "title": "Programs that use cubes and images mean what they say", "statement": "Any sequence of calls that uses cubes (as in C107) and one-channel images together - creating, copying, transposing, mirroring, thresholding (modes 0 to 4) and releasing images, taking bands out of bsq cubes, putting bands into bsq cubes of bytes, reshaping cubes to images, and reading and writing elements and pixels in between - behaves like the same sequence on independent mathematical arrays: it ends normally, every read gives the value that was last put there, cubes and images never share storage, memory of others is untouched, and nothing is leaked once all are released.", "quantifier": "all finite sequences of operations on any number of cubes and images of all sizes below 2 GB and all types that use no released object and stay inside the objects; all initial heaps and addresses the allocator may return", "why_tests_cant": "ranges over all histories of calls of unbounded length and over the addresses chosen by the allocator; aliasing and leaks appear only for particular histories", "anchors": ["modules/core/src/c_src/hypermat.c:create_hyper_mat", "modules/process/src/c_src/imageprocess.c:hyper_mat_2_simple_mat", "modules/process/src/c_src/imageprocess.c:simple_mat_2_hyper_mat", "modules/process/src/c_src/imageprocess.c:reshape_hypermat_2_simplemat", "modules/process/src/c_src/imageprocess.c:simple_mat_transport", "modules/core/src/c_src/simplemat.c:create_simple_mat", "modules/core/src/c_src/simplemat.c:simple_mat_copy", "modules/core/src/c_src/simplemat.c:delete_simple_mat", "modules/process/src/c_src/GeometricTransformation.c:simple_mat_flip", "modules/process/src/c_src/threshold.c:hypercv_threshold"]}
{"id": "C109", "title": "C++ cubes can be saved and opened with their header files", "statement": "Opening a C++ cube with an image file and an ENVI header gives the cube that the header describes with the bytes of the file, releases the old storage of the object, and fails cleanly for files that do not fit or cannot be read; what save writes can be opened again and gives the same cube with the same wavelengths.", "quantifier": "all geometries, layouts, types and wavelengths, all image files and all header files, all objects that are opened", "why_tests_cant": "ranges over all header texts (keywords of any length, empty lines, wavelengths) and all sizes of image files; the defects are undefined behaviour that a test may not show", "anchors": ["modules/core/include/cxx_include/hypermat.hpp:HyMat::open", "modules/core/include/cxx_include/hypermat.hpp:HyMat::save", "modules/core/include/cxx_include/hypermat.hpp:HyMat::writeHdr", "modules/core/src/cxx_src/hypermat.cpp:readHdr"]}
{"id": "C110", "title": "Saving writes one image and one header of its own", "statement": "Saving a cube under a name writes the image under this name and the header under this name followed by .hdr, changes no other file, keeps the files of cubes saved under other names, and leaves no storage allocated; this holds for the C function and for the C++ function.", "quantifier": "all cubes, all file names, all contents of the file system and all memories", "why_tests_cant": "ranges over all names and all sequences of two saved cubes; a test sees neither the leak nor a header that belongs to another image unless it chooses names that collide", "anchors": ["modules/core/src/c_src/hypermat.c:hmsave", "modules/core/src/c_src/hypermat.c:writehdr", "modules/core/include/cxx_include/hypermat.hpp:HyMat::save", "modules/core/include/cxx_include/hypermat.hpp:HyMat::writeHdr"]}
{"id": "C111", "title": "Reading a raw image file returns the image", "statement": "smread returns a new image of the requested rows, columns, type and channels whose elements are the bytes of the file in row order; nothing else changes; files that cannot be opened, are too short or have no positive size are reported; deleting the image releases all its storage.", "quantifier": "all sizes, types and numbers of channels, all files, all heap states and addresses of the allocator", "why_tests_cant": "ranges over all files, shapes and allocator addresses; storage that is too small and uninitialised elements are often not visible in a test", "anchors": ["modules/core/src/c_src/simplemat.c:smread", "modules/core/src/c_src/simplemat.c:delete_simple_mat"]}
{"id": "C112", "title": "The report about a cube tells what the cube is", "statement": "hyper_mat_showinfo prints samples, lines, bands, type, order and the wavelengths of all bands and changes nothing; two cubes with the same report agree in all of these.", "quantifier": "all cubes, all wavelengths, all heap states", "why_tests_cant": "ranges over all pairs of cubes, whose reports are compared", "anchors": ["modules/core/src/c_src/hypermat.c:hyper_mat_showinfo"]}
{"id": "C113", "title": "Wavelet decomposition returns the coefficients", "statement": "hypercv_wavedec returns the wavelet coefficients of an image for the requested number of levels, keeps the image, and leaves nothing allocated that the result does not own; hypercv_dwt1D_float stores the transform of a signal.", "quantifier": "all images, numbers of levels, wavelets and border types, all heap states", "why_tests_cant": "ranges over all images and levels; storage that is lost is not visible in a test", "anchors": ["modules/process/src/c_src/dwt.c:hypercv_wavedec", "modules/process/src/c_src/dwt.c:sub_wavedec", "modules/process/src/c_src/dwt.c:hypercv_dwt1D_float"]}
{"id": "C114", "title": "Programs that save cubes and read them again mean what they say", "statement": "Any sequence of creating, converting, cutting, copying, writing, releasing, saving and reading cubes runs to its end without undefined behaviour; a cube that is read is the one that was saved last under that name, with its wavelengths as six decimals give them, whatever happened to the variable in between; other variables and other files are not affected; a later program can read what was saved; no storage is lost.", "quantifier": "all programs of any length, all file names, all cubes and values, all initial heaps and file systems", "why_tests_cant": "ranges over all sequences of calls and all interleavings of saving, changing and reading; a test runs one sequence, and storage that is lost is not visible in it", "anchors": ["modules/core/src/c_src/hypermat.c:hmsave", "modules/core/src/c_src/hypermat.c:writehdr", "modules/core/src/c_src/hypermat.c:hmread_with_hdr", "modules/core/src/c_src/hypermat.c:readhdr", "modules/core/src/c_src/hypermat.c:read_wavelength", "modules/core/src/c_src/hypermat.c:create_hyper_mat_with_data"]}
{"id": "C115", "title": "A program that is stopped while it saves a cube loses nothing that was saved", "statement": "If the program is stopped at any moment of a save, then under the name that was being saved there is either the cube that was there before or the new cube, and all cubes that were saved under other names can be read as before.", "quantifier": "all programs before the save, all cubes, all names, all points at which the program is stopped, all amounts of buffered output that have reached the files", "why_tests_cant": "ranges over all crash points and all states of the output buffers; a test does not stop the program inside a call", "anchors": ["modules/core/src/c_src/hypermat.c:hmsave", "modules/core/src/c_src/hypermat.c:writehdr", "modules/core/src/c_src/hypermat.c:hmread_with_hdr"]}
{"id": "C116", "title": "Correlation matrices of integer matrices", "statement": "correlation_matrix_<type>(res, mat1, mat2, l, n, m) stores in every entry of res the entry of the product of mat1 and mat2 divided by n (towards zero) whenever that number is a value of the element type; the result does not depend on what res held before, and nothing else changes.", "quantifier": "all integer element types, all l, n, m with n > 0, all matrices, all previous contents of res", "why_tests_cant": "ranges over all matrices of all sizes; the sums wrap or overflow only for some of them", "anchors": ["modules/process/src/c_src/matrixprocess.c:correlation_matrix_uchar", "modules/process/src/c_src/matrixprocess.c:correlation_matrix_char", "modules/process/src/c_src/matrixprocess.c:correlation_matrix_short", "modules/process/src/c_src/matrixprocess.c:correlation_matrix_ushort", "modules/process/src/c_src/matrixprocess.c:correlation_matrix_int", "modules/process/src/c_src/matrixprocess.c:correlation_matrix_uint"]}
{"id": "C117", "title": "Adding two byte images", "statement": "simple_mat_addition_uchar stores, for every pixel that both operands have and every channel, the sum of the two values, or 255 if the sum is larger, in the same pixel of the destination; it changes nothing else, rejects destinations and types that do not match, and the destination may be one of the operands.", "quantifier": "all byte images of all sizes and numbers of channels, all pixel values, shared or separate storage", "why_tests_cant": "ranges over all sizes, pixels and combinations of sizes", "anchors": ["modules/process/src/c_src/imageprocess.c:simple_mat_addition_uchar"]}
{"id": "C118", "title": "Splicing a part into a cube", "statement": "hyper_mat_splicing(cube, part, start) replaces the elements of the cube that begin at element start by the elements of the part; in particular whole bands of a band-sequential cube and whole lines of the other two orders are replaced and the rest of the cube is kept; parts of another type or order, or that do not fit, are rejected.", "quantifier": "all cubes and parts of all sizes, types and orders, all start positions", "why_tests_cant": "ranges over all sizes, orders and positions; reading or writing beyond the data is not visible in a test", "anchors": ["modules/process/src/c_src/imageprocess.c:hyper_mat_splicing"]}
{"id": "C119", "title": "Programs that use cubes, images and files together", "statement": "A program that creates, converts, cuts, copies, splices, reads, writes, saves, reloads and releases cubes, and creates, copies, transposes, mirrors, thresholds, adds, filters (Sobel, Laplacian), reads, writes and releases images, and moves bands between them, in any order, behaves as if its variables were independent mathematical values and its files a dictionary of cubes: it never fails, sees exactly the values of that meaning, leaves everything else in memory and in the file system alone, its files can be read by other programs, and when it has released its variables no storage remains.", "quantifier": "all programs of any length over these operations, all memories and file systems they are started in", "why_tests_cant": "ranges over all programs and all sizes, and over what uninitialised storage contains and where the allocator puts objects", "anchors": ["modules/core/src/c_src/hypermat.c:create_hyper_mat", "modules/core/src/c_src/hypermat.c:hmsave", "modules/core/src/c_src/hypermat.c:hmread_with_hdr", "modules/process/src/c_src/imageprocess.c:hyper_mat_splicing", "modules/process/src/c_src/imageprocess.c:simple_mat_addition_uchar", "modules/process/src/c_src/imageprocess.c:hyper_mat_2_simple_mat", "modules/core/src/c_src/simplemat.c:create_simple_mat", "modules/core/src/c_src/simplemat.c:delete_simple_mat", "modules/process/src/c_src/gradient.c:hypercv_sobel", "modules/process/src/c_src/gradient.c:hypercv_laplacian"]}
{"id": "C120", "title": "Saved cubes survive any number of stopped programs", "statement": "Programs run one after another on the same files, and any of them may be killed at any point of a save. Every cube that was saved completely can be read by all later programs with the values that were saved, whatever other saves were interrupted; after an interrupted save its name holds the old or the new cube; and every later program behaves as if its files were a dictionary of cubes.", "quantifier": "all histories of programs of any length, all points at which they are stopped, any part of what was written to open files having reached them, all memories in which the programs are started", "why_tests_cant": "ranges over all histories, crash points and partial writes", "anchors": ["modules/core/src/c_src/hypermat.c:hmsave", "modules/core/src/c_src/hypermat.c:hmread_with_hdr", "modules/core/src/c_src/hypermat.c:writehdr", "modules/core/src/c_src/hypermat.c:readhdr"]}
