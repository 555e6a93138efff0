{"id": "C01", "title": "Results are sorted and end with the input size", "statement": "Whenever resdet_analysis_results (or resdetect) succeeds and a dimension was requested, the returned array is non-empty, is in non-increasing order of confidence, and its last element is (input dimension, -1); no other element carries the confidence -1.", "quantifier": "every method, image content, frame sequence, image size, parameter set, and every conforming qsort implementation", "why_tests_cant": "The order and the position of the sentinel depend on every pixel and on qsort's tie handling; tests look at two sample images.", "anchors": ["lib/analysis.c: generate_dimension_results, sortres, resdet_analysis_results"]}
{"id": "C02", "title": "Confidences lie in 0..1", "statement": "Every element of a returned result array other than the final one has a finite confidence c with 0 <= c <= 1, in the actual floating point arithmetic the library is compiled for (default precisions, fewer than 2^53 frames), provided no earlier resdet_analyze_image on that analysis failed with an out-of-memory error.", "quantifier": "every method, every finite or overflowing image, every number of frames, every size the library accepts", "why_tests_cant": "It is a bound on accumulated rounding over unboundedly many frames and all coefficient values.", "anchors": ["lib/analysis.c: generate_dimension_results, resdet_analyze_image", "lib/methods.c: detect_method_sign, detect_method_magnitude, detect_method_original, detect_method_zerocrossing", "doc/libresdet.md: RDResolution"]}
{"id": "C03", "title": "Candidates are distinct positions strictly inside the dimension", "statement": "The non-final indices of a result array are pairwise distinct and each satisfies range <= index < dimension - range for the effective search range, so every candidate is strictly smaller than the input dimension.", "quantifier": "every method, image, size and parameter set", "why_tests_cant": "Needs all sizes and ranges, including those where the window barely fits.", "anchors": ["lib/analysis.c: setup_dimension, generate_dimension_results", "lib/methods.c"]}
{"id": "C04", "title": "The reported set is exactly the positions whose mean score reaches the threshold", "statement": "With the compression filter off, position x in [range, dimension-range) is reported if and only if (accumulated score at x)/(number of analysed frames) >= threshold, once, with that quotient rounded to float as its confidence; nothing else is reported besides the input dimension.", "quantifier": "every accumulated state reachable by any frame sequence, every threshold", "why_tests_cant": "Completeness (nothing is dropped) is a statement about all positions of all images.", "anchors": ["lib/analysis.c: generate_dimension_results"]}
{"id": "C05", "title": "Threshold 0 returns every analysed position", "statement": "With threshold 0 and no filter, each successful analysis returns exactly dimension - 2*range + 1 entries for a dimension that is large enough (dimension > 2*range).", "quantifier": "every method, image, number of frames, size", "why_tests_cant": "Tests check the single number 745 for one 768x768 image.", "anchors": ["lib/analysis.c: setup_dimension, generate_dimension_results", "lib/util.c: resdet_parameters_set_threshold", "doc/libresdet.md"]}
{"id": "C06", "title": "Raising the threshold only removes results", "statement": "For the same frames, the result set for a larger threshold is a subset of the result set for a smaller threshold, with identical confidences.", "quantifier": "every pair of thresholds, every frame history", "why_tests_cant": "Relational property over pairs of runs.", "anchors": ["lib/analysis.c: generate_dimension_results"]}
{"id": "C07", "title": "Dimensions too small for the range yield only the input size", "statement": "If 2*range >= dimension then the result list of that dimension is exactly [(dimension,-1)], the analysis of the other dimension is unaffected, and no error is raised.", "quantifier": "every width, height, range, method, image", "why_tests_cant": "Boundary behaviour for every size/range pair; an off-by-one reads outside the coefficient buffer.", "anchors": ["lib/analysis.c: setup_dimension, resdet_analyze_image", "lib/methods.c: detect_method_original"]}
{"id": "C08", "title": "Omitting one dimension does not change the other", "statement": "Requesting only widths (resh NULL) or only heights (resw NULL) returns for the requested dimension the same list as requesting both.", "quantifier": "every analysis state, every argument combination", "why_tests_cant": "Relational over pairs of calls for every state.", "anchors": ["lib/analysis.c: resdet_analysis_results"]}
{"id": "C09", "title": "Collecting results does not disturb the analysis", "statement": "Interleaving any number of resdet_analysis_results calls (successful or not) between resdet_analyze_image calls never changes any later result or error code.", "quantifier": "every interleaving of analyze and results calls, every allocation-failure schedule", "why_tests_cant": "Quantifies over histories.", "anchors": ["lib/analysis.c: resdet_analysis_results, resdet_analyze_image"]}
{"id": "C10", "title": "RDENOIMG exactly when nothing was analysed", "statement": "resdet_analysis_results with valid arguments returns RDENOIMG if and only if no resdet_analyze_image call on that analysis has succeeded; resdetect with nimages = 0 (and valid pointers) returns RDENOIMG.", "quantifier": "every history of calls", "why_tests_cant": "Quantifies over histories, including those with rejected frames.", "anchors": ["lib/analysis.c: resdet_analysis_results", "lib/resdetect.c: resdetect"]}
{"id": "C11", "title": "A rejected frame leaves no trace", "statement": "If resdet_analyze_image returns RDEINVAL (a NaN or infinite sample) or RDEPARAM, all later results and error codes are the same as if the call had never been made.", "quantifier": "every frame, position of the bad sample, and every later history", "why_tests_cant": "The non-finite sample may come after part of the coefficient buffer was overwritten; needs all positions and continuations.", "anchors": ["lib/analysis.c: resdet_analyze_image"]}
{"id": "C12", "title": "A frame that fails for lack of memory leaves no trace", "statement": "If resdet_analyze_image returns RDENOMEM, later results are the same as if the call had never been made (so a retry gives the right answer and confidences stay in 0..1).", "quantifier": "every allocation-failure schedule, every method", "why_tests_cant": "Needs an allocation failure at one particular point between the two passes.", "anchors": ["lib/analysis.c: resdet_analyze_image", "lib/methods.c: detect_method_original"]}
{"id": "C13", "title": "Scores are per-frame means", "statement": "After n successful frames, each position's score is the left-to-right sum (in the intermediate type) of that position's single-frame scores, and the reported value is that sum divided by n: analysing frames in sequence is the average of analysing them separately, and in exact arithmetic the frame order is irrelevant.", "quantifier": "every frame sequence of every length, every method", "why_tests_cant": "Induction over frame sequences.", "anchors": ["lib/analysis.c: resdet_analyze_image, generate_dimension_results", "lib/methods.c"]}
{"id": "C14", "title": "resdetect equals the sequential API", "statement": "resdetect(image, n, w, h, ..., method, params) returns the same error code and the same result lists as create_analysis, n calls to analyze_image on the consecutive w*h blocks (stopping at the first error), analysis_results, destroy_analysis.", "quantifier": "every buffer, n, size, method, parameter set, allocation schedule", "why_tests_cant": "Equality of two programs for all inputs.", "anchors": ["lib/resdetect.c: resdetect", "lib/analysis.c"]}
{"id": "C15", "title": "resdetect_file equals reading then analysing", "statement": "resdetect_file returns what one gets by opening the file, analysing frames one at a time until the reader reports the end or an error, and collecting results; an error from the reader is returned and no results are.", "quantifier": "every file content, reader behaviour, method, parameter set", "why_tests_cant": "Equality of programs for all files and frame counts.", "anchors": ["lib/resdetect.c: resdetect_file", "lib/image.c"]}
{"id": "C16", "title": "Output pointers are always allocated or nulled", "statement": "resdet_analysis_results, resdetect and resdetect_file set every non-NULL result pointer either to a fresh array whose length is the matching count (on RDEOK) or to NULL with count 0 (on any error); supplying a result pointer without its count pointer yields RDEPARAM and nulls whatever was supplied.", "quantifier": "every combination of NULL arguments, every error path, every allocation-failure schedule", "why_tests_cant": "Error paths depend on where an allocation fails.", "anchors": ["lib/analysis.c: resdet_analysis_results", "lib/resdetect.c: resdetect, resdetect_file", "doc/libresdet.md"]}
{"id": "C17", "title": "resdet_create_analysis reports exactly one outcome", "statement": "It returns NULL if and only if the error is non-zero; zero width or height gives RDEINVAL, sizes over the limit or over the transform backend's limit give RDETOOBIG, RDENOMEM is returned only if an allocation failed (RDEINTERNAL only if the FFTW planner refused), and otherwise it succeeds.", "quantifier": "every width, height, method, parameter set, allocation schedule, both transform backends", "why_tests_cant": "All 2^128 size pairs and all failure points.", "anchors": ["lib/analysis.c: resdet_create_analysis", "lib/transform/kiss_fft.c: resdet_create_plan", "lib/transform/fftw.c: resdet_create_plan"]}
{"id": "C18", "title": "The size limit check is exact and rules out overflow", "statement": "The image-size check rejects (w,h,n) exactly when one of them is 0, w*h*n > PIXEL_MAX, or w*h*n*sizeof(elem) > SIZE_MAX as integers; whenever it accepts, none of the size_t products used to allocate or index the image wraps around.", "quantifier": "every w, h, n in size_t, every PIXEL_MAX, element size and SIZE_MAX", "why_tests_cant": "Division-chain arithmetic over the whole 64-bit domain.", "anchors": ["lib/resdet_internal.h: resdet_dims_exceed_limit", "lib/analysis.c: resdet_create_analysis", "lib/image.c: open_image, resdet_read_image"]}
{"id": "C19", "title": "Detection never reads or writes out of bounds", "statement": "For every analysis the library creates, resdet_analyze_image only accesses the coefficient buffer at indices < width*height, the score arrays within their allocated length, and its counters never wrap.", "quantifier": "every width, height, range, method, both passes, every image", "why_tests_cant": "Memory safety for every size; tests run one or two sizes without checking bounds.", "anchors": ["lib/methods.c: all detect_method_*", "lib/analysis.c: setup_dimension, resdet_analyze_image", "lib/resdet_internal.h: rdint_index, rdint_storage"]}
{"id": "C20", "title": "No leaks or double frees on any allocation-failure schedule", "statement": "Whatever subset of allocations fails, resdet_create_analysis that returns NULL has freed everything it allocated, resdet_destroy_analysis frees everything a successful create allocated, each exactly once, and analyze/results/resdetect free all their temporaries.", "quantifier": "every allocation-failure schedule (crash point), both transform backends", "why_tests_cant": "Each failure point is a different path.", "anchors": ["lib/analysis.c", "lib/transform/kiss_fft.c: resdet_create_plan, resdet_free_plan", "lib/transform/fftw.c", "lib/resdetect.c"]}
{"id": "C21", "title": "Parameters can never be put in an invalid state", "statement": "After any sequence of setter calls on a parameter object obtained from resdet_alloc_default_parameters: range >= 1, threshold is unset or a number in 0..1 (never NaN), filter <= 31; a setter that returns RDEPARAM changed nothing, one that returns RDEOK changed only its own field to the given value.", "quantifier": "every sequence of setter calls with every argument", "why_tests_cant": "Histories and all float bit patterns.", "anchors": ["lib/util.c: resdet_alloc_default_parameters, resdet_parameters_set_range, resdet_parameters_set_threshold, resdet_parameters_set_compression_filter"]}
{"id": "C22", "title": "Method lookup", "statement": "resdet_get_method(NULL) is the first method in resdet_methods(); resdet_get_method(name) returns the unique listed method of exactly that name and NULL for every other string; create_analysis with a NULL method behaves as with the first listed method.", "quantifier": "every C string", "why_tests_cant": "All strings.", "anchors": ["lib/util.c: resdet_get_method", "lib/methods.c: methods", "lib/analysis.c: resdet_create_analysis"]}
{"id": "C23", "title": "Every error code has a message", "statement": "resdet_error_str returns a string for every value in 0..resdet_get_max_error(), the errno text for negative values, and NULL for every larger value; every error code any library call can return is in the first two groups.", "quantifier": "every int", "why_tests_cant": "All ints; and all functions' return values.", "anchors": ["lib/util.c: resdet_error_str, resdet_get_max_error, RDErrStr"]}
{"id": "C24", "title": "zerox ignores the range parameter", "statement": "For the zerox method the results and error code do not depend on the range parameter.", "quantifier": "every pair of ranges, every image and history", "why_tests_cant": "Relational.", "anchors": ["lib/analysis.c: resdet_create_analysis", "lib/methods.c: detect_method_zerocrossing"]}
{"id": "C25", "title": "A sign-antisymmetric spectrum is detected with full confidence", "statement": "If in every analysed frame every row of coefficients has opposite sign bits at x-i and x+i for all 1 <= i <= range, the sign method reports x with confidence exactly 1, and it is therefore reported for every threshold and ranked first (ties only with other full-confidence positions); conversely a confidence of 1 after one frame implies that antisymmetry.", "quantifier": "every spectrum, size, number of frames", "why_tests_cant": "This is the property detection rests on, for all spectra.", "anchors": ["lib/methods.c: detect_method_sign", "lib/analysis.c", "README.md: How?"]}
{"id": "C26", "title": "orig only suppresses sign results", "statement": "For every frame and position the orig score is either 0 or exactly the sign score at that position.", "quantifier": "every spectrum, size, range", "why_tests_cant": "All inputs.", "anchors": ["lib/methods.c: detect_method_original, detect_method_sign"]}
{"id": "C27", "title": "Width and height analysis are mirror images", "statement": "The score computed for heights on a coefficient array equals the score computed for widths on the transposed array, for every method; so, if the transform commutes with transposition, analysing a transposed image swaps the two result lists.", "quantifier": "every array, method, range", "why_tests_cant": "Relational over all arrays.", "anchors": ["lib/analysis.c: resdet_analyze_image", "lib/methods.c"]}
{"id": "C28", "title": "The compression filter removes results at multiples of size/2^value", "statement": "With filter value v > 0 the result set is the unfiltered set minus the candidates that lie at (rounded) multiples of dimension/2^v; v = 0 disables filtering and the filter never adds results or changes confidences.", "quantifier": "every dimension, range, v and result set", "why_tests_cant": "No test covers the filter; the claim ranges over all positions.", "anchors": ["lib/analysis.c: generate_dimension_results", "lib/util.c: resdet_parameters_set_compression_filter", "doc/libresdet.md: resdet_parameters_set_compression_filter"]}
{"id": "C29", "title": "Failing to open an image has no visible effect", "statement": "resdet_open_image/resdet_open_image_with_reader return NULL exactly when the error is non-zero; in that case width and height are 0 and the image buffer is NULL, and everything allocated or opened was released; on success width, height are non-zero, within the limit, and the buffer holds width*height floats.", "quantifier": "every file content, reader, NULL-argument combination and allocation schedule", "why_tests_cant": "Error paths and all byte strings.", "anchors": ["lib/image.c: open_image, resdet_open_image, resdet_open_image_with_reader"]}
{"id": "C30", "title": "Reader selection", "statement": "resdet_open_image picks the first registered reader that accepts the extension (case-insensitively), where the extension is the MIME-mapped one if the type contains '/', the type itself otherwise, or the text after the last '.' of the file name; by name, the reader with that name ignoring case; RDEUNSUPP if there is none.", "quantifier": "every file name, type string and set of compiled readers", "why_tests_cant": "All strings.", "anchors": ["lib/image.c: resdet_open_image, ext_from_mimetype, resdet_strieq", "lib/image_readers.c"]}
{"id": "C31", "title": "PGM files decode to their pixels", "statement": "For every width, height within limits, maxval 1..255, comment block and byte raster, opening and reading the corresponding binary PGM yields those dimensions and one frame whose sample i is byte_i/maxval rounded to float, then end of stream.", "quantifier": "every well-formed P5 file", "why_tests_cant": "Round trip over all sizes and rasters.", "anchors": ["lib/image/pgm.c"]}
{"id": "C32", "title": "The PGM reader accepts only P5 files", "statement": "A file whose contents do not start with the magic P5 is rejected with RDEINVAL by the PGM reader.", "quantifier": "every byte string", "why_tests_cant": "All malformed files.", "anchors": ["lib/image/pgm.c: pgm_reader_open"]}
{"id": "C33", "title": "Decoded samples are normalised to 0..1", "statement": "Every frame produced by the built-in readers from integer formats (PGM, Y4M) has all samples finite and between 0 and 1.", "quantifier": "every file", "why_tests_cant": "All files, including headers with maxval 0 or samples above the maximum.", "anchors": ["lib/image/pgm.c: pgm_reader_read_frame", "lib/image/y4m.c: y4m_reader_read_frame", "doc/libresdet.md: resdet_read_image_frame"]}
{"id": "C34", "title": "Truncated pixel data is never returned as a frame", "statement": "resdet_read_image_frame returns true for the built-in readers only if the file supplied every sample byte of the frame it fills (luma plane for Y4M); if the data runs out inside a frame the call returns false with RDEINVAL.", "quantifier": "every file and truncation point", "why_tests_cant": "Every truncation point of every file.", "anchors": ["lib/image/pgm.c", "lib/image/pfm.c", "lib/image/y4m.c"]}
{"id": "C35", "title": "PFM sequences decode to their samples", "statement": "For every sequence of PFM frames of one size, gray or colour, with either byte order and optional comments, successive reads yield the frames in order, top row first, gray samples bit for bit and colour samples as (r+g+b)/3, followed by end of stream without error.", "quantifier": "every frame list, size, byte order of file and host", "why_tests_cant": "Round trip over all sizes, counts and bit patterns.", "anchors": ["lib/image/pfm.c"]}
{"id": "C36", "title": "Seeking equals discarding frames (PFM)", "statement": "On a well-formed PFM sequence, resdet_seek_frame(k) puts the reader in the same position as k successful resdet_read_image_frame calls; in particular seeking by 0 changes nothing.", "quantifier": "every well-formed PFM sequence, k, prior position", "why_tests_cant": "Relational over histories.", "anchors": ["lib/image/pfm.c: pfm_reader_seek_frame, read_header", "doc/libresdet.md: resdet_seek_frame"]}
{"id": "C37", "title": "Y4M sequences decode to their luma", "statement": "For every Y4M stream with supported chroma layout and depth 8..16, any order of header parameters, and any frame count, successive reads yield each frame's luma samples divided by 2^depth-1, followed by end of stream without error.", "quantifier": "every well-formed Y4M stream", "why_tests_cant": "Round trip over all sizes, layouts, depths, counts.", "anchors": ["lib/image/y4m.c"]}
{"id": "C38", "title": "Y4M chroma sizes match the layout", "statement": "The number of chroma (and alpha) bytes skipped per frame is the one the YUV4MPEG2 layout named in the header prescribes, so that the next frame header is found, for each of mono, 420*, 411, 422, 444 and 444alpha.", "quantifier": "every width, height, layout, depth", "why_tests_cant": "All sizes including odd ones; tests use 2x2 4:2:0.", "anchors": ["lib/image/y4m.c: y4m_reader_open"]}
{"id": "C39", "title": "Seeking equals discarding frames (Y4M)", "statement": "On a well-formed Y4M stream seek(k) leaves the reader where k reads would leave it, seek(j) after seek(k) equals seek(j+k), seek(0) is the identity, and seeking past the end returns false without error.", "quantifier": "every well-formed stream, all k and j", "why_tests_cant": "Relational over histories.", "anchors": ["lib/image/y4m.c: y4m_reader_seek_frame"]}
{"id": "C40", "title": "Pipes and files decode alike", "statement": "A well-formed stream read from a non-seekable input yields the same frames, return values and errors as from a seekable file.", "quantifier": "every well-formed Y4M and PFM stream, every history of reads and seeks", "why_tests_cant": "Two code paths for all streams.", "anchors": ["lib/image.c: resdet_fskip", "lib/image/y4m.c", "lib/image/pfm.c"]}
{"id": "C41", "title": "The Y4M reader never overruns its buffer or wraps a size", "statement": "For every header the Y4M reader accepts, the plane-size arithmetic does not wrap, every read into its scratch buffer fits, and every relative seek offset fits a long.", "quantifier": "every width, height, layout, depth and input kind", "why_tests_cant": "Integer overflow at extreme sizes.", "anchors": ["lib/image/y4m.c: y4m_reader_open, y4m_reader_read_frame", "lib/image.c: resdet_fskip"]}
{"id": "C42", "title": "Single-image readers behave as one-frame streams", "statement": "For PGM (and by the same code JPEG and PNG) the observable behaviour of any sequence of reads and seeks is that of a stream holding one frame: at most one read succeeds, seek(0) always succeeds and changes nothing, seek(1) succeeds once, anything beyond returns false without error.", "quantifier": "every sequence of read and seek calls", "why_tests_cant": "Histories.", "anchors": ["lib/image/pgm.c: pgm_reader_seek_frame", "lib/image/libpng.c: libpng_reader_seek_frame", "lib/image/libjpeg.c: libjpeg_reader_seek_frame"]}
{"id": "C43", "title": "Seek progress is exact", "statement": "During resdet_seek_frame the progress callback is called with 1,2,...,j in order where j is the number of frames actually skipped, and j equals the offset exactly when the seek succeeds.", "quantifier": "every stream, offset, reader", "why_tests_cant": "All streams and offsets.", "anchors": ["lib/image/pgm.c", "lib/image/pfm.c", "lib/image/y4m.c", "lib/image/magickwand.c"]}
{"id": "C44", "title": "End of stream is stable", "statement": "Once resdet_read_image_frame has returned false without error, every further read returns false without error.", "quantifier": "every file, any number of further calls", "why_tests_cant": "Histories.", "anchors": ["lib/image/pgm.c", "lib/image/pfm.c", "lib/image/y4m.c"]}
{"id": "C45", "title": "Bulk reading equals frame-by-frame reading", "statement": "resdet_read_image returns RDEOK with all frames concatenated exactly when frame-by-frame reading reaches the end without error and the frames fit the size limit; on any error the image pointer is NULL; the buffer never exceeds the limit and every frame is written inside it.", "quantifier": "every file, reader, allocation schedule, PIXEL_MAX", "why_tests_cant": "Any frame count, growth of a reallocated buffer.", "anchors": ["lib/image.c: resdet_read_image"]}
{"id": "C46", "title": "Header numbers never cause undefined behaviour", "statement": "Parsing any PGM, PFM or Y4M header is free of undefined behaviour.", "quantifier": "every byte string", "why_tests_cant": "Numbers of any length; the result of scanf on overflow is undefined.", "anchors": ["lib/image/pgm.c: pgm_reader_open", "lib/image/pfm.c: pfm_reader_open, read_header", "lib/image/y4m.c: y4m_reader_open"]}
{"id": "C47", "title": "Command-line exit status", "statement": "resdet -v0 exits 0 exactly when the analysis succeeded and some dimension has a candidate; for every verbosity any library error or unusable option value exits non-zero.", "quantifier": "every option list and every library outcome", "why_tests_cant": "Combination of all options and outcomes.", "anchors": ["src/resdet.c: main"]}
{"id": "C48", "title": "-o and -n select the frame window", "statement": "With -o k and -n m the command analyses exactly frames k, k+1, ..., up to m of them or to the end of the stream; without -n, all remaining frames.", "quantifier": "every stream length, k, m", "why_tests_cant": "All counts.", "anchors": ["src/resdet.c: main"]}
{"id": "C49", "title": "imgread output decodes to the same frames", "statement": "Reading back with the PFM reader the file imgread writes yields exactly the frames imgread read (little-endian hosts).", "quantifier": "every frame list and size", "why_tests_cant": "Round trip.", "anchors": ["src/imgread.c", "lib/image/pfm.c"]}
{"id": "C50", "title": "profile counts missed and extra resolutions", "statement": "The (+plus -minus) figures are the numbers of detected-but-unknown and known-but-undetected resolutions.", "quantifier": "every known list and every result list", "why_tests_cant": "Depends on the order of both lists.", "anchors": ["src/profile.c: diffres"]}
{"id": "C51", "title": "Binding parameter errors are reported", "statement": "The JavaScript and Python bindings raise an error when any supplied parameter is rejected by the library.", "quantifier": "every parameter object", "why_tests_cant": "All combinations of valid and invalid values.", "anchors": ["bindings/emscripten/resdet.mts: parametersFromObj", "bindings/python/resdet.py: _dict_to_rdparameters"]}
{"id": "C52", "title": "Python buffer indexing stays inside the buffer", "statement": "ImageBuffer.__getitem__ either raises or reads an element of the buffer, and (frame, y, x) addresses sample (frame*height+y)*width+x.", "quantifier": "every index tuple and buffer shape", "why_tests_cant": "All integers including negative ones.", "anchors": ["bindings/python/resdet.py: ImageBuffer.__getitem__, ImageBuffer.with_dimensions"]}
{"id": "C53", "title": "stat stays inside the result array", "statement": "For every successful result list, every array element the stat tool reads exists.", "quantifier": "every result count", "why_tests_cant": "All counts.", "anchors": ["src/stat.c: statres"]}
{"id": "C54", "title": "KISS FFT factorisation is correct and bounded", "statement": "For every length n >= 1, the factor table kissfft builds terminates, multiplies out to n, has strictly consistent stage lengths and never exceeds its fixed 32-stage array; no int in the configuration overflows for the sizes resdet allows.", "quantifier": "every n up to INT_MAX/3 (and every n for correctness)", "why_tests_cant": "All lengths, including large primes.", "anchors": ["lib/kissfft/kiss_fft.c: kf_factor, kiss_fft_alloc", "lib/kissfft/_kiss_fft_guts.h: MAXFACTORS", "lib/transform/kiss_fft.c: resdet_create_plan"]}
{"id": "C55", "title": "KISS FFT computes the DFT", "statement": "For every length and input, kiss_fft computes the discrete Fourier transform and kiss_fftr its first n/2+1 bins for real input, in exact arithmetic, when its temporary allocations succeed.", "quantifier": "every length n >= 1 and every input vector", "why_tests_cant": "Mixed-radix recursion over all factorisations.", "anchors": ["lib/kissfft/kiss_fft.c: kf_work, kf_bfly2, kf_bfly3, kf_bfly4, kf_bfly5, kf_bfly_generic", "lib/kissfft/kiss_fftr.c: kiss_fftr"]}
{"id": "C56", "title": "The transform is the two-dimensional DCT-II", "statement": "With the bundled backend resdet_transform replaces the image by its unnormalised two-dimensional DCT-II (FFTW's REDFT10 in both directions), in exact arithmetic, for every width and height.", "quantifier": "every width, height and image", "why_tests_cant": "All sizes and contents.", "anchors": ["lib/transform/kiss_fft.c: kiss_dct, resdet_transform"]}
{"id": "C57", "title": "Nearest-neighbour upscaling is detected", "statement": "If an image is an integer-factor pixel-replicated enlargement of an N-wide original whose spectrum has no vanishing coefficient near N, the sign and zerox methods report width N with confidence 1 (in exact arithmetic, or whenever the computed coefficients have the right signs).", "quantifier": "every original image, factor and range < N", "why_tests_cant": "The detection claim itself, for all images.", "anchors": ["lib/methods.c: detect_method_sign, detect_method_zerocrossing", "lib/transform/kiss_fft.c", "README.md: How?"]}
{"id": "C58", "title": "An allocation failure during the transform is reported", "statement": "If memory runs out while a frame is transformed, resdet_analyze_image reports an error instead of returning RDEOK with scores of a partially transformed frame.", "quantifier": "every size with a prime factor above 5, every allocation schedule", "why_tests_cant": "Needs a failure inside one FFT stage.", "anchors": ["lib/kissfft/kiss_fft.c: kf_bfly_generic", "lib/transform/kiss_fft.c: resdet_transform", "lib/analysis.c: resdet_analyze_image"]}
{"id": "C59", "title": "Only files of the format are opened", "statement": "If the PGM, PFM or Y4M reader opens a file as W by H pixels, the file starts with a header of that format that gives W and H.", "quantifier": "every file content, every way to select the reader", "why_tests_cant": "Ranges over all byte strings; tests only try some malformed headers.", "anchors": ["lib/image/pgm.c: pgm_reader_open", "lib/image/pfm.c: pfm_reader_open", "lib/image/y4m.c: y4m_reader_open"]}
{"id": "C60", "title": "stat's figures describe the candidates", "statement": "The median stat prints is the median of the candidates' confidences, and the candidates it lists as outliers are those at or above the inner fence.", "quantifier": "every result list", "why_tests_cant": "Depends on the order and number of candidates.", "anchors": ["src/stat.c: statres"]}
{"id": "C61", "title": "numpy arrays hold the image", "statement": "The array read_image_frame_as_ndarray returns holds the sample at column x of row y at a fixed index order, [y, x] or [x, y], and resdetect of that array analyses the same width and height.", "quantifier": "every image size", "why_tests_cant": "All sizes; square test images hide the difference.", "anchors": ["bindings/python/resdet_numpy.py: read_image_frame_as_ndarray, resdetect", "bindings/python/resdet.py: ImageBuffer.shape"]}
{"id": "C62", "title": "The bundled transform is accurate enough for detection", "statement": "In the build's own floating-point arithmetic the coefficients the KISS backend computes for a W by H frame with samples up to M differ from the exact DCT-II by less than 60*(S(W)+S(H)+8)*W*H*M*u, where S is the sum of the prime factors and u the unit roundoff (and table error). Hence enlarged images whose exact coefficients near the original size exceed that bound are detected with confidence 1.", "quantifier": "every frame size the backend accepts up to the stated limits, every frame of bounded samples, every floating-point format", "why_tests_cant": "Rounding errors depend on all samples and on the factorisation of the size; a test only sees some.", "anchors": ["lib/kissfft/kiss_fft.c: kf_work, kf_bfly2/3/4/5/generic", "lib/kissfft/kiss_fftr.c: kiss_fftr", "lib/transform/kiss_fft.c: kiss_dct, resdet_transform"]}
{"id": "C63", "title": "The JPEG reader is safe and faithful on top of libjpeg", "statement": "Opening and reading a JPEG is never undefined; a file libjpeg rejects is refused as invalid with nothing left behind; an image libjpeg decodes is delivered as one frame with its samples divided by 255, also when libjpeg issues warnings; sizes over the limit are refused.", "quantifier": "every libjpeg behaviour (any file, any rows per call, any warnings), every allocation schedule", "why_tests_cant": "Use of a dead error manager usually goes unnoticed; it needs files that warn late and compilers that reuse the stack slot.", "anchors": ["lib/image/libjpeg.c: error_exit, libjpeg_reader_open, libjpeg_reader_read_frame, libjpeg_reader_close"]}
{"id": "C64", "title": "The PNG reader is safe and faithful on top of libpng", "statement": "Opening and reading a PNG is never undefined whatever libpng does; a file without the signature or that libpng rejects is refused as invalid with nothing left behind; an image libpng decodes is delivered as one frame holding the mean of the samples of each pixel, for every colour type, bit depth, transparency and interlacing; sizes over the limit are refused.", "quantifier": "every libpng behaviour (any header, any rows, failure at any point), every allocation schedule, every sequence of calls", "why_tests_cant": "There are 15 combinations of colour type and depth, with and without transparency, times interlacing, times every point at which libpng can jump out; a test needs a file for each.", "anchors": ["lib/image/libpng.c: libpng_reader_open, libpng_reader_read_frame, libpng_reader_seek_frame, libpng_reader_close"]}
{"id": "C65", "title": "The MagickWand reader is safe and faithful on top of ImageMagick", "statement": "Opening and reading a file through MagickWand is never undefined; its images are delivered in order with the intensities ImageMagick exports; seeking skips images; an image ImageMagick cannot export is reported as an error; a file it cannot open is refused with the reason (errno, no memory, unsupported, invalid) and nothing left behind; sizes over the limit are refused.", "quantifier": "every ImageMagick behaviour (any file, any number of images, any exception, any export result), every allocation schedule, every sequence of calls", "why_tests_cant": "Failures inside ImageMagick (resource limits, failing pixel caches, missing delegates) cannot be provoked at will.", "anchors": ["lib/image/magickwand.c: magickwand_error, magickwand_reader_open, magickwand_reader_read_frame, magickwand_reader_seek_frame, magickwand_reader_close"]}
{"id": "C66", "title": "The FFmpeg reader is safe and faithful on top of FFmpeg", "statement": "Opening and reading a file through FFmpeg is never undefined; the frames of the best video stream are delivered in order whatever other streams are interleaved and however the decoder delays frames; seeking skips frames; a file that cannot be opened is refused with FFmpeg's reason and nothing left behind; running out of memory is reported as such; a failure while reading is an error and not the end of the video.", "quantifier": "every behaviour of demuxer, decoder and scaler, every allocation schedule, every sequence of calls", "why_tests_cant": "Each of eight opening steps can fail, packets of streams interleave arbitrarily and decoders delay frames arbitrarily.", "anchors": ["lib/image/ffmpeg.c: rderror_from_averror, ffmpeg_reader_open, read_frame, ffmpeg_reader_read_frame, ffmpeg_reader_seek_frame, ffmpeg_reader_close"]}
{"id": "C67", "title": "The library works with any combination of readers compiled in", "statement": "With whatever image libraries resdet is built and whatever they do, the readers on top of them keep the contract the rest of the library relies on: opening an image and resdetect_file give what they promise, with no block or stream left behind. A file whose extension has only characters tolower takes (C30) goes to the reader for its format if that is compiled in, else to FFmpeg if it takes the extension, else to MagickWand, else it is refused as unsupported.", "quantifier": "all 128 combinations of built-in and library readers, every behaviour of the libraries, every file name and type", "why_tests_cant": "A test run uses one build; the contract is about every build and every behaviour of the libraries.", "anchors": ["lib/image_readers.c: resdet_image_readers", "lib/image.c: open_image, resdet_open_image", "lib/image/*.c: *_reader_supports_ext"]}
{"id": "C68", "title": "Python hands out exactly the library's answer and keeps nothing", "statement": "resdetect, resdetect_file and analysis_results of the Python binding call the library once with the converted arguments; the caller gets exactly the lists the library produced, or an exception that tells the library's error code (distinct codes give distinct exceptions, errno values are kept), and afterwards neither memory nor files are left behind, whichever allocations fail and whatever the image readers do.", "quantifier": "all images, sizes, dictionaries, methods, histories of the analysis and allocation schedules (FFTW, or equal sides: C20 is the exception)", "why_tests_cant": "Needs every failing allocation and every reader behaviour; leaks do not show in results.", "anchors": ["bindings/python/resdet.py: resdetect, resdetect_file, Analysis.analysis_results, _rderror_to_exception, _resolution_list_from_rdresolutions"]}
{"id": "C69", "title": "JavaScript hands out exactly the library's answer and keeps nothing", "statement": "resDetect, analyzeImage, analysisResults and the constructor of Analysis of the JavaScript binding return exactly what the library produced or throw its error, and free every block they allocate.", "quantifier": "all images, sizes, parameter objects, histories and allocation schedules", "why_tests_cant": "The blocks allocated by hand on the emscripten heap have to be freed on every path, including those where allocations fail.", "anchors": ["bindings/emscripten/resdet.mts: resDetect, Analysis"]}
{"id": "C70", "title": "Bindings refuse arrays with too few samples", "statement": "When an image passed to the Python or JavaScript binding has fewer samples than the stated or previously given size asks for, the call is refused; memory outside the array is never read.", "quantifier": "all sizes and arrays", "why_tests_cant": "Out of bounds reads of foreign memory usually go unnoticed in a test run.", "anchors": ["bindings/python/resdet.py: Analysis.analyze_image, resdetect", "bindings/emscripten/resdet.mts: analyzeImage, resDetect"]}
{"id": "C71", "title": "A read error is not taken for the end of the images", "statement": "When reading a PFM or Y4M file fails because of an I/O error, even exactly between two frames, the call that meets the error reports it: no read or seek ever returns 'no more frames' without an error, reading the file at once and detection on the file return an error, and the frames before the error are delivered unchanged.", "quantifier": "all files, points of the error, call sequences, seekable or not", "why_tests_cant": "The place of the error and the sequence of calls are unbounded, and I/O errors are hard to provoke in a test.", "anchors": ["lib/image/pfm.c:122-153", "lib/image/y4m.c:139-161", "lib/image.c:218-252", "lib/resdetect.c:40-74"]}
{"id": "C72", "title": "The output of the command can be read back", "statement": "What `resdet` prints for the resolutions found can be read in one way only: with -v1 the best size, with -v2 all sizes in order, with -v3 each size and its confidence correctly rounded to six digits, by default the image's size, the best guess and a table of all sizes with confidences in percent off by at most 0.00501. Sizes below 100000 with confidences up to 99.99% leave the columns of the table aligned.", "quantifier": "all lists of results, sizes and confidences", "why_tests_cant": "The lists, sizes and confidences are unbounded; a test compares a few literal outputs.", "anchors": ["src/resdet.c:236-272"]}
{"id": "C73", "title": "Python objects can be used in any order", "statement": "A program that makes, uses and closes ImageBuffer, Image and Analysis objects of the Python binding in any order, catching exceptions, never touches freed memory, never reads or writes outside a buffer, frees nothing twice, and leaves nothing allocated or open once all its objects are closed, however often.", "quantifier": "all programs over any number of objects, all files, all allocation failures", "why_tests_cant": "The sequences of calls are unbounded, and ctypes does not report reads and writes of foreign or freed memory.", "anchors": ["bindings/python/resdet.py:92-256", "bindings/python/resdet.py:342-391"]}
{"id": "C74", "title": "Images enlarged by interpolation are detected", "statement": "If every frame is an image enlarged by an integer factor with a symmetric interpolation filter (such as repetition or linear interpolation) from an original of N samples per row or column, with samples rounded, then the sign and zero crossing methods report N with a confidence of at least the share of coefficient pairs about N that exceed the combined error of rounding and transform.", "quantifier": "all images, factors, symmetric filters, sizes, numbers of frames, error levels", "why_tests_cant": "A test image enlarged by one resampler says nothing about other filters, factors and contents; the claim rests on an identity of the cosine transform.", "anchors": ["lib/methods.c:14-97", "lib/transform/kiss_fft.c:68-82", "lib/analysis.c:99-194"]}
{"id": "C75", "title": "The confidence is the share of evidence", "statement": "If in every analysed frame the share of pairs (or lines) that speak for a position lies between two float values, then the position is reported with a confidence between them; it is reported if the threshold is at most the lower value and not reported if the threshold is above the upper value, rounding notwithstanding.", "quantifier": "all methods, spectra, numbers of frames up to the precision of the intermediate type, thresholds and sizes", "why_tests_cant": "The scores are sums of rounded quotients, divided and rounded twice more; that they never cross a float bound is a statement about all counts and all frame numbers.", "anchors": ["lib/methods.c:14-97", "lib/analysis.c:99-194"]}
{"id": "C76", "title": "Images scaled to any size by interpolation are detected", "statement": "If every frame is an image scaled from N samples per row or column to any size w or h above N (not only a multiple), by weighting the mirrored original with a symmetric continuous curve such as that of linear or cubic interpolation, with samples rounded, then the sign and zero crossing methods report N with a confidence of at least the share of coefficient pairs about N that exceed the combined error of rounding, transform and aliasing; the aliasing falls with the square of the scale.", "quantifier": "all images, original and final sizes, curves with summable responses, numbers of frames, error levels", "why_tests_cant": "Scaling by a fraction mixes frequencies, so antisymmetry about N holds only approximately; how far off it can be for every image, size and curve follows from Poisson summation, not from samples.", "anchors": ["lib/methods.c:14-97", "lib/transform/kiss_fft.c:68-82", "lib/analysis.c:99-194"]}
{"id": "C77", "title": "profile evaluates a dictionary of images as it says", "statement": "profile goes through the entries of its dictionary in order. It skips exactly the files that cannot be read whole, computes the figures of every method for each other image against the sizes listed for that image, and stops with status 1 at the first image in which a method fails, which with enough memory happens only if the size is refused, there is no frame, or a sample is infinite or not a number. The totals are the sums of the figures. With status 0 everything allocated has been released. There is no undefined behaviour.", "quantifier": "all dictionaries in the documented form, file contents, builds and allocation failures", "why_tests_cant": "The loop carries a position in the dictionary across files that fail to open, images that fail and lists that cannot be read; a wrong one attributes sizes to the wrong image, and allocation failures reach paths no test takes.", "anchors": ["src/profile.c:72-200"]}
{"id": "C78", "title": "Orientation, contrast and brightness of a picture do not matter", "statement": "Mirroring the frames, turning them upside down, inverting them, or changing their contrast or brightness does not change the results: a position is reported for both versions with the same confidence, or for neither, as long as the coefficients around it are larger than the errors made in computing them.", "quantifier": "all images, sizes, builds, ranges and thresholds, numbers of frames, sequences of such changes", "why_tests_cant": "Each method compares coefficients at several distances whose signs change differently under mirroring; whether every comparison survives depends on parities and on the error of the transform, for all images and sizes.", "anchors": ["lib/methods.c:14-97", "lib/analysis.c:99-194", "lib/transform/kiss_fft.c:68-82"]}
{"id": "C79", "title": "From a PGM file to the printed text, the command computes what exact arithmetic would", "statement": "Run on a binary PGM with the sign method and no filter, with enough memory, the command succeeds, and its output can be read as two lists of sizes. These are the lists exact arithmetic gives for the gray values in the file, at every size around which the exact DCT coefficients exceed the error bound of reading and transforming. So a file whose columns or rows repeat k times is reported as enlarged from its original size with confidence 1 and status 0; a file with too few opposite signs everywhere is reported as not upsampled, with status 1 for -v 0; and the best guess printed is the one exact arithmetic finds.", "quantifier": "all PGM files, sizes, ranges, thresholds, verbosities, and platforms with error level u", "why_tests_cant": "The statement goes through parsing, rounding of samples, a transform with rounding errors, scoring, sorting and printing; a test fixes one file and one platform, and only sees that nothing went wrong there.", "anchors": ["src/resdet.c:62-289", "lib/image/pgm.c:17-111", "lib/transform/kiss_fft.c:68-82", "lib/methods.c:14-40", "lib/analysis.c:99-194"]}
{"id": "C80", "title": "The command line means what it says", "statement": "Options may be written together or apart (-pv0, -p -v 0), before or, where the C library looks for them there, behind the image name, and after -- every word is a name; every command line is read in exactly one way. Options with arguments as the help text describes them are taken at their word: the method, percentage, range, filter, verbosity, offset and count used are those written, the last one if an option is repeated. Arguments that are anything else are refused with exit status 1.", "quantifier": "all command lines, all words and numbers, both kinds of getopt, all platforms", "why_tests_cant": "There are infinitely many command lines; number parsing differs at the limits of each type, and the refusal of wrong arguments is a statement about all texts that are not numbers.", "anchors": ["src/resdet.c:62-163"]}
{"id": "C81", "title": "From words and files with several frames to the printed text, the command computes the mean exact arithmetic gives", "statement": "Called with words asking for the sign method, on a Y4M stream or several PFM images, the command skips the frames -o says, takes as many as -n says, and prints two lists of sizes. These are the lists exact arithmetic gives for the luma or the samples in the file: the confidence of a size is the mean share of opposite pairs of coefficients over the frames taken, up to the share of pairs smaller than the error bound and a rounding error proportional to the number of frames. So frames whose columns or rows repeat k times are reported as enlarged with confidence 1, frames with too few opposite signs on average as not upsampled, and the best guess is the one with the largest mean.", "quantifier": "all command lines, Y4M and PFM files, numbers of frames, offsets and counts, sizes, ranges, thresholds, verbosities, platforms with error level u", "why_tests_cant": "Sums over frames are rounded after each frame and then compared with a threshold, after skipping whose arithmetic depends on the layout of the file; tests fix a few files, counts and one platform.", "anchors": ["src/resdet.c:62-289", "lib/image/y4m.c:18-218", "lib/image/pfm.c:10-218", "lib/analysis.c:99-194", "lib/methods.c:14-40"]}
{"id": "C82", "title": "Pictures scaled by interpolation and rounded to the samples of a file are recognised by the command", "statement": "Let the samples of a PGM, of the frames of a Y4M stream or of PFM images differ by at most delta from pictures that were enlarged by a symmetric filter, or scaled to any size by an interpolation curve such as linear or cubic, from N columns or rows. Called with the sign method, the command prints N with a confidence of at least t and exits with status 0, provided that in every picture at least the share t of the pairs of coefficients around N is larger than the error bound (that of rounding to samples, of reading, of the transform, and of aliasing), and t is not below the threshold.", "quantifier": "all filters and curves, factors, sizes, bit depths, command lines, thresholds and ranges, numbers of frames, platforms with error level u", "why_tests_cant": "Tests scale a few images by a few filters; whether rounding to samples and in the transform leaves enough signs intact depends on every coefficient of every image.", "anchors": ["src/resdet.c:62-289", "lib/image/pgm.c:17-111", "lib/image/y4m.c:18-218", "lib/image/pfm.c:10-218", "lib/methods.c:14-40", "lib/transform/kiss_fft.c:68-82"]}
{"id": "C83", "title": "The library functions, the bindings and the command on every format compute what exact arithmetic gives for the pictures", "statement": "Let frames differ from pictures by at most a known error per sample. With the sign method, no filter, the bundled transform and enough memory, an analysis object (whatever else is called on it), resdetect, resdetect_file, the functions of the Python module and resDetect in JavaScript succeed and return the lists exact arithmetic gives for the pictures: the confidence of a size is the mean share of opposite pairs, up to pairs smaller than the error bound and rounding. The parameters are those of the dictionary or object. Nothing but the lists stays allocated. resdetect_file and the command do so for files of every format: PGM, PFM, Y4M, JPEG as libjpeg decodes it, PNG without interlacing as the mean of the samples libpng delivers, and whatever MagickWand and FFmpeg decode. Hence pictures enlarged or scaled from N samples are listed with N and a confidence of at least t if the share t of the pairs is larger than the error, and pictures with too few opposite pairs with their own size alone.", "quantifier": "all pictures, samples within the error, sizes, numbers of frames, ranges, thresholds, formats, library behaviours, call histories, dictionaries with sane values, platforms with error level u", "why_tests_cant": "Tests run a handful of images through one binding and one decoder on one platform; they compare with earlier output, not with the exact result, and cannot range over decoders or call histories.", "anchors": ["lib/resdetect.c:8-74", "lib/analysis.c:10-205", "lib/methods.c:14-40", "lib/image.c:1-252", "lib/image/libjpeg.c:1-131", "lib/image/libpng.c:1-169", "lib/image/magickwand.c:1-110", "lib/image/ffmpeg.c:1-190", "bindings/python/resdet.py:1-415", "bindings/emscripten/resdet.mts:90-241"]}
{"id": "C84", "title": "The answer depends only on the samples, the method and the parameters", "statement": "Two histories of an analysis object that analysed the same samples with the same method, parameters and size return the same lists, entry for entry and bit for bit, whatever else was called in between, wherever the blocks lie, whatever the heap held and whatever lies behind the samples; provided that no scratch allocation of the bundled transform failed (or there is none because FFTW is used or the sides have no prime factor above 5). resdetect of the same samples in two states of the heap gives the same error and lists, and resdetect_file of a file of any format gives the same as resdetect of its frames in memory.", "quantifier": "all samples, sizes, methods, parameters, histories, heap states, formats and library behaviours", "why_tests_cant": "A test that runs twice and compares sees one heap layout and one history; uninitialised memory in plans or scratch buffers may happen to be equal.", "anchors": ["lib/analysis.c:10-205", "lib/resdetect.c:8-74", "lib/transform/kiss_fft.c:10-96", "lib/kissfft/kiss_fft.c:192-400"]}
{"id": "C85", "title": "numpy arrays and PIL images are analysed as the pictures they hold", "statement": "Reading a file of any format frame by frame with resdet_numpy.Image or resdet_PIL.Image and analysing each frame gives what resdetect_file gives, exceptions included, and leaves nothing allocated or open. A frame read as an array and passed to resdetect is analysed as the image it is. resdetect of a PIL image whose frames have one size analyses all frames from the current one. resdetect(a.T) of a new array of images, rows and columns analyses these. It does not hold in general: an array in numpy's order of rows and columns, a frame read as PIL image, reversed arrays and PIL images with smaller later pages are analysed as something else or read outside of their memory.", "quantifier": "all files, formats, frames, arrays and PIL images, parameters, methods", "why_tests_cant": "Tests use square or symmetric arrays, or compare the binding with itself; that width and height are exchanged shows only in the relation between array elements and pixels, and the reads outside of memory usually go unnoticed.", "anchors": ["bindings/python/resdet_numpy.py:9-33", "bindings/python/resdet_PIL.py:8-38", "bindings/python/resdet.py:110-114", "bindings/python/resdet.py:153-252", "bindings/python/resdet.py:357-415"]}
{"id": "C86", "title": "The size limit and the width of the index types do not change answers", "statement": "Two builds that differ only in PIXEL_MAX and in the index types chosen by it do exactly the same with images within both limits: resdet_create_analysis, every call in every history of an analysis, resdetect, and the functions of the Python and JavaScript bindings return the same and leave the same heap, whichever allocations fail. One of the builds need not satisfy the assumption that byte counts of images up to the limit fit into size_t; so the default build where everything has 32 bits, such as WebAssembly, does with images of up to 200 million pixels what the other properties say.", "quantifier": "all builds, limits, index types, images, histories, parameters, heap states and allocation failures", "why_tests_cant": "Tests run one build on one platform; a truncation in an index type or a product that wraps in 32 bits shows only with sizes and configurations that are not tested.", "anchors": ["lib/resdet_internal.h:32-50", "configure:59-204", "lib/analysis.c:10-205", "lib/resdetect.c:8-74", "lib/methods.c:8-122", "lib/transform/kiss_fft.c:10-96", "bindings/emscripten/resdet.mts:46-241"]}
{"id": "C87", "title": "The bindings read the library's structures where they are", "statement": "From the memory of WebAssembly, JavaScript reads exactly the list of results the library left there, for every list the library can return: indices and counts stay below 2^31, where signed and unsigned numbers agree. methods() lists every method with its name, threshold and address, and samples copied into the heap are the floats the library reads. Python reads results, methods and the names of image readers on every usual platform, whatever the size of size_t and pointers and the order of bytes. The offsets in the JavaScript code are right exactly for 4 byte size_t and pointers.", "quantifier": "all memory contents, lists of results, method tables, addresses and platforms with 4 or 8 byte size_t and pointers", "why_tests_cant": "Tests compare a few results on one platform; that a hard-coded offset, stride or signed read is right for all lists and that declared fields match on other platforms is a statement about layouts.", "anchors": ["bindings/emscripten/resdet.mts:46-76", "bindings/emscripten/resdet.mts:127-169", "bindings/emscripten/resdet.mts:197-232", "bindings/python/libresdet_api.py:17-28", "bindings/python/resdet.py:78-80", "bindings/python/resdet.py:311-340", "include/resdet.h:37-46"]}
{"id": "C88", "title": "Programs over several objects: no memory is broken, and analyses do not disturb each other", "statement": "A C program that uses any number of parameter objects, analyses and result lists, and resdetect, interleaved in any way with each other and with anything else it does, gets a defined outcome from every call, whichever allocations fail; what it holds stays allocated until it releases it, two analyses never share memory, and (but for the leak of C20) releasing everything restores the heap. The results of an analysis are those of the history of calls on this analysis alone: two programs that give the same frames to an analysis with the same size, method and parameters get the same lists whatever else they do before and in between, including destroying other analyses, changing or freeing the parameter object it was made with, and running out of memory elsewhere.", "quantifier": "all builds, all memory states and allocation failures, all programs of any length over any number of objects", "why_tests_cant": "A test runs one interleaving of a few objects with one allocation pattern; hidden shared state or aliasing shows only in particular interleavings and failures.", "anchors": ["lib/analysis.c:34", "lib/analysis.c:99", "lib/analysis.c:158", "lib/analysis.c:196", "lib/resdetect.c:8", "lib/util.c:17", "include/resdet.h:64", "include/resdet.h:85"]}
{"id": "C89", "title": "From pictures to results for every method and filter", "statement": "With any of the four methods, any range, threshold and compression filter, on a build with the bundled transform and its floating point arithmetic, resdetect, resdetect_file, an analysis used by hand and the command return for frames that depict pictures what the method's description says about the exact spectra of the pictures: a size is listed if the share of line pairs that speak for it whatever the rounding exceeds the threshold, only if the share that may speak for it reaches it, and with a confidence between the two; sizes the filter discards are missing, the image's own size comes last, the order is by confidence. For the zerox method this means that pictures enlarged by a symmetric filter are recognised when enough pairs are at least twice the error.", "quantifier": "all builds with the bundled transform within stated error bounds, all sizes, all series of frames and pictures, all methods, ranges, thresholds, filters and file formats", "why_tests_cant": "Tests compare a few images on one platform; the effect of rounding on quotients, exponents, means and comparisons of the other methods depends on the platform and on the data.", "anchors": ["lib/methods.c:16", "lib/methods.c:28", "lib/methods.c:45", "lib/methods.c:87", "lib/analysis.c:99", "lib/analysis.c:158", "lib/resdetect.c:8", "lib/resdetect.c:40", "src/resdet.c:62"]}
{"id": "C90", "title": "Statements of Python programs return what is due", "statement": "In a program over any number of buffers, images and analyses of the Python binding, used carefully and with enough memory, every statement returns or raises what the earlier statements on its own objects imply: an image gives the frames of its file in order and then False, a buffer gives the samples last read to it, an analysis accepts exactly the frames that are finite and refuses others with the documented error, and results are those of the accepted frames, equal to what resdetect and resdetect_file give for the same frames, and within the bounds of C89 of exact arithmetic. Statements on other objects have no influence. Empty type and reader names are like None, offsets are passed modulo 2^64, lists are rounded to float.", "quantifier": "all programs, all interleavings of objects, all files in the modelled formats, all dictionaries of accepted values, all methods and builds", "why_tests_cant": "Tests use one object of each kind in one order; the number of interleavings is unbounded and the influence of one object on another may depend on addresses and sizes.", "anchors": ["bindings/python/resdet.py:92", "bindings/python/resdet.py:116", "bindings/python/resdet.py:153", "bindings/python/resdet.py:173", "bindings/python/resdet.py:180", "bindings/python/resdet.py:208", "bindings/python/resdet.py:217", "bindings/python/resdet.py:237", "bindings/python/resdet.py:357", "bindings/python/resdet.py:393"]}
{"id": "C91", "title": "Statements of JavaScript programs return what is due, whenever finalisers run", "statement": "In a program over any number of Analysis objects of the JavaScript binding, with sizes, arrays and parameters that the library accepts and with memory at the start, no statement is undefined and every one returns or throws what is due: constructors fail exactly for sizes the library refuses and unknown keys, analyzeImage accepts exactly the arrays whose samples are finite, analysisResults gives the results of the arrays accepted, resDetect those of its frames. Finalisers of unreachable objects, whenever they run, change nothing that statements return; memory afterwards is that before plus the analyses not yet collected. Running again gives the same, results are within the bounds of C89 of exact arithmetic, and the Python binding gives the same for the same samples and parameters.", "quantifier": "all programs, all interleavings of analyses and finalisers, all conversions of numbers into size_t, all accepted parameters, all methods and builds", "why_tests_cant": "When finalisers run is up to the garbage collector, so tests exercise only some schedules; the number of interleavings is unbounded.", "anchors": ["bindings/emscripten/resdet.mts:54", "bindings/emscripten/resdet.mts:90", "bindings/emscripten/resdet.mts:97", "bindings/emscripten/resdet.mts:114", "bindings/emscripten/resdet.mts:127", "bindings/emscripten/resdet.mts:197"]}
{"id": "C92", "title": "What resdet writes to standard output and standard error", "statement": "The texts change nothing about what the command does. An option that ends the command writes its own text to the proper stream; options that cannot be used are named in the message, and no message is written without a reason. Standard output holds the results and nothing else; without -p a command that succeeds is silent on standard error; a command that fails says why, unless the exit status is the answer (-v 0). With -p, standard error holds exactly one line for every frame skipped and one for every frame analysed, numbered on from the frames skipped, whichever reader reads them. A size that is not acceptable, a sample that is infinite or not a number (the frame with it is the last one reported), an error while reading or skipping, an input with no frames left, one that ends before the frames to skip, and one that cannot be opened are told apart by their messages.", "quantifier": "all options, files, readers, builds, numbers of frames, all runs including those out of memory", "why_tests_cant": "Tests compare the output for two frames and a handful of bad values; the statement is about every count of frames, every option text and every place of failure.", "anchors": ["src/resdet.c:22", "src/resdet.c:26", "src/resdet.c:70", "src/resdet.c:118", "src/resdet.c:182", "src/resdet.c:223"]}
{"id": "C93", "title": "The help text and the usage name every option", "statement": "The text of resdet -h has a line for every option the command takes, starting with the option; its first line and the usage printed for wrong options name them all. It gives the default range, the methods and their default thresholds.", "quantifier": "all builds (the default range is part of the text)", "why_tests_cant": "The test of -h only looks for the word Usage.", "anchors": ["src/resdet.c:31", "src/resdet.c:47"]}
{"id": "C94", "title": "What profile prints", "statement": "Measuring and printing change nothing about the figures. For a dictionary whose entries name files of known content, standard output names the entries in order, each with a row for every method: name, the time between the readings of the clock around the detection, sizes too many and too few; then the totals, in which the times of a method over all images are added up without loss. Standard error names every file that could not be read and says why, and says why a detection failed. If the dictionary breaks off in an entry, the output is that for the entries before, then the name of the last, then the totals; only the exit status tells of it. The numbers printed for times are the times.", "quantifier": "all dictionaries, files, builds, clocks that do not go back, all runs including those out of memory", "why_tests_cant": "The tool has no tests, and its output depends on the clock; carries between seconds and microseconds and the order of the two streams need every sequence of readings.", "anchors": ["src/profile.c:17", "src/profile.c:74", "src/profile.c:163", "src/profile.c:174", "src/profile.c:183", "src/profile.c:196"]}
{"id": "C95", "title": "The command lines of profile, stat and imgread", "statement": "Without arguments each tool writes its usage to standard error, touches nothing and fails; the usage of stat lists the methods. profile says why a dictionary cannot be opened, splits it into its lines whatever the bytes, and does with them what C94 says. stat prints for each dimension median, fences and outliers with percentages right to two digits, or only the error's message. imgread says why it could not read or write, and nothing if all went well. A method that does not exist is refused; the exit status says whether the tool succeeded; a missing argument is an error.", "quantifier": "all arguments, files, builds, errors", "why_tests_cant": "The tools have no tests; the statement is about all arguments and all ways to fail.", "anchors": ["src/profile.c:105", "src/stat.c:17", "src/stat.c:30", "src/stat.c:41", "src/imgread.c:11", "src/imgread.c:26", "src/imgread.c:41"]}
{"id": "C96", "title": "The options of configure", "statement": "Whatever precisions and limits configure is given, a library that builds on a 64 bit host, or on a 32 bit host for up to a hundred million pixels, meets everything the other properties assume of a build. Documented values are accepted and give what they say: coefficients and intermediate results of the precision asked for (the latter never below the former), the limits asked for, FFTW for that precision if installed. Image sides are exact in intermediate results in all builds but the one with float only. Values that mean nothing stop the build.", "quantifier": "all options, hosts, sets of installed libraries", "why_tests_cant": "A test suite runs against one configuration; the combinations of precisions, limits and libraries are unbounded in the limits and never built together.", "anchors": ["configure:90", "configure:214", "lib/precision.h:13", "lib/precision.h:34", "lib/resdet_internal.h:36", "lib/resdet_internal.h:56", "Makefile:19"]}
{"id": "C97", "title": "The order of the frames", "statement": "Given one or two frames, an analysis reports the same lists whichever order they come in, and a frame given twice gives the same lists as the frame given once. For any number of frames the order can only change what rounding can: each size found in one order is found in the other with a confidence that differs by at most 2(k+1)/2^p + 2^-23 after k frames (p bits in intermediate results), or its confidence is within (2k+3)/2^p + 2^-24 of the threshold.", "quantifier": "all builds with exact sides, methods, parameters, sizes, frames and orders, all histories of calls in between", "why_tests_cant": "The number of orders grows with the factorial of the number of frames, and the differences between orders are in the last bits of the scores, so that only specially chosen frames show one.", "anchors": ["lib/analysis.c:99", "lib/analysis.c:129", "lib/analysis.c:139", "lib/methods.c:22"]}
{"id": "C98", "title": "Pictures without content", "statement": "After frames that are black throughout, an analysis of any size by any method reports no size with a confidence other than zero, and with a positive threshold reports the input size alone; with the bundled transform every coefficient of such a frame is a positive zero, whatever the size and whichever allocations fail. The same should hold for frames of one colour. With the bundled transform it does if the sides are products of twos and threes, and does not for other sides.", "quantifier": "all builds with exact sides, methods, parameters, sizes and numbers of frames, all histories of calls in between, all failing allocations in the transform, all finite tables with non-negative cosines", "why_tests_cant": "Zeros carry a sign, the sign method counts sign bits, and a negative zero anywhere in the butterflies of one factorisation would be reported as evidence; there is one path through the transform for every factorisation of the sides.", "anchors": ["lib/methods.c:16", "lib/methods.c:34", "lib/methods.c:66", "lib/methods.c:91", "lib/transform/kiss_fft.c:68", "lib/kissfft/kiss_fft.c:192"]}
{"id": "C99", "title": "Frames without content only dilute", "statement": "Black frames, and frames of one colour where C98 covers them, anywhere among the frames of an analysis add no candidates: every size found with them is found without them, with a confidence at least as large. With k frames among k' having content, its confidence is k/k' of the one found without the others, up to the rounding of the two means. A size is lost only if k/k' of its confidence is not above the threshold, up to rounding. Such frames can therefore hide a size by pushing its mean under the threshold, never invent one.", "quantifier": "all builds with exact sides, methods, parameters and sizes, all numbers of frames up to the precision of the mean, all positions and numbers of empty frames, all other frames, all histories of calls in between", "why_tests_cant": "The sums are accumulated in floating point over any number of frames of any content; a test compares a few sequences and cannot exclude an order or a number of empty frames at which a rounding adds a candidate.", "anchors": ["lib/analysis.c:99", "lib/analysis.c:129", "lib/analysis.c:139", "lib/methods.c:22"]}
{"id": "C100", "title": "Sequences joined", "statement": "An analysis of two sequences of frames in turn says what analyses of each of them say: it reports no size that neither of them reports, and it reports each size that both report, with the mean of their confidences weighted by the numbers of frames. This holds up to (2k+1)/2^p + 2^-23 after k frames in all (p bits in intermediate results), except for sizes whose confidence exceeds the threshold by no more than (2k+2)/2^p + 2^-24.", "quantifier": "all builds with exact sides, methods, parameters, sizes, sequences and lengths up to the precision of the mean, all histories of calls in between", "why_tests_cant": "The three analyses round differently for every content and every pair of lengths; whether rounding can add a size that neither part has, or lose one that both have, away from the threshold, is a statement about all of them.", "anchors": ["lib/analysis.c:99", "lib/analysis.c:129", "lib/analysis.c:139", "lib/methods.c:22"]}
