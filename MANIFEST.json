{
 "claims": [
  {
   "property": "C01",
   "status": "proved",
   "theorems": [
    "Verif.Props.C01_sorted_sentinel"
   ],
   "note": ""
  },
  {
   "property": "C02",
   "status": "proved",
   "theorems": [
    "Verif.Props.C02_confidence_unit"
   ],
   "note": ""
  },
  {
   "property": "C03",
   "status": "proved",
   "theorems": [
    "Verif.Props.C03_candidates_inside"
   ],
   "note": ""
  },
  {
   "property": "C04",
   "status": "proved",
   "theorems": [
    "Verif.Props.C04_complete"
   ],
   "note": ""
  },
  {
   "property": "C05",
   "status": "proved",
   "theorems": [
    "Verif.Props.C05_threshold_zero"
   ],
   "note": ""
  },
  {
   "property": "C06",
   "status": "proved",
   "theorems": [
    "Verif.Props.C06_threshold_monotone"
   ],
   "note": ""
  },
  {
   "property": "C07",
   "status": "proved",
   "theorems": [
    "Verif.Props.C07_small_dimension"
   ],
   "note": ""
  },
  {
   "property": "C08",
   "status": "proved",
   "theorems": [
    "Verif.Props.C08_independent_dimensions"
   ],
   "note": ""
  },
  {
   "property": "C09",
   "status": "proved",
   "theorems": [
    "Verif.Props.C09_results_do_not_disturb"
   ],
   "note": ""
  },
  {
   "property": "C10",
   "status": "proved",
   "theorems": [
    "Verif.Props.C10_noimg_iff",
    "Verif.Props.C10_resdetect_no_frames"
   ],
   "note": "Both for resdet_analysis_results and for resdetect with no frames."
  },
  {
   "property": "C11",
   "status": "proved",
   "theorems": [
    "Verif.Props.C11_rejected_frame"
   ],
   "note": ""
  },
  {
   "property": "C12",
   "status": "partial",
   "theorems": [
    "Verif.Props.C12_heights_partial",
    "Verif.Props.C12_only_orig",
    "Verif.Props.C12_oom_frame_partial",
    "Verif.Props.C12_fails"
   ],
   "note": "False as stated for the orig method: C12_fails gives a 3x3 image where running out of memory in the second dimension leaves the first dimension's score counted, so a confidence of 2 is reported later. C12_only_orig proves every other method never runs out of memory while analysing; for orig C12_heights_partial proves that nothing but the scores of the widths is affected, and C12_oom_frame_partial that nothing is if one of the dimensions is too small to be analysed."
  },
  {
   "property": "C13",
   "status": "proved",
   "theorems": [
    "Verif.Props.C13_per_frame_means",
    "Verif.Props.C13_order"
   ],
   "note": ""
  },
  {
   "property": "C14",
   "status": "proved",
   "theorems": [
    "Verif.Props.C14_error",
    "Verif.Props.C14_resdetect_sequential",
    "Verif.Props.C14_resdetect_history"
   ],
   "note": ""
  },
  {
   "property": "C15",
   "status": "proved",
   "theorems": [
    "Verif.Props.C15_file",
    "Verif.Props.C15_not_opened",
    "Verif.Props.C15_readers"
   ],
   "note": ""
  },
  {
   "property": "C16",
   "status": "proved",
   "theorems": [
    "Verif.Props.C16_file_outputs",
    "Verif.Props.C16_results_outputs",
    "Verif.Props.C16_resdetect_outputs"
   ],
   "note": ""
  },
  {
   "property": "C17",
   "status": "proved",
   "theorems": [
    "Verif.Props.C17_create_outcome"
   ],
   "note": ""
  },
  {
   "property": "C18",
   "status": "proved",
   "theorems": [
    "Verif.Props.C18_limit_exact",
    "Verif.Props.C18_no_wrap"
   ],
   "note": ""
  },
  {
   "property": "C19",
   "status": "proved",
   "theorems": [
    "Verif.Props.C19_defined"
   ],
   "note": ""
  },
  {
   "property": "C20",
   "status": "partial",
   "theorems": [
    "Verif.Props.C20_file_partial",
    "Verif.Props.C20_create_failure_partial",
    "Verif.Props.C20_fails",
    "Verif.Props.C20_create_destroy",
    "Verif.Props.C20_calls",
    "Verif.Props.C20_resdetect_partial"
   ],
   "note": "False for the KISS FFT backend: C20_fails shows a failing resdet_create_analysis that leaks a block when width differs from height. The _partial theorems cover every other case of creation; resdetect is covered with FFTW, with equal sides, and with the bundled transform when memory does not run out. C20_create_destroy and C20_calls hold for both backends."
  },
  {
   "property": "C21",
   "status": "proved",
   "theorems": [
    "Verif.Props.C21_setter",
    "Verif.Props.C21_always_valid"
   ],
   "note": ""
  },
  {
   "property": "C22",
   "status": "proved",
   "theorems": [
    "Verif.Props.C22_lookup",
    "Verif.Props.C22_table",
    "Verif.Props.C22_null_method"
   ],
   "note": ""
  },
  {
   "property": "C23",
   "status": "partial",
   "theorems": [
    "Verif.Props.C23_file_codes",
    "Verif.Props.C23_error_str_partial",
    "Verif.Props.C23_fails",
    "Verif.Props.C23_codes"
   ],
   "note": "resdet_error_str(INT_MIN) negates INT_MIN, which is undefined (C23_fails). The _partial theorem covers every other int; C23_codes covers the analysis functions and resdetect."
  },
  {
   "property": "C24",
   "status": "proved",
   "theorems": [
    "Verif.Props.C24_zerox_range"
   ],
   "note": ""
  },
  {
   "property": "C25",
   "status": "partial",
   "theorems": [
    "Verif.Props.C25_full_confidence",
    "Verif.Props.C25_converse_partial",
    "Verif.Props.C25_converse_fails"
   ],
   "note": "The forward direction holds in full. The converse is false for large images: C25_converse_fails gives 2^25 lines of which one is not antisymmetric and whose confidence still rounds to 1. C25_converse_partial proves it for up to 2^24 compared pairs."
  },
  {
   "property": "C26",
   "status": "proved",
   "theorems": [
    "Verif.Props.C26_frame",
    "Verif.Props.C26_suppresses"
   ],
   "note": ""
  },
  {
   "property": "C27",
   "status": "proved",
   "theorems": [
    "Verif.Props.C27_frame",
    "Verif.Props.C27_mirror",
    "Verif.Props.C27_resdetect"
   ],
   "note": ""
  },
  {
   "property": "C28",
   "status": "partial",
   "theorems": [
    "Verif.Props.C28_removes_only",
    "Verif.Props.C28_kept_partial",
    "Verif.Props.C28_fails"
   ],
   "note": "The documented rule is false: the code keeps, rather than removes, a set of positions, and measures from the first examined position (C28_fails). C28_removes_only proves that a filter never adds or changes results; C28_kept_partial states the rule the code does follow for sides up to 2^22."
  },
  {
   "property": "C29",
   "status": "proved",
   "theorems": [
    "Verif.Props.C29_open",
    "Verif.Props.C29_open_with_reader",
    "Verif.Props.C29_null"
   ],
   "note": ""
  },
  {
   "property": "C30",
   "status": "partial",
   "theorems": [
    "Verif.Props.C30_extension",
    "Verif.Props.C30_accepts",
    "Verif.Props.C30_by_type_partial",
    "Verif.Props.C30_by_name_partial",
    "Verif.Props.C30_fails"
   ],
   "note": "C30_fails: a non-ASCII byte in the extension or type reaches tolower as a negative int where char is signed, which is undefined. The _partial theorems cover ASCII names and all names where char is unsigned."
  },
  {
   "property": "C31",
   "status": "proved",
   "theorems": [
    "Verif.Props.C31_pgm",
    "Verif.Props.C31_pgm_frames",
    "Verif.Props.C31_pgm_too_big"
   ],
   "note": "Plays m W H [raster/maxval] for every file of the grammar PgmFile (comments only directly after the magic line, as the code accepts) and every sequence of reads and seeks; too large sizes are RDETOOBIG."
  },
  {
   "property": "C32",
   "status": "partial",
   "theorems": [
    "Verif.Props.C32_partial",
    "Verif.Props.C32_fails"
   ],
   "note": "False: pgm.c ignores the result of matching P5 unless it is EOF. C32_fails: a file without any magic opens. C32_partial: files in which no number or comment follows are rejected."
  },
  {
   "property": "C33",
   "status": "partial",
   "theorems": [
    "Verif.Props.C33_y4m_partial",
    "Verif.Props.C33_y4m_fails",
    "Verif.Props.C33_pgm_partial",
    "Verif.Props.C33_pgm_fails"
   ],
   "note": "False for files whose samples exceed the declared maximum: PGM with maxval 0 gives NaN and infinity or 2 (C33_pgm_fails), a 10 bit Y4M sample with all 16 bits set gives more than 64 (C33_y4m_fails). The _partial theorems cover every file whose samples respect the maximum."
  },
  {
   "property": "C34",
   "status": "proved",
   "theorems": [
    "Verif.Props.C34_pfm",
    "Verif.Props.C34_y4m",
    "Verif.Props.C34_count",
    "Verif.Props.C34_pgm"
   ],
   "note": "C34_count holds for every file, call sequence and built-in reader. C34_pgm, C34_pfm and C34_y4m state the error for data cut short; for Y4M within the layouts of C37_partial."
  },
  {
   "property": "C35",
   "status": "proved",
   "theorems": [
    "Verif.Props.C35_pfm"
   ],
   "note": "Grammar PfmFile in Spec/Formats; both seekable and pipe input; any mix of gray and colour, either byte order."
  },
  {
   "property": "C36",
   "status": "partial",
   "theorems": [
    "Verif.Props.C36_partial",
    "Verif.Props.C36_fails"
   ],
   "note": "False: a seek by 0 right after opening loses the first image, and in sequences mixing gray and colour the skipped size is that of the current format (C36_fails). C36_partial covers uniform sequences and call sequences not starting with seek 0."
  },
  {
   "property": "C37",
   "status": "partial",
   "theorems": [
    "Verif.Props.C37_partial",
    "Verif.Props.C37_fails"
   ],
   "note": "False for 444alpha and most 411 sizes (C38_fails, end to end), and for two-byte samples on big endian hosts, which are read in host order (C37_fails). C37_partial covers everything else."
  },
  {
   "property": "C38",
   "status": "partial",
   "theorems": [
    "Verif.Props.C38_partial",
    "Verif.Props.C38_fails"
   ],
   "note": "C38_fails: 444alpha is skipped by a wrong size for every image size because its branch comes after the 444 one; 411 uses the 420 formula. C38_partial covers every other layout, depth, size and parameter order."
  },
  {
   "property": "C39",
   "status": "partial",
   "theorems": [
    "Verif.Props.C39_seek",
    "Verif.Props.C39_add",
    "Verif.Props.C39_partial",
    "Verif.Props.C39_fails"
   ],
   "note": "C39_seek and C39_add hold for every file whatsoever. Seeking past the end without error is false for 411 streams (C39_fails); C39_partial covers the layouts of C37_partial."
  },
  {
   "property": "C40",
   "status": "partial",
   "theorems": [
    "Verif.Props.C40_y4m_partial",
    "Verif.Props.C40_pfm_reads",
    "Verif.Props.C40_pfm_partial",
    "Verif.Props.C40_fails"
   ],
   "note": "False for 411: a one-frame stream is read from a file and rejected from a pipe (C40_fails). C40_pfm_reads holds in full for reads; the _partial theorems cover reads and seeks for Y4M layouts of C37_partial and uniform PFM sequences."
  },
  {
   "property": "C41",
   "status": "proved",
   "theorems": [
    "Verif.Props.C41_safe",
    "Verif.Props.C41_sizes"
   ],
   "note": "C41_safe: after a successful open no sequence of calls is undefined, for any file. C41_sizes: exact sizes."
  },
  {
   "property": "C42",
   "status": "proved",
   "theorems": [
    "Verif.Props.C42_one_frame"
   ],
   "note": "PGM; JPEG and PNG readers are not modelled (they need libjpeg and libpng)."
  },
  {
   "property": "C43",
   "status": "proved",
   "theorems": [
    "Verif.Props.C43_progress"
   ],
   "note": "For every file and any calls; when memory runs out a PFM seek may fail before skipping anything."
  },
  {
   "property": "C44",
   "status": "proved",
   "theorems": [
    "Verif.Props.C44_end"
   ],
   "note": "For every file, any calls, any allocation schedule."
  },
  {
   "property": "C45",
   "status": "partial",
   "theorems": [
    "Verif.Props.C45_memory",
    "Verif.Props.C45_bulk_partial",
    "Verif.Props.C45_fails",
    "Verif.Props.C45_not_opened"
   ],
   "note": "The code wants room for one more image than the file has, so a file whose frames just fit is refused as too big; the _partial theorem states the rule the code follows."
  },
  {
   "property": "C46",
   "status": "partial",
   "theorems": [
    "Verif.Props.C46_pgm_partial",
    "Verif.Props.C46_y4m_partial",
    "Verif.Props.C46_pfm_partial",
    "Verif.Props.C46_fails"
   ],
   "note": "False: numbers that do not fit their type make scanf undefined and bytes above 127 are passed to isdigit (C46_fails). The _partial theorems bound the undefined behaviour: it only occurs for files that contain such a number, a negative number (PGM), one above the range of float (PFM), or a non-ASCII byte on hosts with signed char (Y4M)."
  },
  {
   "property": "C47",
   "status": "partial",
   "theorems": [
    "Verif.Props.C47_ends",
    "Verif.Props.C47_unusable",
    "Verif.Props.C47_success",
    "Verif.Props.C47_verbosity_fails",
    "Verif.Props.C47_wraps",
    "Verif.Props.C47_overflow_fails"
   ],
   "note": "C47_ends/C47_unusable/C47_success decide the exit status for every option list and library outcome. The last clause (unusable option values) is false for -v: text that is not a number is taken as 0 (C47_verbosity_fails). Numbers that do not fit int are accepted too: C47_wraps says which have the same effect, C47_overflow_fails gives a very large verbosity that acts like -1 and a very small one that acts like 0."
  },
  {
   "property": "C48",
   "status": "proved",
   "theorems": [
    "Verif.Props.C48_window",
    "Verif.Props.C48_readers",
    "Verif.Props.C48_plays",
    "Verif.Props.C48_past_end"
   ],
   "note": "C48_window: any image that yields the frames after skipping k, for k given with -o; C48_plays connects it to images that play back a frame list and C48_past_end covers k past the end."
  },
  {
   "property": "C49",
   "status": "proved",
   "theorems": [
    "Verif.Props.C49_pfm",
    "Verif.Props.C49_round_trip"
   ],
   "note": "C49_pfm: the bytes written are a PFM of the frames, for any image that yields them; C49_round_trip: reading that file back yields the same frames. Little endian hosts."
  },
  {
   "property": "C50",
   "status": "partial",
   "theorems": [
    "Verif.Props.C50_counts_partial",
    "Verif.Props.C50_fails",
    "Verif.Props.C50_method_partial",
    "Verif.Props.C50_known",
    "Verif.Props.C50_fails_newline"
   ],
   "note": "False: candidates are ordered by confidence while the comparison assumes ascending lists (C50_fails), and a missing final newline loses a digit (C50_fails_newline). Partial: lower bounds, exact difference, exact for ascending lists; the figures of a method come from detection of all frames."
  },
  {
   "property": "C51",
   "status": "partial",
   "theorems": [
    "Verif.Props.C51_python_fails",
    "Verif.Props.C51_python_ignored_fails",
    "Verif.Props.C51_python_wraps_fails",
    "Verif.Props.C51_python_partial",
    "Verif.Props.C51_python_memory_fails",
    "Verif.Props.C51_js_fails",
    "Verif.Props.C51_js_partial",
    "Verif.Props.C51_js_leaks_fails"
   ],
   "note": "False for both bindings (C51_python_fails: no exception for any values; C51_js_fails: only the last setter counts). Partial: unknown keys are reported, values in range take effect, JavaScript reports a rejected last value."
  },
  {
   "property": "C52",
   "status": "partial",
   "theorems": [
    "Verif.Props.C52_partial",
    "Verif.Props.C52_read_image",
    "Verif.Props.C52_fails",
    "Verif.Props.C52_row_fails",
    "Verif.Props.C52_allocation_fails"
   ],
   "note": "False for negative components and with_dimensions. Partial: components that are not negative, buffers as large as their attributes say; C52_read_image: the buffers of read_image are."
  },
  {
   "property": "C53",
   "status": "proved",
   "theorems": [
    "Verif.Props.C53_statres",
    "Verif.Props.C53_stat"
   ],
   "note": "C53_statres: every list of any length; C53_stat: the whole program whenever resdetect_file returns."
  },
  {
   "property": "C54",
   "status": "proved",
   "theorems": [
    "Verif.Props.C54_factor",
    "Verif.Props.C54_alloc"
   ],
   "note": "Every positive length below 2^32. C54_alloc covers the int arithmetic and table sizes of kiss_fftr_alloc for the lengths resdet_create_plan accepts."
  },
  {
   "property": "C55",
   "status": "proved",
   "theorems": [
    "Verif.Props.C55_fft",
    "Verif.Props.C55_fftr"
   ],
   "note": "Exact arithmetic over the reals with exact cos/sin tables; the same program text is run with rounded arithmetic by resdet_transform in the model. Temporaries are assumed to be available (Plenty); see C58 for what happens otherwise."
  },
  {
   "property": "C56",
   "status": "proved",
   "theorems": [
    "Verif.Props.C56_transform"
   ],
   "note": "Plan creation followed by the transform, exact arithmetic, every size the backend accepts."
  },
  {
   "property": "C57",
   "status": "proved",
   "theorems": [
    "Verif.Props.C57_spectrum",
    "Verif.Props.C57_sign",
    "Verif.Props.C57_zerox"
   ],
   "note": "C57_spectrum: exact arithmetic, bundled transform. C57_sign and C57_zerox: the library as modelled with rounded arithmetic and either backend, whenever the computed coefficients near N are closer to the exact ones than those are to zero."
  },
  {
   "property": "C58",
   "status": "partial",
   "theorems": [
    "Verif.Props.C58_reported_fails",
    "Verif.Props.C58_spectrum_partial"
   ],
   "note": "False: a failed allocation inside kf_bfly_generic only prints a message, the frame is reported as analysed and its scores differ (C58_reported_fails, 7x1 frame). C58_spectrum_partial: no such dependence for FFTW, for sides without prime factors above 5, or when memory suffices."
  },
  {
   "property": "C59",
   "status": "partial",
   "theorems": [
    "Verif.Props.C59_pgm_partial",
    "Verif.Props.C59_pgm_reads",
    "Verif.Props.C59_pfm_partial",
    "Verif.Props.C59_pfm_reads",
    "Verif.Props.C59_y4m_partial",
    "Verif.Props.C59_y4m_reads",
    "Verif.Props.C59_fails"
   ],
   "note": "False: C59_fails has for each format a file without a header of the format that is opened. Proved instead: every opened file starts with a text of the grammars in Spec/Lax.lean and the size is taken from it (C59_pgm_partial, C59_pfm_partial, C59_y4m_partial), and the grammars are exact (C59_pgm_reads, C59_pfm_reads, C59_y4m_reads); for the scale of a PFM that includes the grammar of %f with hexadecimal numbers, infinities and NaNs."
  },
  {
   "property": "C60",
   "status": "partial",
   "theorems": [
    "Verif.Props.C60_fails_all_or_none",
    "Verif.Props.C60_fails_fences",
    "Verif.Props.C60_fails_detection",
    "Verif.Props.C60_fails",
    "Verif.Props.C60_fails_median"
   ],
   "note": "False: for every list that detection returns (at most 2^53/3 entries, precise builds) all candidates are listed as extreme outliers and none as mild (C60_fails_detection, C60_fails_fences, which also gives median and fences up to rounding); all or none for any list in descending order (C60_fails_all_or_none); a candidate of confidence 0 is an extreme outlier (C60_fails), the sentinel enters the median (C60_fails_median)."
  },
  {
   "property": "C61",
   "status": "partial",
   "theorems": [
    "Verif.Props.C61_partial",
    "Verif.Props.C61_fails",
    "Verif.Props.C61_frames_fails"
   ],
   "note": "False as soon as width and height differ and exceed 1 (C61_fails); three-dimensional arrays are interleaved (C61_frames_fails). Partial: square images, and sizes passed back."
  },
  {
   "property": "C62",
   "status": "proved",
   "theorems": [
    "Verif.Props.C62_accuracy",
    "Verif.Props.C62_sign",
    "Verif.Props.C62_zerox"
   ],
   "note": "Hypotheses: accurate tables (Accurate), no overflow and 512*(S+4)*u <= 1 (Moderate), and memory for temporaries or sides without prime factors above 5 (otherwise false, see C58)."
  },
  {
   "property": "C63",
   "status": "partial",
   "theorems": [
    "Verif.Props.C63_decodes_partial",
    "Verif.Props.C63_rejects_partial",
    "Verif.Props.C63_limit",
    "Verif.Props.C63_read_fails",
    "Verif.Props.C63_open_fails"
   ],
   "note": "False: the error manager is a compound literal of libjpeg_reader_open used by later calls (C63_read_fails), and the jmp_buf literal may end with the if statement (C63_open_fails). Partial: files decoded without messages play exactly; rejected files are refused where the literal survives. libjpeg itself is an arbitrary function."
  },
  {
   "property": "C64",
   "status": "partial",
   "theorems": [
    "Verif.Props.C64_decodes_partial",
    "Verif.Props.C64_row",
    "Verif.Props.C64_mean",
    "Verif.Props.C64_rejects",
    "Verif.Props.C64_limit",
    "Verif.Props.C64_defined_partial",
    "Verif.Props.C64_interlaced_fails"
   ],
   "note": "False for interlaced images of more than one row (C64_interlaced_fails): png_set_interlace_handling is called after png_read_update_info, so libpng runs the seven passes with the row count of the first and nothing is delivered. Proved for all other images, including interlaced ones of one row (C64_row). libpng's decoding is an arbitrary function; its transformations and row calls are modelled after libpng 1.6."
  },
  {
   "property": "C65",
   "status": "partial",
   "theorems": [
    "Verif.Props.C65_defined",
    "Verif.Props.C65_decodes_partial",
    "Verif.Props.C65_limit",
    "Verif.Props.C65_reasons_partial",
    "Verif.Props.C65_export_fails",
    "Verif.Props.C65_errno_fails"
   ],
   "note": "False: the result of MagickExportImagePixels is ignored, so a frame that cannot be exported counts as read (C65_export_fails); a failure to open that leaves errno at 0 is reported as RDETOOBIG (C65_errno_fails). Proved for all else. ImageMagick itself is an arbitrary function."
  },
  {
   "property": "C66",
   "status": "partial",
   "theorems": [
    "Verif.Props.C66_decodes",
    "Verif.Props.C66_limit",
    "Verif.Props.C66_reasons_partial",
    "Verif.Props.C66_parameters_fails",
    "Verif.Props.C66_nomem_fails",
    "Verif.Props.C66_truncated_fails",
    "Verif.Props.C66_defined_partial"
   ],
   "note": "False: the error of avcodec_parameters_to_context is lost to a misplaced parenthesis (C66_parameters_fails), the stream index overrides RDENOMEM (C66_nomem_fails), and any demuxer error counts as the end (C66_truncated_fails). Definedness assumes that decoding ends. FFmpeg itself is an arbitrary function whose system errors are negative."
  },
  {
   "property": "C67",
   "status": "proved",
   "theorems": [
    "Verif.Props.C67_contract",
    "Verif.Props.C67_open",
    "Verif.Props.C67_file",
    "Verif.Props.C67_choice"
   ],
   "note": "For extensions whose characters may be passed to tolower (C30_fails is the other case)."
  },
  {
   "property": "C68",
   "status": "proved",
   "theorems": [
    "Verif.Props.C68_exceptions",
    "Verif.Props.C68_resdetect",
    "Verif.Props.C68_file",
    "Verif.Props.C68_results"
   ],
   "note": "FFTW backend, equal sides, or enough memory for resdetect; C20_fails is the other case."
  },
  {
   "property": "C69",
   "status": "partial",
   "theorems": [
    "Verif.Props.C69_resDetect_partial",
    "Verif.Props.C69_results_partial",
    "Verif.Props.C69_analysis_partial",
    "Verif.Props.C69_analyze",
    "Verif.Props.C69_leaks_fails"
   ],
   "note": "False: when the memory for samples or outputs runs out the parameters stay allocated (C69_leaks_fails, see also C51_js_leaks_fails). Partial: everything is freed on all other paths, and results are those of the library."
  },
  {
   "property": "C70",
   "status": "partial",
   "theorems": [
    "Verif.Props.C70_python_partial",
    "Verif.Props.C70_python_fails",
    "Verif.Props.C70_js_fails",
    "Verif.Props.C70_resdetect_fails"
   ],
   "note": "False for both bindings for every array of finite samples that is too short (C70_python_fails, C70_js_fails, C70_resdetect_fails). Partial: defined for arrays that are long enough."
  },
  {
   "property": "C71",
   "status": "proved",
   "theorems": [
    "Verif.Props.C71_calls",
    "Verif.Props.C71_bulk",
    "Verif.Props.C71_detect",
    "Verif.Props.C71_pfm",
    "Verif.Props.C71_y4m"
   ],
   "note": "For every content and call sequence, provided the error lasts (nothing behind it can be read any more). PGM holds one image, whose samples a read error cuts short as in C42. The FFmpeg reader does treat errors as the end: C66."
  },
  {
   "property": "C72",
   "status": "proved",
   "theorems": [
    "Verif.Props.C72_legible",
    "Verif.Props.C72_unambiguous",
    "Verif.Props.C72_columns"
   ],
   "note": "Bytes of the output; printf(\"%f\") is taken to round correctly. With a confidence of 100% or a size of six digits the columns shift (shown by an example)."
  },
  {
   "property": "C73",
   "status": "partial",
   "theorems": [
    "Verif.Props.C73_programs_partial",
    "Verif.Props.C73_closed_fails",
    "Verif.Props.C73_reopen_fails",
    "Verif.Props.C73_small_fails",
    "Verif.Props.C73_images_fails"
   ],
   "note": "False: a closed buffer keeps the freed pointer that read_image_frame passes on (C73_closed_fails), opening into a buffer in use leaks (C73_reopen_fails), buffer sizes are not checked (C73_small_fails, C73_images_fails). Partial: programs whose statements avoid exactly these, with files on which the reader itself is defined. Left out: numpy, PIL and foreign pointers."
  },
  {
   "property": "C74",
   "status": "proved",
   "theorems": [
    "Verif.Props.C74_spectrum",
    "Verif.Props.C74_linear",
    "Verif.Props.C74_any",
    "Verif.Props.C74_sign",
    "Verif.Props.C74_zerox",
    "Verif.Props.C74_bundled"
   ],
   "note": "C74_spectrum: exact transform. C74_sign and C74_zerox: either backend, whenever computed coefficients are within d of those of the ideal image. C74_bundled: the bundled transform, with the bound of C62 and samples off by at most e. C74_linear: repetition and linear interpolation qualify; C74_any: so does every symmetric filter that keeps the highest frequency of the original, for ranges small against N. Integer factors and borders continued by mirroring only."
  },
  {
   "property": "C75",
   "status": "proved",
   "theorems": [
    "Verif.Props.C75_confidence",
    "Verif.Props.C75_listed",
    "Verif.Props.C75_absent"
   ],
   "note": "All four methods. Hypotheses: no more pixels than the intermediate type counts exactly, and number of frames times 2^24 within its precision (2^29 frames for double)."
  },
  {
   "property": "C76",
   "status": "proved",
   "theorems": [
    "Verif.Props.C76_spectrum",
    "Verif.Props.C76_curves",
    "Verif.Props.C76_smooth",
    "Verif.Props.C76_any",
    "Verif.Props.C76_sign",
    "Verif.Props.C76_zerox",
    "Verif.Props.C76_bundled"
   ],
   "note": "C76_spectrum: exact coefficients of a scaled sequence and how far they are from response times original. C76_curves: linear and cubic (Catmull-Rom) interpolation qualify, with explicit aliasing bounds; C76_smooth and C76_any: so do all smooth curves that keep the highest frequency. C76_sign, C76_zerox: either backend, whenever computed coefficients are within d of those of the ideal image. C76_bundled: the bundled transform with the bound of C62. Borders continued by mirroring; curve as wide as for enlarging."
  },
  {
   "property": "C77",
   "status": "proved",
   "theorems": [
    "Verif.Props.C77_program",
    "Verif.Props.C77_complete",
    "Verif.Props.C77_torn"
   ],
   "note": "For dictionaries whose lines all end with a newline (see C50 for what happens otherwise) and sizes that fit into size_t. The figures themselves are the tallies of C50, which overcount when candidates are not in ascending order. C77_torn covers dictionaries that break off or whose last entry has a list without a digit."
  },
  {
   "property": "C78",
   "status": "partial",
   "theorems": [
    "Verif.Props.C78_exact",
    "Verif.Props.C78_sign",
    "Verif.Props.C78_methods",
    "Verif.Props.C78_zerox_partial",
    "Verif.Props.C78_bundled",
    "Verif.Props.C78_zerox_fails"
   ],
   "note": "False for the zero crossing method, whose middle coefficient changes sign where its neighbours do not: C78_zerox_fails gives a row of four samples whose width 2 is reported with confidence 1 and whose mirror image yields nothing, with the bundled transform. C78_zerox_partial covers the direction that is not mirrored. Proved for sign with computed spectra (any transform, and the bundled one from samples), and for mag and orig for spectra equal up to the changed signs."
  },
  {
   "property": "C79",
   "status": "proved",
   "theorems": [
    "Verif.Props.C79_lists",
    "Verif.Props.C79_enlarged",
    "Verif.Props.C79_original",
    "Verif.Props.C79_best"
   ],
   "note": "Assumes as elsewhere that the platform rounds correctly and its tables are accurate to u (Asked lists all assumptions). Clear coefficients are needed: below the error bound signs may come out either way."
  },
  {
   "property": "C80",
   "status": "partial",
   "theorems": [
    "Verif.Props.C80_words",
    "Verif.Props.C80_every",
    "Verif.Props.C80_documented",
    "Verif.Props.C80_refused_partial",
    "Verif.Props.C80_fails_garbage",
    "Verif.Props.C80_fails_wrap",
    "Verif.Props.C80_fails_reader"
   ],
   "note": "False in its last part: text behind a number is ignored (C80_fails_garbage), negative and too large counts become others (C80_fails_wrap), only the first -R is checked (C80_fails_reader), and -v takes any text (C47_verbosity_fails). C80_refused_partial: arguments without a number, numbers out of bounds, unknown letters and names, missing arguments and images are refused. getopt is modelled after POSIX and glibc; strtod is assumed to round decimal numbers correctly."
  },
  {
   "property": "C81",
   "status": "partial",
   "theorems": [
    "Verif.Props.C81_any",
    "Verif.Props.C81_y4m_partial",
    "Verif.Props.C81_pfm_partial",
    "Verif.Props.C81_enlarged",
    "Verif.Props.C81_original",
    "Verif.Props.C81_best",
    "Verif.Props.C81_fails"
   ],
   "note": "Partial because skipping is wrong for some Y4M layouts (C38_fails; C81_fails for the command) and in PFM files with both kinds of images (C36_fails); everything else is covered by C81_y4m_partial and C81_pfm_partial, and C81_any holds for every reader that yields its frames. Assumptions on platform and memory are listed in Job."
  },
  {
   "property": "C82",
   "status": "partial",
   "theorems": [
    "Verif.Props.C82_enlarged",
    "Verif.Props.C82_scaled",
    "Verif.Props.C82_pgm",
    "Verif.Props.C82_y4m_partial",
    "Verif.Props.C82_pfm_partial"
   ],
   "note": "C82_enlarged and C82_scaled say what is printed for pictures that a file holds up to rounding; C82_pgm, C82_y4m_partial and C82_pfm_partial connect files with pictures. Partial only where C81 is (C81_fails): skipping in some Y4M layouts and mixed PFM files."
  },
  {
   "property": "C83",
   "status": "proved",
   "theorems": [
    "Verif.Props.C83_jpeg",
    "Verif.Props.C83_png",
    "Verif.Props.C83_magick",
    "Verif.Props.C83_ffmpeg",
    "Verif.Props.C83_analysis",
    "Verif.Props.C83_resdetect",
    "Verif.Props.C83_file",
    "Verif.Props.C83_enlarged",
    "Verif.Props.C83_scaled",
    "Verif.Props.C83_original",
    "Verif.Props.C83_python",
    "Verif.Props.C83_python_file",
    "Verif.Props.C83_js"
   ],
   "note": "C83_analysis, C83_resdetect, C83_file for the library, C83_python, C83_python_file, C83_js for the bindings, C83_jpeg, C83_png, C83_magick, C83_ffmpeg for the command (PGM, PFM, Y4M are C81 and C82); C83_enlarged, C83_scaled, C83_original for what the lists contain. Files enter as Presents, see Spec/Presents.lean; interlaced PNG are excluded there (C64_interlaced_fails), as are images the decoders complain about."
  },
  {
   "property": "C84",
   "status": "proved",
   "theorems": [
    "Verif.Props.C84_repeatable",
    "Verif.Props.C84_resdetect",
    "Verif.Props.C84_file"
   ],
   "note": "C84_repeatable for histories of an analysis object, C84_resdetect for two heaps, C84_file for files against memory. That a failed scratch allocation changes the scores is C58_reported_fails."
  },
  {
   "property": "C85",
   "status": "partial",
   "theorems": [
    "Verif.Props.C85_frames",
    "Verif.Props.C85_frame",
    "Verif.Props.C85_transposed",
    "Verif.Props.C85_transposed_rows",
    "Verif.Props.C85_array_fails",
    "Verif.Props.C85_pil",
    "Verif.Props.C85_pil_frame_fails",
    "Verif.Props.C85_images_fails",
    "Verif.Props.C85_flip_fails",
    "Verif.Props.C85_pages_fails"
   ],
   "note": "C85_frames, C85_frame, C85_transposed, C85_transposed_rows, C85_pil hold; C85_array_fails, C85_images_fails, C85_pil_frame_fails, C85_flip_fails and C85_pages_fails are the cases where the code does something else. Arrays of other element types are not modelled."
  },
  {
   "property": "C86",
   "status": "proved",
   "theorems": [
    "Verif.Props.C86_create",
    "Verif.Props.C86_history",
    "Verif.Props.C86_returned",
    "Verif.Props.C86_resdetect",
    "Verif.Props.C86_js",
    "Verif.Props.C86_js_analysis",
    "Verif.Props.C86_js_calls",
    "Verif.Props.C86_python",
    "Verif.Props.C86_wasm",
    "Verif.Props.C86_wasm_exact"
   ],
   "note": "C86_create, C86_history, C86_returned, C86_resdetect for the library; C86_js, C86_js_analysis, C86_js_calls, C86_python for the bindings; C86_wasm and C86_wasm_exact carry C69 and C83 over to the default 32 bit build. The functions that read files are not compared between limits; 32 bit builds with a limit up to 200 million satisfy Build (ilp32_build), so everything else applies to them directly."
  },
  {
   "property": "C87",
   "status": "proved",
   "theorems": [
    "Verif.Props.C87_js",
    "Verif.Props.C87_small",
    "Verif.Props.C87_js_results",
    "Verif.Props.C87_js_methods",
    "Verif.Props.C87_js_image",
    "Verif.Props.C87_js_layout",
    "Verif.Props.C87_python",
    "Verif.Props.C87_python_methods",
    "Verif.Props.C87_python_readers"
   ],
   "note": "C87_js, C87_small, C87_js_results for result lists, C87_js_methods, C87_js_image, C87_js_layout for JavaScript; C87_python, C87_python_methods, C87_python_readers for Python. Addresses are taken to be below 2^31 in JavaScript (emscripten's default limit for memory)."
  },
  {
   "property": "C88",
   "status": "partial",
   "theorems": [
    "Verif.Props.C88_programs",
    "Verif.Props.C88_memory_partial",
    "Verif.Props.C88_history",
    "Verif.Props.C88_alone",
    "Verif.Props.C88_plenty",
    "Verif.Props.C88_memory_fails"
   ],
   "note": "C88_programs: definedness and separation; C88_memory_partial: the heap, except where C88_memory_fails (the leak of C20); C88_history: the calls on one analysis form a history in the sense of C01 and later; C88_alone: non-interference, for FFTW or sizes with prime factors up to 5; C88_plenty: for every size and either transform where memory suffices throughout (throughout_plenty: it does if it does at the beginning and nobody else uses it up). A released pointer is taken to be NULL from then on; other activity of the program is any change of memory that leaves the library's blocks allocated."
  },
  {
   "property": "C89",
   "status": "proved",
   "theorems": [
    "Verif.Props.C89_analysis",
    "Verif.Props.C89_resdetect",
    "Verif.Props.C89_file",
    "Verif.Props.C89_command",
    "Verif.Props.C89_order",
    "Verif.Props.C89_sign",
    "Verif.Props.C89_found",
    "Verif.Props.C89_refused",
    "Verif.Props.C89_zerox"
   ],
   "note": "C83 for all methods and filters. sureOf and possibleOf quantify over all coefficients less than the error away from the exact ones; Capable states what the mag and orig methods need of the floating point types. C89_sign: for the sign method without filter the statement is that of C83. C89_order, C89_found, C89_refused and C89_zerox draw consequences. In the mag method, a quotient beyond the range of the types may count, because the exponent frexp stores for an infinity is unspecified."
  },
  {
   "property": "C90",
   "status": "proved",
   "theorems": [
    "Verif.Props.C90_program",
    "Verif.Props.C90_memory",
    "Verif.Props.C90_same",
    "Verif.Props.C90_exact",
    "Verif.Props.C90_text",
    "Verif.Props.C90_seek",
    "Verif.Props.C90_list"
   ],
   "note": "Memory has to suffice when a statement starts (Amply); C90_memory derives this from memory at the start for programs of statements that are known not to change it. Buffers of read_image and image positions after seek_frame are outside of the knowledge that expectations are based on."
  },
  {
   "property": "C91",
   "status": "proved",
   "theorems": [
    "Verif.Props.C91_program",
    "Verif.Props.C91_memory",
    "Verif.Props.C91_same",
    "Verif.Props.C91_finalisers",
    "Verif.Props.C91_exact",
    "Verif.Props.C91_python"
   ],
   "note": "Memory at the start is enough. Number conversions are any functions into the range of size_t. Statements with parameter values that the library rejects are excluded (they leak, C51_js_leaks_fails)."
  },
  {
   "property": "C92",
   "status": "proved",
   "theorems": [
    "Verif.Props.C92_same",
    "Verif.Props.C92_command",
    "Verif.Props.C92_ends",
    "Verif.Props.C92_no_file",
    "Verif.Props.C92_unusable",
    "Verif.Props.C92_stdout",
    "Verif.Props.C92_quiet",
    "Verif.Props.C92_explained",
    "Verif.Props.C92_progress",
    "Verif.Props.C92_readers",
    "Verif.Props.C92_size",
    "Verif.Props.C92_sample",
    "Verif.Props.C92_torn",
    "Verif.Props.C92_empty",
    "Verif.Props.C92_past_end",
    "Verif.Props.C92_unskippable",
    "Verif.Props.C92_unopened"
   ],
   "note": "Model/CliOutput.lean runs the command with the bytes of both streams; C92_same and C92_command say it is otherwise the command of C44-C48. getopt's own messages and the interleaving of the two streams are not modelled."
  },
  {
   "property": "C93",
   "status": "partial",
   "theorems": [
    "Verif.Props.C93_defaults",
    "Verif.Props.C93_partial",
    "Verif.Props.C93_fails",
    "Verif.Props.C93_usage",
    "Verif.Props.C93_synopsis_fails"
   ],
   "note": "False for -p: the line of -f has no line break (src/resdet.c:47), so -p has no line of its own (C93_fails), and the first line does not name -R (C93_synopsis_fails). C93_partial proves it for all other options; C93_usage and C93_defaults hold in full."
  },
  {
   "property": "C94",
   "status": "partial",
   "theorems": [
    "Verif.Props.C94_same",
    "Verif.Props.C94_program",
    "Verif.Props.C94_torn",
    "Verif.Props.C94_printed_partial",
    "Verif.Props.C94_printed_fails"
   ],
   "note": "C94_same, C94_program and C94_torn (dictionaries that break off) hold in full. The last sentence is false: the microseconds are printed in nine digits after the point (src/profile.c:183, 198), so the fraction is a thousand times too small (C94_printed_fails); C94_printed_partial proves what is left, that the seconds are right."
  },
  {
   "property": "C95",
   "status": "partial",
   "theorems": [
    "Verif.Props.C95_usage",
    "Verif.Props.C95_dictionary",
    "Verif.Props.C95_lines",
    "Verif.Props.C95_profile",
    "Verif.Props.C95_stat",
    "Verif.Props.C95_stat_method_fails",
    "Verif.Props.C95_imgread_partial",
    "Verif.Props.C95_imgread_status_fails",
    "Verif.Props.C95_imgread_unopened",
    "Verif.Props.C95_imgread_output_fails"
   ],
   "note": "C95_usage, C95_dictionary, C95_lines, C95_profile and C95_stat hold in full. False: stat uses the default for a method that does not exist (C95_stat_method_fails), imgread exits with 0 whatever happens (C95_imgread_status_fails) and passes a null pointer to fopen if the output is missing (C95_imgread_output_fails); C95_imgread_partial proves its messages."
  },
  {
   "property": "C96",
   "status": "partial",
   "theorems": [
    "Verif.Props.C96_build",
    "Verif.Props.C96_asked",
    "Verif.Props.C96_types",
    "Verif.Props.C96_inter",
    "Verif.Props.C96_precise",
    "Verif.Props.C96_refuses",
    "Verif.Props.C96_unknown_inter_fails",
    "Verif.Props.C96_number_fails",
    "Verif.Props.C96_narrow_partial",
    "Verif.Props.C96_narrow_fails",
    "Verif.Props.C96_default"
   ],
   "note": "C96_build, C96_asked, C96_types, C96_inter, C96_precise, C96_refuses and C96_default hold in full on 64 bit hosts. False: a precision of intermediate results that means nothing is silently replaced by that of the coefficients (C96_unknown_inter_fails); a precision given as a number is understood by the compiler but not by configure (C96_number_fails); on 32 bit hosts a limit that is a multiple of 2^32 is accepted but is 0 as size_t, so that every image is refused (C96_narrow_fails), C96_narrow_partial is about all other builds there."
  },
  {
   "property": "C97",
   "status": "partial",
   "theorems": [
    "Verif.Props.C97_two",
    "Verif.Props.C97_twice",
    "Verif.Props.C97_order_partial",
    "Verif.Props.C97_order_fails"
   ],
   "note": "C97_two and C97_twice hold in full. That the order of three or more frames does not matter at all is false: C97_order_fails has three frames of 3 by 6 samples for which the width 1 is listed in one order and not in another, since the sum of 1/3, 1/2 and 2/3 depends on the order by one bit; C97_order_partial bounds the difference for any number of frames."
  },
  {
   "property": "C98",
   "status": "partial",
   "theorems": [
    "Verif.Props.C98_spectrum",
    "Verif.Props.C98_black",
    "Verif.Props.C98_flat_fails",
    "Verif.Props.C98_flat_spectrum_partial",
    "Verif.Props.C98_flat_partial",
    "Verif.Props.C98_flat_five_fails"
   ],
   "note": "C98_spectrum and C98_black hold in full for black frames; for FFTW it is assumed that zeros are transformed into zeros. For frames of one other colour the property is false: C98_flat_fails has a row of seven equal samples in which the default method finds two smaller widths with full confidence, since it counts the sign bits of coefficients that are rounding errors. C98_flat_partial and C98_flat_spectrum_partial prove it for one colour between 0 and 1, the bundled transform and sides that are products of twos and threes; other sides are the counterexamples (C98_flat_five_fails has a row of five), other samples and FFTW are not covered."
  },
  {
   "property": "C99",
   "status": "proved",
   "theorems": [
    "Verif.Props.C99_dilute",
    "Verif.Props.C99_resdetect"
   ],
   "note": "C99_dilute for histories of calls, C99_resdetect for two calls of resdetect. Frames without content are black ones and, with the bundled transform and sides that are products of twos and threes, those of one colour between 0 and 1. For FFTW it is assumed that zeros are transformed into zeros. The common frames need a spectrum independent of failing allocations (Unaffected, as in C84)."
  },
  {
   "property": "C100",
   "status": "proved",
   "theorems": [
    "Verif.Props.C100_join",
    "Verif.Props.C100_resdetect"
   ],
   "note": "C100_join for histories of calls, C100_resdetect for three calls of resdetect. The bounds are part of the statement: C97_order_fails shows that rounding does decide about sizes at the threshold. The common frames need a spectrum independent of failing allocations (Unaffected, as in C84)."
  }
 ]
}
