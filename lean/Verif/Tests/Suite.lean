import Verif.Tests.Files

/-!
# The project's tests on the model

Each example is named after the functions in /repo/test that it replays.  The pictures the tests take from blue_marble_2012_resized.png and the readers
on top of libraries are left out; what the tests that use that picture expect was checked by evaluating the detection functions outside the kernel
(DESIGN.md).
-/

namespace Verif.Tests

open Verif.Demo (sys w0)

abbrev o : Fl := .fin false 0
abbrev l : Fl := .fin false 1

/-! ## test_image_readers.c -/

/-- What a test does with an open image. -/
inductive Do where
  | read
  | seek (n : ℕ)

/-- What it gets: the result, the error, and the samples after a successful read or the calls of the callback. -/
inductive Got where
  | read (ret : Bool) (e : RDError) (image : List Fl)
  | seek (ret : Bool) (e : RDError) (calls : List ℕ)
deriving DecidableEq

def script : RDImage → Buf Fl → List Do → M (List Got)
  | _, _, [] => pure []
  | i, b, .read :: ds => do
    let (ret, e, b, i) ← readImageFrame (some i) (some b) 0
    let b ← need b
    let rest ← script (← need i) b ds
    return .read ret e (if ret then b.data else []) :: rest
  | i, b, .seek n :: ds => do
    let (ret, e, calls, i) ← seekFrame (some i) n true
    let rest ← script (← need i) b ds
    return .seek ret e calls :: rest

/-- Opening with a reader by its name, then the script: error, width, height and what the script gets. -/
def session (name reader : String) (ds : List Do) : Option (RDError × ℕ × ℕ × List Got) :=
  ((do
    let op ← resdetOpenImageWithReader sys io (some (cs name)) (some (cs reader)) true true true
    match op.image, op.buf with
    | some i, some b => return (op.error, op.width, op.height, ← script i b ds)
    | _, _ => return (op.error, op.width, op.height, [])) : M _) w0 |>.map Prod.fst

/-- test_opens_pgm, test_reads_pgm -/
example : session "checkerboard.pgm" "PGM" [.read, .read] = some (RDEOK, 2, 2, [.read true RDEOK [l, o, o, l], .read false RDEOK []]) := by decide +kernel
/-- test_open_image_errors_on_nonexistent_pgm -/
example : session "doesntexist.pgm" "PGM" [] = some (-2, 0, 0, []) := by decide +kernel
/-- test_seeks_pgm -/
example : session "checkerboard.pgm" "PGM" [.seek 1, .read, .seek 0, .seek 1] =
  some (RDEOK, 2, 2, [.seek true RDEOK [1], .read false RDEOK [], .seek true RDEOK [], .seek false RDEOK []]) := by decide +kernel
/-- test_seeks_to_eof_pgm -/
example : session "checkerboard.pgm" "PGM" [.seek 1, .seek 1] = some (RDEOK, 2, 2, [.seek true RDEOK [1], .seek false RDEOK []]) := by decide +kernel
/-- test_seeking_past_end_of_file_returns_false_pgm -/
example : (session "checkerboard.pgm" "PGM" [.seek 2]).map (fun r => r.2.2.2.map (fun g => match g with | .seek r e _ => (r, e) | .read r e _ => (r, e))) =
  some [(false, RDEOK)] := by decide +kernel
/-- test_reading_past_end_of_file_returns_false_pgm, test_seeks_with_progress_pgm -/
example : session "checkerboard.pgm" "PGM" [.seek 1, .read] = some (RDEOK, 2, 2, [.seek true RDEOK [1], .read false RDEOK []]) := by decide +kernel
/-- test_open_image_errors_on_corrupt_header_pgm -/
example : session "corrupt_header.pgm" "PGM" [] = some (RDEINVAL, 0, 0, []) := by decide +kernel
/-- test_read_frame_errors_on_partial_data_pgm -/
example : session "partial_data.pgm" "PGM" [.read] = some (RDEOK, 2, 2, [.read false RDEINVAL []]) := by decide +kernel
/-- test/files/with_comment.pgm (no test uses it) -/
example : session "with_comment.pgm" "PGM" [.read, .read] = some (RDEOK, 2, 2, [.read true RDEOK [l, o, o, l], .read false RDEOK []]) := by decide +kernel

/-- The tests for readers with two frames, on the name of a file and of a reader. -/
def twoFrames (name reader : String) : Bool :=
  -- test_opens_*, test_reads_*
  decide (session name reader [.read, .read, .read] =
    some (RDEOK, 2, 2, [.read true RDEOK [l, o, o, l], .read true RDEOK [o, l, l, o], .read false RDEOK []])) &&
  -- test_seeks_*
  decide (session name reader [.seek 1, .read, .seek 0, .seek 1] =
    some (RDEOK, 2, 2, [.seek true RDEOK [1], .read true RDEOK [o, l, l, o], .seek true RDEOK [], .seek false RDEOK []])) &&
  -- test_seeks_to_eof_*, test_seeks_with_progress_*
  decide (session name reader [.seek 2, .seek 1] = some (RDEOK, 2, 2, [.seek true RDEOK [1, 2], .seek false RDEOK []])) &&
  -- test_seeking_past_end_of_file_returns_false_*
  decide (session name reader [.seek 3] = some (RDEOK, 2, 2, [.seek false RDEOK [1, 2]])) &&
  -- test_reading_past_end_of_file_returns_false_*
  decide (session name reader [.seek 2, .read] = some (RDEOK, 2, 2, [.seek true RDEOK [1, 2], .read false RDEOK []]))

example : twoFrames "checkerboard.pfm" "PFM" = true := by decide +kernel
example : twoFrames "checkerboard.y4m" "Y4M" = true := by decide +kernel
/-- Files no test uses. -/
example : twoFrames "with_comment.pfm" "PFM" = true := by decide +kernel
example : twoFrames "checkerboard_16_bit.y4m" "Y4M" = true := by decide +kernel

/-- test_open_image_errors_on_nonexistent_pfm and _y4m, test_open_image_errors_on_corrupt_header_pfm and _y4m -/
example : session "doesntexist.pfm" "PFM" [] = some (-2, 0, 0, []) ∧ session "doesntexist.y4m" "Y4M" [] = some (-2, 0, 0, []) ∧
    session "corrupt_header.pfm" "PFM" [] = some (RDEINVAL, 0, 0, []) ∧ session "corrupt_header.y4m" "Y4M" [] = some (RDEINVAL, 0, 0, []) := by and_intros <;> decide +kernel
/-- test_read_frame_errors_on_partial_data_pfm and _y4m -/
example : session "partial_data.pfm" "PFM" [.read] = some (RDEOK, 2, 2, [.read false RDEINVAL []]) ∧
    session "partial_data.y4m" "Y4M" [.read] = some (RDEOK, 2, 2, [.read false RDEINVAL []]) := by and_intros <;> decide +kernel

/-! ## test_image.c -/

/-- Opening by name or type: error, width, height, whether there is an image and whether there is a buffer. -/
def opens (name type : Option String) (hasW hasH wantBuf : Bool) : Option (RDError × ℕ × ℕ × Bool × Bool) :=
  (resdetOpenImage sys io (name.map cs) (type.map cs) hasW hasH wantBuf w0).map
    (fun r => (r.1.error, r.1.width, r.1.height, r.1.image.isSome, r.1.buf.isSome))

/-- test_lists_image_readers -/
example : listImageReaders io = [cs "PGM", cs "PFM", cs "Y4M"] := by decide +kernel
/-- test_opens_image, test_imagebuf_can_be_null -/
example : opens "checkerboard.pfm" none true true true = some (RDEOK, 2, 2, true, true) ∧
    opens "checkerboard.pfm" none true true false = some (RDEOK, 2, 2, true, false) := by and_intros <;> decide +kernel
/-- test_open_image_with_no_filename_returns_error, test_open_image_with_no_width_or_height_returns_error -/
example : opens none none true true false = some (RDEPARAM, 0, 0, false, false) ∧ opens "checkerboard.pfm" none false true false = some (RDEPARAM, 0, 0, false, false) ∧
    opens "checkerboard.pfm" none true false false = some (RDEPARAM, 0, 0, false, false) := by and_intros <;> decide +kernel
/-- test_opens_image_by_extension -/
example : opens "checkerboard" (some "pfm") true true false = some (RDEOK, 2, 2, true, false) := by decide +kernel
/-- test_opens_image_by_mimetype and test_filetype_option_with_mimetype use the type image/x-portable-float-map, for which the code has no extension
(image.c:42 has image/x-portable-floatmap).  They only pass if another reader takes the empty extension: with the built-in readers
the type is not supported. -/
example : opens "checkerboard" (some "image/x-portable-float-map") true true false = some (RDEUNSUPP, 0, 0, false, false) ∧
    opens "checkerboard" (some "image/x-portable-floatmap") true true false = some (RDEOK, 2, 2, true, false) := by and_intros <;> decide +kernel
/-- test_opens_image_by_image_reader, test_open_image_fails_with_wrong_reader -/
example : session "checkerboard" "PFM" [] = some (RDEOK, 2, 2, []) ∧ session "checkerboard" "PGM" [] = some (RDEINVAL, 0, 0, []) := by and_intros <;> decide +kernel
/-- test_open_image_by_reader_requires_an_image_reader -/
example : (resdetOpenImageWithReader sys io (some (cs "checkerboard.pfm")) none true true false w0).map (fun r => (r.1.error, r.1.width, r.1.height, r.1.image.isSome)) =
    some (RDEPARAM, 0, 0, false) := by decide +kernel
/-- test_open_image_errors_on_nonexistent_file -/
example : opens "doesntexist.pfm" none true true false = some (-2, 0, 0, false, false) := by decide +kernel
/-- test_reads_still_frame_image, test_reads_multi_frame_image -/
example : (readImage sys io (some (cs "checkerboard.pgm")) none true true w0).map (fun r => ((r.1.error, r.1.nimages), (r.1.width, r.1.height), r.1.images.map (fun b => b.data.take 4))) =
      some ((RDEOK, 1), (2, 2), some [l, o, o, l]) ∧
    (readImage sys io (some (cs "checkerboard.pfm")) none true true w0).map (fun r => ((r.1.error, r.1.nimages), (r.1.width, r.1.height), r.1.images.map (fun b => b.data.take 8))) =
      some ((RDEOK, 2), (2, 2), some [l, o, o, l, o, l, l, o]) := by and_intros <;> decide +kernel

/-! ## test_utils.c -/

/-- test_resdet_error_str_* and test_all_rderror_values_return_an_error_message -/
example (strerror : ℤ → String) : resdetErrorStr sys.cfg strerror RDENOMEM = some (some "Out of memory") ∧
    resdetErrorStr sys.cfg strerror (-34) = some (some (strerror 34)) ∧ resdetErrorStr sys.cfg strerror (resdetGetMaxError + 1) = some none := ⟨rfl, rfl, rfl⟩
example (strerror : ℤ → String) : ∀ e : ℤ, 0 ≤ e → e ≤ resdetGetMaxError → ∃ t, resdetErrorStr sys.cfg strerror e = some (some t) := by
  intro e h1 h2
  have h2 : e ≤ 7 := h2
  obtain rfl | rfl | rfl | rfl | rfl | rfl | rfl | rfl : e = 0 ∨ e = 1 ∨ e = 2 ∨ e = 3 ∨ e = 4 ∨ e = 5 ∨ e = 6 ∨ e = 7 := by omega
  all_goals exact ⟨_, rfl⟩
/-- test_methods_return_sign_by_default, test_get_method_returns_sign_method, test_returns_default_range -/
example : methods.head?.map Method.name = some "sign" ∧ (resdetGetMethod (some "sign")).map Method.name = some "sign" ∧ sys.cfg.defaultRange ≠ 0 := by decide +kernel
/-- test_sets_range, test_sets_threshold, test_zero_range_returns_error, test_negative_threshold_returns_error, test_setting_*_with_no_params_returns_error -/
example : (setRange (some (defaultParams sys.cfg)) 10).1 = RDEOK ∧ (setThreshold (some (defaultParams sys.cfg)) o).1 = RDEOK ∧
    (setRange (some (defaultParams sys.cfg)) 0).1 = RDEPARAM ∧ (setThreshold (some (defaultParams sys.cfg)) (.fin true (-1))).1 = RDEPARAM ∧
    (setThreshold none o).1 = RDEPARAM ∧ (setRange none 10).1 = RDEPARAM := by and_intros <;> decide +kernel

/-! ## test_analysis.c, test_resdetect.c, test_resdetect_file.c -/

/-- test_creates_analysis (of a smaller image), test_create_analysis_returns_error_on_zero_size_image, test_create_analysis_returns_error_on_oversized_image -/
example : (createAnalysis sys none 76 76 none w0).map (fun r => (r.1.1.isSome, r.1.2)) = some (true, RDEOK) ∧
    (createAnalysis sys none 0 0 none w0).map (fun r => (r.1.1.isSome, r.1.2)) = some (false, RDEINVAL) ∧
    (createAnalysis sys none (2 ^ 64 - 1) (2 ^ 64 - 1) none w0).map (fun r => (r.1.1.isSome, r.1.2)) = some (false, RDETOOBIG) := by
  and_intros <;> decide +kernel

/-- An analysis of a 2 by 2 image, and what a test does with it. -/
def analysed {α : Type} (f : Option Analysis → M α) : Option α :=
  ((do let (a, _) ← createAnalysis sys none 2 2 none; f a) : M α) w0 |>.map Prod.fst

/-- test_analyze_image_with_no_analysis_returns_error, test_analyze_image_with_no_image_returns_error -/
example : (analyzeImage sys none (some [l, o, o, l]) w0).map (fun r => r.1.1) = some RDEPARAM ∧
    analysed (fun a => do return (← analyzeImage sys a none).1) = some RDEPARAM := by and_intros <;> decide +kernel
/-- test_analysis_results_with_no_analysis_returns_error, test_analysis_results_with_no_images_returns_error -/
example : (analysisResults sys none .all w0).map (fun r => (r.1.1, r.1.2.1)) = some (RDEPARAM, Out.nothing) ∧
    analysed (fun a => do let (e, out, _) ← analysisResults sys a .all; return (e, out)) = some (RDENOIMG, Out.nothing) := by and_intros <;> decide +kernel
/-- test_analysis_results_with_resw_but_no_countw_returns_error, test_analysis_results_with_resh_but_no_counth_returns_error -/
example : analysed (fun a => do let (e, out, _) ← analysisResults sys a ⟨true, false, true, true⟩; return (e, out)) = some (RDEPARAM, Out.nothing) ∧
    analysed (fun a => do let (e, out, _) ← analysisResults sys a ⟨true, true, true, false⟩; return (e, out)) = some (RDEPARAM, Out.nothing) := by
  and_intros <;> decide +kernel
/-- test_resdetect_returns_error_and_nullifies_outputs_with_no_dimensions and _with_no_images -/
example : (resdetect sys (some [l, o, o, l]) 1 0 0 .all none none w0).map Prod.fst = some (RDEINVAL, Out.nothing) ∧
    (resdetect sys (some [l, o, o, l]) 0 2 2 .all none none w0).map Prod.fst = some (RDENOIMG, Out.nothing) := by and_intros <;> decide +kernel

/-- The lists, for `resdetect_file`. -/
def detects (name : String) : Option (RDError × Option (List Res) × ℕ × Option (List Res) × ℕ) :=
  (resdetectFile sys io 10 (some (cs name)) none .all none none w0).map (fun r => (r.1.1, r.1.2.rw.map Buf.data, r.1.2.cw, r.1.2.rh.map Buf.data, r.1.2.ch))

/-- test_images_smaller_than_range_return_only_their_input_dimensions, test_resdetect_file_nullifies_outputs_on_error -/
example : detects "checkerboard.pfm" = some (RDEOK, some [⟨2, .fin true (-1)⟩], 1, some [⟨2, .fin true (-1)⟩], 1) ∧
    detects "doesntexist.pfm" = some (-2, none, 0, none, 0) := by and_intros <;> decide +kernel

/-- test_zero_threshold_returns_all_analyzed_resolutions, on rows of 26 and of 24 samples instead of 768: all but twice the range are positions. -/
example : (resdetect sys (some (List.replicate 26 l)) 1 26 1 .all none (some { defaultParams sys.cfg with threshold := o }) w0).map (fun r => (r.1.1, r.1.2.cw, r.1.2.ch)) =
      some (RDEOK, 26 - 24 + 1, 1) ∧
    (resdetect sys (some (List.replicate 24 l)) 1 24 1 .all none (some { defaultParams sys.cfg with threshold := o }) w0).map (fun r => (r.1.1, r.1.2.cw, r.1.2.ch)) =
      some (RDEOK, 1, 1) := by and_intros <;> decide +kernel

/-! ## test_resdet.py -/

/-- What the statements of a program return. -/
def py (ops : List PyOp) : Option (List (Raises PyVal)) := (pyRun sys io 10 {} ops w0).map (fun r => r.1.1)

/-- How many widths `resdetect` of a list finds, or the exception. -/
def pyCount (image : List Fl) (n w h : ℤ) (d : PyDict) : Option (Raises ℕ) :=
  (pyResdetectList sys image n w h none d w0).map (fun r => match r.1 with | .ok r => .ok r.1.length | .raised e => .raised e)

abbrev dict : PyVal := .lists [⟨2, .fin true (-1)⟩] [⟨2, .fin true (-1)⟩]

/-- test_sets_parameters -/
example : pyCount [o, l, o, l] 1 4 1 {} = some (.ok 1) ∧ pyCount [o, l, o, l] 1 4 1 { range := some 1, threshold := some o } = some (.ok 3) ∧
    pyCount [o, l, o, l] 1 4 1 { range := some 1, threshold := some o, compressionFilter := some 2 } = some (.ok 2) := by and_intros <;> decide +kernel
/-- test_raises_invalid_image_error, test_raises_no_images_error, test_raises_with_unrecognized_parameter -/
example : pyCount [l] 1 0 0 {} = some (.raised (some RDEINVAL)) ∧ pyCount [l] 0 1 1 {} = some (.raised (some RDENOIMG)) ∧
    pyCount [l] 1 1 1 { unknown := true } = some (.raised none) := by and_intros <;> decide +kernel
/-- test_raises_file_not_found_error -/
example : py [.resdetectFile (cs "doesntexist.pgm") none none {}, .image (cs "doesntexist.pgm") none none none] = some [.raised (some (-2)), .raised (some (-2))] := by
  decide +kernel
/-- test_resdetect_image_buffer -/
example : py [.buffer, .image (cs "checkerboard.pfm") none none (some 0), .readFrame 0 0, .resdetect 0 none {}] =
    some [.ok .unit, .ok .unit, .ok (.bool true), .ok dict] := by decide +kernel
/-- test_resdetect_list, test_resdetect_array -/
example : (pyResdetectList sys [l, o, o, l] 1 2 2 none {} w0).map (fun r => r.1.to (fun r => .lists r.1 r.2)) = some (.ok dict) := by decide +kernel
/-- test_analyzes_image_buffer, test_analyzes_list -/
example : py [.buffer, .image (cs "checkerboard.pfm") none none (some 0), .readFrame 0 0, .analysis 2 2 none {}, .analyze 0 0, .results 0] =
      some [.ok .unit, .ok .unit, .ok (.bool true), .ok .unit, .ok .unit, .ok dict] ∧
    py [.analysis 2 2 none {}, .analyzeList 0 [l, o, o, l], .results 0] = some [.ok .unit, .ok .unit, .ok dict] := by and_intros <;> decide +kernel
/-- test_opens_image_by_type, test_opens_image_with_reader, test_wrong_image_reader_raises -/
example : py [.image (cs "checkerboard") (some (cs "pfm")) none none, .image (cs "checkerboard") none (some (cs "PFM")) none,
    .image (cs "checkerboard") none (some (cs "PGM")) none] = some [.ok .unit, .ok .unit, .raised (some RDEINVAL)] := by decide +kernel
/-- test_reads_image, test_buffer_elements_are_accessible_by_integer_index -/
example : py (.readImage (cs "checkerboard.pfm") none :: ((List.range 9).map (fun k => .item 0 (.int k)))) =
    some ([.ok .unit] ++ [l, o, o, l, o, l, l, o].map (fun x => .ok (.float x)) ++ [.raised none]) := by decide +kernel
/-- test_buffer_elements_are_accessible_by_tuple_index -/
example : py (.readImage (cs "checkerboard.pfm") none :: ([[1, 1], [1, 1, 0], [2, 0], [0, 2], [2, 0, 0], [0, 0, 0, 0]].map (fun t => .item 0 (.tuple t)))) =
    some [.ok .unit, .ok (.float l), .ok (.float l), .raised none, .raised none, .raised none, .raised none] := by decide +kernel
/-- test_reads_image_from_input_buffer, test_reads_image_with_context_managers, test_read_image_frame_reads_all_frames -/
example : py [.buffer, .image (cs "checkerboard.pfm") none none (some 0), .readFrame 0 0, .item 0 (.int 0), .item 0 (.int 1), .item 0 (.int 2), .item 0 (.int 3),
      .item 0 (.int 4), .readFrame 0 0, .item 0 (.int 0), .item 0 (.int 1), .item 0 (.int 2), .item 0 (.int 3), .readFrame 0 0, .closeImage 0, .closeBuffer 0] =
    some [.ok .unit, .ok .unit, .ok (.bool true), .ok (.float l), .ok (.float o), .ok (.float o), .ok (.float l), .raised none, .ok (.bool true),
      .ok (.float o), .ok (.float l), .ok (.float l), .ok (.float o), .ok (.bool false), .ok .unit, .ok .unit] := by decide +kernel
/-- test_reads_image_from_allocated_buffer -/
example : py [.image (cs "checkerboard.pfm") none none none, .dimensions 2 2 1, .readFrame 0 0, .item 0 (.int 0), .item 0 (.int 1), .item 0 (.int 2), .item 0 (.int 3), .item 0 (.int 4)] =
    some [.ok .unit, .ok .unit, .ok (.bool true), .ok (.float l), .ok (.float o), .ok (.float o), .ok (.float l), .raised none] := by decide +kernel

/-! ## resdet.test.js -/

/-- Conversions of numbers that are small integers. -/
def conv : JsConv := ⟨fun x => match x with | .fin _ v => v.floor.toNat | _ => 0, id, fun x => match x with | .fin _ v => v.floor.toNat | _ => 0⟩

def js (ops : List JsOp) : Option (List (Raises PyVal)) := (jsRun sys conv [] ops w0).map (fun r => r.1.1)

/-- How many widths are found. -/
def jsCount (n w h : Fl) (image : List Fl) (d : JsObject) : Option (Raises ℕ) :=
  (jsResDetect sys conv image n w h none d w0).map (fun r => match r.1 with | .ok r => .ok r.1.length | .raised e => .raised e)

/-- 'detects resolutions', 'analyzes resolutions' -/
example : js [.resDetect [l, o, o, l] l (.fin false 2) (.fin false 2) none {}, .analysis (.fin false 2) (.fin false 2) none {}, .analyze 0 [l, o, o, l], .results 0] =
    some [.ok dict, .ok .unit, .ok .unit, .ok dict] := by decide +kernel
/-- 'sets parameters' -/
example : jsCount l (.fin false 4) l [o, l, o, l] {} = some (.ok 1) ∧
    jsCount l (.fin false 4) l [o, l, o, l] { range := some l, threshold := some o } = some (.ok 3) ∧
    jsCount l (.fin false 4) l [o, l, o, l] { range := some l, threshold := some o, compressionFilter := some (.fin false 4) } = some (.ok 2) := by
  and_intros <;> decide +kernel
/-- 'raises invalid image error', 'raises no images error', 'raises with unrecognized parameter' -/
example : jsCount l o o [l] {} = some (.raised (some RDEINVAL)) ∧ jsCount o l l [l] {} = some (.raised (some RDENOIMG)) ∧
    jsCount l l l [l] { unknown := true } = some (.raised none) := by and_intros <;> decide +kernel

/-! ## test_resdet.sh -/

/-- A `strtod` for the numbers used. -/
def v : CliEnv := ⟨fun t => if t = cs "-1" then some (.fin true (-1)) else if t = cs "101" then some (.fin false 101) else none, fun _ => "No such file or directory"⟩

/-- The names in the texts. -/
def nm : Naming := ⟨cs "resdet", cs "2.2.2", cs "2.2.2"⟩

/-- The exit status and what is printed on standard output and standard error. -/
def sh (words : List String) : Option (ℤ × String × String) :=
  (cliCommandOut sys io v nm 10 true (words.map cs) w0).map (fun r => (r.1.1.code, textOf r.1.2.out, textOf r.1.2.err))

/-- test_no_arguments_prints_usage_and_fails -/
example : (sh []).map (fun r => (r.1, r.2.1, r.2.2.startsWith "Usage: resdet")) = some (1, "", true) := by decide +kernel
/-- test_help_prints_usage_and_succeeds, test_prints_version -/
example : (cliCommandOut sys io v nm 10 true [cs "-h"] w0).map (fun r => (r.1.1.code, r.1.2.out.take 13, r.1.2.err)) = some (0, cs "Usage: resdet", []) := by
  decide +kernel
example : sh ["-V"] = some (0, "resdet version 2.2.2\nlibresdet version 2.2.2\nBuilt with image readers: PGM, PFM, Y4M\n", "") := by decide +kernel
/-- test_verbosity_level_0_fails_if_no_resolutions_detected -/
example : sh ["-v0", "checkerboard.pfm"] = some (1, "", "") := by decide +kernel
/-- test_image_reader_list_option -/
example : sh ["-R", "list"] = some (0, "PGM\nPFM\nY4M\n", "") := by decide +kernel
/-- test_no_resolutions_detected -/
example : sh ["checkerboard.pfm"] = some (0, "given: 2x2\nbest guess: 2x2 (not upsampled)\n", "") := by decide +kernel
/-- test_filetype_option_with_extension, test_image_reader_option -/
example : sh ["-v1", "-t", "pfm", "checkerboard"] = some (0, "2 2\n", "") ∧ sh ["-v1", "-R", "PFM", "checkerboard"] = some (0, "2 2\n", "") ∧
    sh ["-v1", "-R", "PGM", "checkerboard"] = some (1, "", "Invalid image\n") := by and_intros <;> decide +kernel
/-- test_detects_from_stdin_with_filetype_option (with the other picture) -/
example : sh ["-t", "pfm", "-"] = some (0, "given: 2x2\nbest guess: 2x2 (not upsampled)\n", "") := by decide +kernel
/-- test_prints_error_if_image_doesnt_exist, test_corrupt_images_print_invalid_image_error -/
example : sh ["doesntexist.pfm"] = some (1, "", "No such file or directory\n") ∧ sh ["corrupt_header.pfm"] = some (1, "", "Invalid image\n") := by
  and_intros <;> decide +kernel
/-- test_invalid_threshold_prints_error, test_invalid_range_prints_error, test_non_numeric_nframes_prints_error, test_non_numeric_offset_prints_error -/
example : sh ["-x-1", "checkerboard.pfm"] = some (1, "", "Invalid threshold value -1\n") ∧
    sh ["-x101", "checkerboard.pfm"] = some (1, "", "Invalid threshold value 101\n") ∧ sh ["-r0", "checkerboard.pfm"] = some (1, "", "Invalid range value 0\n") ∧
    sh ["-nx", "checkerboard.pfm"] = some (1, "", "Invalid nframes x\n") ∧ sh ["-ox", "checkerboard.pfm"] = some (1, "", "Invalid offset x\n") := by
  and_intros <;> decide +kernel
/-- test_progress_option_prints_frame_numbers, test_nframes_option_limits_analysis, test_offset_option_skips_frames, test_nframes_and_offset_work_together -/
example : sh ["-v1", "-p", "checkerboard.pfm"] = some (0, "2 2\n", "Analyzing frame 1\rAnalyzing frame 2\r\n") ∧
    sh ["-v1", "-n1", "-p", "checkerboard.pfm"] = some (0, "2 2\n", "Analyzing frame 1\r\n") ∧
    sh ["-v1", "-o1", "-p", "checkerboard.pfm"] = some (0, "2 2\n", "Seeking past frame 1\r\nAnalyzing frame 2\r\n") ∧
    sh ["-v1", "-n1", "-o1", "-p", "checkerboard.pfm"] = some (0, "2 2\n", "Seeking past frame 1\r\nAnalyzing frame 2\r\n") := by and_intros <;> decide +kernel
/-- test_offset_at_last_frame_prints_error, test_offset_past_end_of_file_prints_error -/
example : sh ["-o2", "-p", "checkerboard.pfm"] = some (1, "", "Seeking past frame 1\rSeeking past frame 2\r\nNo frames left in input.\n") ∧
    sh ["-v1", "-o3", "-p", "checkerboard.pfm"] =
      some (1, "", "Seeking past frame 1\rSeeking past frame 2\rPassed end of file while seeking to frame 3\n") := by and_intros <;> decide +kernel

end Verif.Tests
