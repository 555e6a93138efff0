# A formal model of libresdet in Lean 4

The subject is the C library and tools in `/repo` (0x09/resdet).  The model and all proofs live in
`lean/Verif`.  Nothing in `/repo` is built or run; it is read as text.

## Layout

| directory | contents |
|---|---|
| `Verif/Base` | C integer types, a model of IEEE arithmetic with rounding, memory and failure monad, byte streams and `scanf` |
| `Verif/Model` | the C code, one Lean definition per C function, each citing file and lines |
| `Verif/Spec` | small, separate definitions used to state properties (what a well-formed file is, what a DFT is, ...) |
| `Verif/Proofs` | helper lemmas |
| `Verif/Props` | the property theorems, each with an `example` that its hypotheses can be met |
| `Verif/Tests` | the project's own tests replayed on the model (tests, not proofs; no property depends on them) |

## Modelling decisions

* **Undefined behaviour is an outcome.**  Every modelled call runs in the monad `M = World -> Option (result x World)`.
  `none` means undefined behaviour or divergence: out-of-bounds access, freeing a dead block, use of a dead block,
  `scanf` overflow, inconsistent comparator passed to `qsort`, a loop counter that cannot reach its limit.  Safety
  theorems say the result is `some`.
* **Memory.**  `World` holds the set of live heap blocks and open files and a schedule (`Nat -> Bool`) that decides
  whether the next allocations succeed.  Theorems quantify over all schedules.  The contents of a buffer are stored by
  value with the block that owns it; freshly allocated contents are an arbitrary parameter.
* **Integers.**  `size_t` arithmetic is arithmetic modulo `SIZE_MAX+1`; `rdint_index`/`rdint_storage` conversions are
  explicit; theorems show no wrap-around occurs.  `SIZE_MAX`, `PIXEL_MAX`, `INT_MAX`, `DEFAULT_RANGE`, precisions,
  the transform backend and the set of compiled readers are parameters (`Cfg`).
* **Floats.**  A value is NaN, an infinity or a rational with a sign bit; each operation is the exact operation
  followed by round-to-nearest-even into the format of the C type (binary32, binary64, x87 extended), with overflow.
  No flushing, no excess precision (FLT_EVAL_METHOD 0), default rounding mode.  `frexp` of non-finite values leaves an
  arbitrary exponent, as C does.
* **Library functions.**  `qsort` is any function that returns a sorted permutation when the comparator is consistent on
  the array, undefined otherwise.  FFTW is an arbitrary length-preserving function.  `sin`/`cos` are arbitrary for the
  float transform and the real functions in the exact-arithmetic theorems.  `strerror` is arbitrary.
* **One program, two arithmetics.**  The KISS FFT model is generic in its scalar arithmetic.  The library runs it with rounded
  arithmetic and arbitrary tables (`flArith`); C55 to C57_spectrum run the same definitions over the reals with the tables
  holding exact sines and cosines (`Spec.exact`).  C57_sign and C57_zerox take the closeness of the computed coefficients as a
  hypothesis (FFTW is arbitrary); C62 proves it for the bundled transform from `Accurate` (tables within `u` of the exact
  sines and cosines, `u` at least the unit roundoff) and `Moderate` (no overflow, `512*(S+4)*u <= 1` with `S` the sum of the
  prime factors of a side).  The constants in the bound are not sharp.  C74 takes an ideal real image, enlarged by an integer
  factor with any symmetric kernel (borders mirrored), as the reference; resamplers themselves are not modelled.  C76 does the same for any scale, with the
  kernel given by a continuous curve; the antisymmetry then holds only up to aliasing, which is bounded.
* **Assumptions on the build** are collected in `Build` (sizes of the integer types, float formats, result arrays that fit),
  `KissFits` and `Precise` (the intermediate type holds every side length exactly), with `Demo.lp64_build` showing an LP64 platform meets them.
  With 32 bits throughout and the default `PIXEL_MAX`, `Build` is false: the byte counts of the result arrays and of the plans of the bundled transform
  are computed without a check, and would wrap for sides above some 214 million.  No image that large fits into memory beside the buffers that come
  before, so no failure is claimed; C86 carries the theorems over to images of up to 200 million pixels instead.
* **Image readers** run on a byte stream that is seekable or a pipe; its end is either the end of the file or a read error
  (`Kind.broken`), which lasts: no later read gets past it.  Their state is threaded explicitly.  External readers
  (libpng, libjpeg, MagickWand, FFmpeg) are arbitrary functions subject to the contract stated with `Io`, which C67 proves for the readers modelled; `Model/Image/{Jpeg,Png,Magick,Ffmpeg}.lean` model resdet's own code
  on top of those libraries, with each library an arbitrary record of functions (`Jpeg`, ...).  Which calls the library answers
  in which order, and what it does with the pointers handed to it, is taken from knowledge of these libraries: it is not in `/repo`.
* **Command line.**  `src/resdet.c` is modelled from the words of the command line (`Model/Getopt.lean`: `getopt` after POSIX, with or without glibc's reordering), with its output reduced to which lists are printed at which
  verbosity (`Shown`).  `Model/CliOutput.lean` runs the same command with the bytes written to standard output and standard error (C92), as two texts:
  their interleaving, and what `getopt` itself prints about unknown options, are left out.  `strtod` and `strerror` are trusted.  The bytes printed for the results are
  in `Model/CliText.lean`; `printf("%f")` is taken to round to nearest, ties to even.  The option number
  parsers `strtol`, `strtoull` and `strtoul` are modelled on the text, including out-of-range results.
* **Tools.**  `imgread`, `stat` and `profile` (`Model/Tools.lean`) are modelled with what they print reduced to the numbers: the bytes imgread
  writes, the medians, means and outlier lists of stat, the counts and totals of profile.  `Model/ToolsOutput.lean` runs them with the bytes they write to
  both streams, from the command line on (C94, C95).  The clock (`getrusage`) is a sequence of readings, one for each call; C94 uses that they do not
  go back.  Opening the dictionary or the output file either works or gives an `errno`; writing to an opened file does not fail.
* **Options of a build.**  `Model/Configure.lean` computes the constants of a build (`Cfg`) from the options of configure for precisions and limits, as the
  preprocessor evaluates them: an option is one identifier or one non-negative constant.  Everything else theorems say is for any `Cfg`.
* **Programs in C.**  `Model/CObjects.lean` runs programs over parameter objects, analyses and lists, one call at a time (no threads).  A
  pointer is NULL once it was released; anything else the program does is a change of memory that leaves the library's blocks allocated.
* **Bindings.**  `Model/PyObjects.lean` runs programs over the objects of the Python binding, without foreign pointers; a
  finaliser is a call of the close function.  `Model/Bindings.lean` models the conversion of parameters (Python and JavaScript), the indexing, allocation and numpy shape
  of Python image buffers, and the functions that run the detection; exceptions are outcomes.  ctypes conversions wrap around; those of
  JavaScript are arbitrary functions.  Blocks of the emscripten heap and of the C heap are those of the model, Python and JavaScript
  objects are not counted.  `Model/Numpy.lean` adds the modules for numpy and PIL: iteration over images, and the
  functions registered for arrays and PIL images, with an array reduced to its shape and the memory from its first element on (`Spec/Views.lean` says what
  elements it has); arrays hold `float`s.  `Model/Layout.lean` models how
  both languages read structures from bytes in memory: emscripten's `getValue` as little-endian reads at addresses rounded down to multiples of 4, ctypes
  as placing declared fields the way C does (each aligned to its size).  `Model/JsObjects.lean` models programs over `Analysis` objects of JavaScript
  with finalisers, which run between statements.  Pickling is not modelled.
* **Not modelled:** libpng, libjpeg, FFmpeg, MagickWand internals, OpenMP and SIMD variants of kissfft, fixed point, locale other than
  "C", Windows text mode, I/O errors other than the read errors above and failure to open, threads.

## Trusted base

Lean's kernel; the three standard axioms `propext`, `Classical.choice`, `Quot.sound` (checked per theorem with
`#print axioms`); the reading of the C code recorded in the definitions' comments; the semantics of C described above.

## Where the code deviates from a stated property

Each of these has a theorem with `fails` in its name (or one that negates the claim) giving a concrete witness, and `_partial` theorems for what
does hold.

| id | what happens |
|---|---|
| C12 | `orig` can run out of memory in the second dimension after the first was scored; a later confidence is then 2 |
| C20 | creation with the KISS backend leaks a block when it fails and width differs from height |
| C23 | `resdet_error_str(INT_MIN)` negates `INT_MIN` |
| C25 | converse only: with more than 2^24 compared pairs a confidence that is not 1 can round to 1 |
| C28 | the compression filter keeps the positions it is documented to remove, measured from the first examined position |
| C30 | a non-ASCII byte in an extension or type reaches `tolower` as a negative `int` where `char` is signed |
| C32 | `pgm.c` ignores a mismatch of the `P5` magic |
| C33 | samples above the declared maximum: PGM maxval 0 gives NaN, infinity or 2; 10 bit Y4M can exceed 64 |
| C36 | PFM: a seek by 0 right after opening loses the first image; mixed gray/colour sequences are skipped by a wrong size |
| C38, C39, C40, C81 | Y4M `411` uses the 420 size formula and `444alpha` the 444 one: wrong frames, seeks past the end, pipe and file differ |
| C37 | samples of two bytes in a Y4M stream are read in the order of the host, so wrongly on big endian ones |
| C45 | a file whose frames exactly fit the limit is refused, as room for one more is required |
| C46 | numbers that do not fit make `scanf` undefined; bytes above 127 are passed to `isdigit` |
| C47 | `-v` with text that is not a number behaves as `-v 0` instead of being refused; numbers that do not fit `int` wrap around: on LP64 a very large one is like `-v -1` and a very small one like `-v 0` |
| C50 | profile compares lists as if in ascending order, but candidates are in order of confidence; a dictionary without a final newline loses its last digit |
| C51 | Python ignores what the setters return and converts without checks, and drops all parameters when memory runs out; JavaScript looks at the last setter's result only and leaks the object when it throws |
| C52 | negative components are not refused by `__getitem__`; `with_dimensions` leaves room for one image only |
| C61 | numpy arrays are shaped (width, height) although rows come one after the other; `(width, height, nimages)` interleaves the images of a sequence |
| C85 | `resdetect` takes the first dimension of an array for the width, numpy and PIL have the rows first: answers for pictures that are not square are wrong, as are those for frames read as PIL images (`fromarray` exchanges width and height); strides are ignored, so reversed arrays are read past their end; later pages of a PIL image that are smaller are read past their end |
| C69 | JavaScript: when `_malloc` for the samples or outputs fails the parameters are not freed |
| C70 | neither binding compares the length of an array with the size: short arrays are read past their end |
| C60 | stat takes the quartiles of its descending lists for those of ascending ones, so both fences lie below the first candidate and every candidate is listed as an extreme outlier; the weights of its interpolation are swapped; the sentinel enters its median |
| C59 | headers are scanned with `fscanf`: signs, negative numbers (which count down from `SIZE_MAX`), missing white space and any scale or layout suffix are accepted |
| C63 | libjpeg's error manager is a compound literal in `libjpeg_reader_open`: any message or error while reading uses it after its lifetime; the `jmp_buf` literal in the `if` may be gone even while opening |
| C64 | `png_set_interlace_handling` is called after `png_read_update_info`: libpng goes through all seven passes with the row count of the first, so no interlaced PNG of more than one row is ever delivered; up to 8 rows the reader averages samples that were never stored |
| C65 | the result of `MagickExportImagePixels` is ignored: a frame that cannot be exported counts as read and the buffer keeps its contents; a failure to open that leaves `errno` at 0 is reported as "too big" |
| C66 | `(averr = f(...) < 0)` loses the error of `avcodec_parameters_to_context`; the stream index, still in `averr`, replaces RDENOMEM by RDEINVAL; any demuxer error is treated as the end of the video |
| C58 | a failed allocation in a generic butterfly is not reported and changes the scores |
| C73 | `ImageBuffer.close` leaves the freed pointer in `_as_parameter_`, which `read_image_frame` uses; opening a second file with a buffer leaks the first one's samples; sizes of buffers are never checked, and `with_dimensions` allocates one image only |
| C78 | zerox compares neighbours with the coefficient between them, whose sign alone changes when a picture is mirrored: width 2 of the row 0 1 0 0 is certain, of 0 0 1 0 absent |
| C94 | profile prints microseconds in nine digits after the point, as if they were nanoseconds: every fraction of a second is a thousand times too small (profile.c:183, 198) |
| C95 | stat uses the default method, without a word, if the one named does not exist (stat.c:41); imgread exits with 0 whatever happens (imgread.c:10-49); with one argument it passes a null pointer to `fopen` (imgread.c:26) |
| C96 | `--inter-precision` with a name that is not F, D or L does not reach the `#error` for it (precision.h:53): the name counts as 0, which is less than any precision, so that of the coefficients is used (precision.h:34-38), `float` by default and not `double`; a precision of coefficients given as a number is understood by the compiler, but configure goes by the text (configure:215-218), so KISS FFT calculates in `float` or the wrong FFTW is linked; with a 32 bit `size_t` a `PIXEL_MAX` that is a multiple of 2^32 passes the check that it is positive, but is 0 once converted (resdet_internal.h:36, 48), and every image is too big |
| C97 | Scores are added up frame by frame in the intermediate type (lib/methods.c:22, 37, 77, 94), and that sum depends on the order in the last bit. A mean that is exactly the threshold in one order can be below it in another, and the size is then not reported (lib/analysis.c:138, 149). `C97_order_fails` has three frames that show it; `C97_order_partial` bounds the difference. |
| C98 | The default method counts sign bits without regard to magnitude (lib/methods.c:21), so coefficients that ought to be zero count with the sign of their rounding errors. In a picture of one colour that is all coefficients but the first. `C98_flat_fails` has a row of seven equal samples in which the widths 3 and 4 are found with full confidence, and `C98_flat_five_fails` a row of five samples of the grey level 85 of 255 in which the width 2 is found, so the factor five, which 1920 has, is not safe either; `C98_black` shows that a black picture is safe, and `C98_flat_partial` that a picture of one colour is safe with the bundled transform if its sides are products of twos and threes. |
| C80 | `-r 5x` is `-r 5`; `-n -1` is `-n 18446744073709551615`; after one valid `-R` any other text is accepted, so `-R pgm -R list` lists nothing and fails |

Seen but not stated as a property: imgread writes a little endian header on big endian hosts as well; the outputs of `resdet_read_image` keep their previous values after an error.

The help text of `resdet -h` has no line break after `-f`, so `-p` has no line of its own (C93_fails), and its first line leaves out `-R` (C93_synopsis_fails) (src/resdet.c:32, 47-48).
The tests ask for the MIME type `image/x-portable-float-map` (test_image.c:137, test_resdet.sh:97) while image.c:42 has
`image/x-portable-floatmap`: with the built-in readers alone it is unsupported, as `Verif/Tests/Suite.lean` shows.

The exact statement is the theorem in `Verif/Props`; `MANIFEST.json` names it.

## Validation of the model

Besides the theorems, which say what follows from the model, two things were done to see that the model is that of the code.
`Verif/Tests/Suite.lean` replays the project's tests (C, Python, JavaScript and shell) that do not need an external library or the large picture, with the bytes of the
test files; the model gives what the tests expect, except for the MIME type above.  For the large picture (blue marble, 768x768) the spectrum was computed outside
Lean and the model's methods were run on it: the numbers of widths and heights are those the tests assert for every method
(sign 2 and 2, with range 8: 3 and 5, mag 2 and 2, orig 2 and 2, zerox 3 and 3).
The confidence of zerox at width 512 is 0.987, where the test's assertion says 0.99 to 1 but, through its compatibility macro, checks nothing.

## Plan per property

| id | model parts | proof idea |
|---|---|---|
| C01 | results generation, qsort | candidate list has confidences in [0,1], sentinel -1 is the strict minimum, sorted permutation |
| C02 | methods in rounded arithmetic | counters <= n*range; monotone rounding; accumulated sum <= number of frames by induction |
| C03 | bounds set-up | window arithmetic; list of kept indices is a sublist of a range |
| C04 | results generation | permutation of a filtered range |
| C05 | results generation | 0 <= score/n so the filter keeps everything |
| C06 | results generation | filter monotone in the threshold |
| C07 | setup_dimension | guard <-> 2*range < length; NULL array gives the sentinel only |
| C08, C09 | results call | equality of outputs; the call returns the analysis unchanged; induction on histories |
| C10, C11 | histories | invariant: nimages = number of successful analyse calls; rejected call changes only the coefficient scratch buffer, which never influences later calls |
| C12 | orig method | false: witness schedule; partial: all other methods; failure in the first pass; heights in any case, by a relation (equal up to coefficients and width scores) kept by every call |
| C13 | all methods | fold over frames; exact-arithmetic commutation |
| C14 | resdetect | program equality by induction on the frame count |
| C15 | resdetect_file | same, with the reader abstract; a file of any format enters as the frames it presents (`Spec/Presents.lean`), which the theorems about the readers establish |
| C16, C17, C20 | create/destroy/results | symbolic execution over all schedules, heap accounting; C20 false for the KISS plan (witness), partial otherwise |
| C18 | size check macro | iterated floor division |
| C19 | methods | index arithmetic; every read in bounds, hence no `none` |
| C21 | setters | invariant over setter sequences |
| C22, C23 | util | case analysis on the tables |
| C24 | create_analysis | range overwritten |
| C25, C26 | sign, orig | counting argument; orig score is 0 or the sign score |
| C27 | methods | reindexing rows/columns |
| C28 | compression filter | the code keeps the multiples and drops the rest: the claim is false (witness); partial: never adds, 0 disables, and the exact rule |
| C29, C30 | open_image | symbolic execution, abstract readers |
| C31-C45 | readers | byte-level parser model; round trips by induction over frames; negations with concrete files where the code deviates |
| C46 | scanf | false (overflow is undefined); partial: defined unless the file contains such a number (for the scale of a PFM by the grammar of `Spec/FloatText.lean`) |
| C47, C48 | `src/resdet.c` | invariant over the option list; the main loop in lock step with an image session; C48_readers for files of every format, through `Presents` |
| C49-C53 | other tools and bindings | decision logic only |
| C54-C56 | kissfft | one definition generic in the scalar arithmetic; exact-arithmetic instance proved equal to the DFT / DCT-II |
| C57 | detection | DCT of a replicated signal, then C25 |
| C62 | kissfft, rounded | forward error analysis generic in the arithmetic: each butterfly, then induction over the stages, real FFT, rows, columns |
| C58 | kissfft in the memory monad | false (witness schedule); partial: no prime factor above 5, or all allocations succeed |
| C71 | readers on a stream that ends in a read error | the stream's kind is invariant; "no more frames" implies `feof`; bulk reading and detection succeed only if the frames end that way |
| C72 | the bytes printed by `resdet` | `%zu` and `%f` are inverted by the spec's reading of numerals; separators do not occur inside fields; rounding error of `float` times 100 |
| C68-C70 | functions of the bindings | library call as a black box with C16/C20, heap accounting with `Act` around it |
| C73 | programs over Python objects | invariant `Holds` over the statements: the heap is exactly what the objects keep; closing preserves it and empties them |
| C74 | interpolated images | cosine transform of a mirrored, filtered sequence = response times transform of the original; antisymmetry about `N`; Fejér sums for linear interpolation |
| C76 | scaled images | Poisson summation splits the transform of the scaled sequence into responses at indistinguishable frequencies; the tail telescopes; responses of the linear and cubic curves in closed form |
| C77 | profile | Induction over the dictionary; errors of detection reduced to size, number of frames and finiteness of samples (`frameError`), which also makes C14, C15 and C48 exact |
| C78 | Same picture | Spectra of reoriented pictures (`same_dct2`): the changed signs agree at equal distances from a position, so pairs keep their agreement; computed coefficients have the exact signs where these exceed the error. The zero crossing method also looks at the middle, where the sign differs: `C78_zerox_fails` |
| C79 | End to end | Composition: C31 (file to samples), C48 (samples to analysis), C62 and `dct2_apart` (coefficients against those of the exact gray values), C75 (lists from evidence), C72 (text). At clear sizes computed and exact signs agree, so the evidence is the exact share |
| C80 | Words of the command line | `getopt` against a grammar of command lines, both directions; documented arguments determine `Wants` of C47; exchanging one option for another with the same reading does not change `main` (`main_exchange`) |
| C81 | Several frames, end to end | Composition as for C79, starting from C80 (words) and C48 with `-o` and `-n`; the score is a rounded sum over frames, within `(k + 2) 2^-p` of the mean share (`meanList`); pairs that may flip count as possible, not as sure (`sureShare`, `possibleShare`); equal shares are kept exactly, because rounding is monotone |
| C82 | Scaled pictures, end to end | C74 and C76 give opposite pairs of the ideal picture; those above `totalError` (with the rounding to samples in it) are sure pairs in the sense of C81, so the sure share is at least `t`, and the list entry and its text follow |
| C83 | Library, bindings and other formats, end to end | The part of C81 between the frames and the lists (`history_means`), joined with C14 and C15 for the library, C68, C69 and C51 for the bindings, and C48_readers, C63-C66 for the command on JPEG, PNG and what MagickWand and FFmpeg decode; recognition as in C82 |
| C84 | Repetition | The bundled transform is a function of the samples when its scratch allocations succeed or there are none (`kiss_repeats`); scores and lists are functions of the spectra |
| C85 | numpy and PIL | Heap accounting with `Act` for the loops; both sides end in the same `PyOutcome`, which is unique by C84; lists for different sizes differ in their last entry by C01 |
| C86 | Size limit | Both systems run in lock step: every check of the limit passes in both (`Twin`), all other uses of the configuration are the same; the invariant of the history proofs is taken from the supported one |
| C87 | Structures in memory | Numbers read back from their bytes by induction over the digits; layouts by cases over the platforms; bounds of indices from C03 and the check of the sides |
| C88 | Programs in C | Invariant `Tracks`: the heap is what the objects consist of, each block once; every step of the program either leaves an analysis alone or is a call in its history, so `Reach` follows it; C84 for the comparison; `Lasting` (no function uses up memory) for sizes with large prime factors |
| C89 | All methods, exact arithmetic | `evidence_bracket`: the score of a position lies between the share of pairs that satisfy the method's condition for all coefficients within the error (with a margin for rounding in the method) and the share that does for some; error analysis of quotient and `frexp` (mag) and of sums and means (orig); `bracketList` turns brackets on scores into a bracket on the list |
| C90 | Python programs' results | what is known of each object (`Known`) is updated by statements and their outcomes; invariant `Agrees` between knowledge and the model's objects, on top of `Holds`; an image's knowledge is the rest of the frames (`Feed`), an analysis' is its history of accepted frames; results by C84 (unique) and C89 (exact). Frames read by `read_image` and positions after `seek_frame` are not part of the knowledge |
| C91 | JavaScript programs | what the analyses are follows from the statements alone (`jsLearn`), so no outcome has to be assumed; invariant: `Own False` with exactly the blocks of the analyses that were not collected, so that memory at the start is enough; a program without its finalisers relates to the one with them by `Fewer`. Parameter values the library rejects are excluded (C51_js_leaks_fails); use of a collected object has no value in the model, since no program can reach it |
| C92 | Output of the command | `cliMainOut` erases to `cliMain`; inversion of every way a run ends (`Told`) with the text that goes with it; the number of frames in the progress lines by `Outlook` (what the opened image will yield), as in C48. "Out of memory" and the complaint about `-t` with `-R` have no line break |
| C93 | Help text | the text is a list of parts, all fixed but the default range and the program's name; a line of its own is a part that follows a part ending in a line break. Partial: no such line for `-p` |
| C94 | Output of profile | `profileMainOut` erases to `profileMain`; induction over the dictionary and the methods as for C77, with whatever follows the dictionary as a parameter, with the text (`EntriesTold`, `TornTold`) and the number of clock readings; borrowing and carrying keep the number of microseconds |
| C95 | Command lines of the tools | lines of a file by induction over its bytes; the numbers printed by stat are read back with `Gives` of C72; what the tools do once the arguments are there is C60, C77 and C94 |
| C96 | Options of configure | case analysis on the tokens the options are set to; `Build` and `Precise`, which the theorems about the library assume, follow for every 64 bit host |
| C97 | Order of frames | equal frames have equal spectra (C84), so reordered calls have permuted spectra; the sum of two scores and the mean of twice the same score are exact up to one commutative rounding; for more frames the error bound of C13 carried through the rounding to `float` and the comparison with the threshold |
| C98 | Pictures without content | an abstract arithmetic with positive zeros, zeros of either sign and table entries; each butterfly, the unpacking of the real transform and the final rotation keep the positive zeros; on such a spectrum each method's count is zero. The tables are assumed finite, the cosines of `shift` not negative (`Tables`, satisfied by `Demo.env7`); FFTW is assumed to turn zeros into zeros. For one colour: the radices 2, 3 and 4 keep equal numbers equal, so that each stage turns a list with one number at the multiples of `m` into a list with one number at its start; `FlatExact` states the tables' first entries and the room for the sums |
| C99 | Frames without content only dilute | the spectra of the common frames are equal (C84) and the scores of the others zero (C98); a sum that holds a representable value is not changed by adding a zero, by induction over the frames; the two means are then roundings of T/k and T/k', and rounding is monotone. The number of frames must not exceed 2^p of the mean's format, and frames of one colour are covered where C98 covers them |
| C100 | Sequences joined | equal frames have equal spectra (C84); each of the three means is within (k+1)/2^p of the exact mean of the scores of its frames (C13), and the exact mean of the whole is the weighted mean of the exact means of the parts; then the rounding to float and of the threshold |
| C75 | scores | a `float` times the number of frames is exact in the intermediate type, so rounding is monotone about it at every step |
| C63-C67 | readers on top of libraries | the library is a record of functions; heap accounting with `Act`, play-back with `Player`; automatic objects are blocks that end with their scope |
| C59 | header scanners | inversion of each scanner: the consumed bytes form a text of a grammar in `Spec/Lax.lean`, the scale of a PFM one of `Spec/FloatText.lean`, and the converse |
