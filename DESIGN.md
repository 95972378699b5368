# Formal model of TinyDIP in Lean 4: design

`properties.jsonl` lists the properties. This file says, for each of them, what is
modelled and how it is proved, and states the trusted base. `MANIFEST.json` maps each
property to the exact theorem names. `seeded/LOG.jsonl` records the seeded-bug runs.

## 1. Shape of the model

* `lean/Verif/Model/*.lean` – the model, function by function. Every definition carries a
  comment with the file and lines in `/repo` it models and the simplifications made.
* `lean/Verif/Spec/*.lean` – small independent specifications (what a pixel grid is, what a
  convolution is, what a bell curve is, ...), used only in theorem statements.
* `lean/Verif/Lemmas/*.lean` – helper lemmas.
* `lean/Verif/Props/*.lean` – the property theorems, with a non-vacuity `example` beside them.

Theorem names start with the property they belong to (`C23_...`). The suffix `_partial` marks a
theorem that proves part of a property; the section comment above it keeps the full statement and says
what is missing. The suffix `_violation` marks a theorem that proves that the code as written does
*not* have the property (or has it only with an extra hypothesis), with a witness.

### Outcomes

Every modelled C++ function that can fail returns `Res α`:
`ok a` (normal return), `throw e` (C++ exception of class `e`), or `ub` (undefined
behaviour: out-of-range `operator[]`, integer division by zero, dereferencing an end
iterator, signed overflow, conversion of a negative or too large floating value to an integer type,
...). Undefined behaviour is never assumed away: a theorem that says a call returns `ok` also says that
it does not run into undefined behaviour.

### Numbers

* `std::size_t` is a natural number with explicit reduction modulo 2^64 wherever the code
  can wrap (index computation, products of sizes, `a - b` with `a < b`).
* `int` and `long` are integers; leaving the range is `ub`.
* `uint8_t` is `BitVec 8` (or a natural number with explicit reduction modulo 256).
* `float`/`double` are modelled by exact arithmetic in an arbitrary ordered field (or ℝ, ℂ
  where analysis is needed), and NaN and infinities are *not* modelled, except where a
  comment says so (for instance a division whose value at zero is a parameter). Where rounding decides
  the outcome, because a result is truncated or compared, the functions are modelled a second time with
  every operation rounded to the nearest number of 53 (24, 64) significant bits, ties to even
  (`Model/Rounding`, `Model/Rounded`, `Model/DctRounded`, properties C151-C157 and C175; `Model/FilterFlt`, C183-C184; `Model/IntElem`, C185; `Model/Flt`, the
  generic models at the element type of rounded numbers, C179-C182). There the exponent is unbounded, so overflow
  and subnormal numbers are left out, operations are not contracted to fused ones, and library functions
  are parameters with a stated accuracy. The samplers, the rotation and the perspective warp are modelled a
  third time with overflow, infinities and NaN (`Model/Special`, properties C158-C160; `Model/SpecialPix`, C187-C189): results of magnitude
  `2 ^ 1024` and more become infinite, comparisons with NaN are false, and converting NaN or an infinity to an
  integer is `ub`. Negative zero and subnormal numbers are left out there as well.
* Bytes read from and written to files are lists of numbers below 256; text is a list of characters.

### Loops, parallelism

* A loop is a monadic left fold over the list of iterations, in program order, so an
  exception or undefined behaviour in one iteration ends it.
* A parallel loop (execution policy or OpenMP) is the same fold over an arbitrary
  permutation of the iterations; a theorem quantifies over all permutations. Each iteration
  is one atomic step; the modelled bodies perform a single write to the shared output.
  Torn writes and `std::vector<bool>` bit races are not modelled. Where the body of a parallel
  loop is not one write (the `emplace_back` of the extremum search), the race is modelled and
  is the subject of a violation theorem (C85).
* That a loop whose body locks a mutex is such a fold is proved from a model of threads, steps and the
  mutex (C178) for the policies `seq` and `par`; for `unseq` and `par_unseq` it is false, because a thread can
  lock the mutex it owns. That loops whose iterations write separate cells are such folds is proved in C150.
* `std::reduce` is a reduction over any permutation and any bracketing the standard allows (C32, C72).

### Memory

Allocation always succeeds (`std::bad_alloc`/`length_error` are not modelled).

## 2. Properties: what is modelled and how it is proved

The last column is the status in `MANIFEST.json` with its note: what is missing from a partial
property and which theorems show that the code violates it.

| id | property | modelled | proof | status |
|----|----|----|----|----|
| C01 | A constructed image stores exactly one element per pixel | all `Image` constructors, with products mod 2^64 | case analysis | partial: Proved whenever the product of the sizes fits in size_t (and rows are rectangular, data non-empty). Missing: without that hypothesis the code violates the property; the violation theorems give concrete witnesses (wrapped product, ragged rows, default image). |
| C02 | Coordinates address pixels one-to-one | `calculateIndex` mod 2^64 | induction on dimensions: mixed-radix bijection | proved |
| C03 | Writing one pixel changes that pixel and nothing else | `at`/`set` writes | C02 plus list update lemmas | proved |
| C04 | Checked accessors never touch memory outside the image | `checkBoundary`, `checkBoundaryTuple`, `at`, `set` | decision logic, induction on dimensions | partial: Checked 2-D/tuple/linear access proved outright. at() with a vector of indices does not check for a short vector (violation theorem with witness); proved when it has the right length. |
| C05 | Linear indices and coordinates convert back and forth | `linear_index_to_indices` | induction on dimensions | proved |
| C06 | Iterating over pixels visits each pixel once with its own coordinates | `pixel_iterator` as a step machine | invariant `index = y*w + x`, termination by remaining elements | partial: Proved for every image whose pixel iteration is used with non-zero first dimension; C06_zero_width_violation is the witness for the empty-width case. |
| C07 | In-place arithmetic works pixel by pixel and rejects mismatched shapes | `operator+=` etc. | list algebra | proved |
| C08 | Adding several images gives the pixelwise sum and is safe for any shapes | `add` as right fold of `pixelwise_transform` over the unchecked `transform` loop | induction on the argument list | partial: Sum and independence of the argument order proved for images of one shape (at least one pixel). Missing: rejection of differing shapes; the code accepts them or reads out of range (witnesses). |
| C09 | Pixelwise transform keeps the shape and maps every pixel | `pixelwise_transform` | list algebra | partial: Proved for every image with at least one pixel; the composition law for every image. Missing: images without pixels, on which the constructor throws (witness). |
| C10 | Subtracting RGB images saturates | RGB `subtract` | decision logic on clamped values | proved |
| C11 | Constant padding surrounds the image with the chosen value | padding functions with their loops | pixel-function specification `Shows` | proved |
| C12 | Mirror padding reflects the image at its borders | padding functions with their loops | pixel-function specification `Shows` | proved |
| C13 | Replicate padding repeats the nearest border pixel | padding functions with their loops | pixel-function specification `Shows` | proved |
| C14 | Cropping by corner coordinates returns exactly that rectangle or an error | `subimage2` | pixel-function specification | partial: Contained rectangles and corners strictly beyond the size are proved. Missing: a corner equal to width/height must throw; the code accepts it (two violation witnesses). |
| C15 | Centred sub-image extraction | N-dimensional `subimage` and the 2-D wrapper, with wrap-around | pixel-function specification | proved |
| C16 | Splitting into blocks and concatenating them restores the image | `split`, `concat` | C14, C18 and block arithmetic | proved |
| C17 | Overlapping split returns each block extended by its surroundings | `split_overlap` | pixel-function specification of the windows returned | partial: The window actually returned is proved for every overlap and block size; it equals the specified block exactly without overlap and for odd block sizes. Missing: the specified window; violated otherwise (witnesses). |
| C18 | Concatenation places images side by side without loss | `concat_horizontal`, `concat_vertical` | induction on the list | proved |
| C19 | Pasting overlays the target and keeps the rest of the background | `paste2D` | pixel-function specification | partial: Proved whenever location + target size does not overflow size_t. Missing: overflowing locations, where the code writes out of bounds (witness). |
| C20 | Transpose, flips and quarter turns obey the symmetry laws of the square | `transpose`, flips, 90 degree rotation | pixel-function specification, group laws as corollaries | proved |
| C21 | rotate by multiples of a quarter turn rotates the image | `rotate` | decision logic on the reduced angle | partial: Exact reals, pi exact. The code reduces the angle modulo pi/2 before turning, so only full turns are right (violation with witness; C21_size_kept for every angle). |
| C22 | Windowed filtering applies the window function to the unmodified neighbourhood | `windowed_filter` in-place loop, any order | loop invariant on the set of pixels already written | partial: Proved whenever no pixel is filtered before another one whose filter looks at it; in particular centre-only filters in every order and causal filters sequentially. Missing: the general case, which is false because windows are read from the image being written (witness). |
| C23 | Full 2-D convolution is mathematical convolution | `conv2` loops | sums over `Finset.range` | proved: Elements from any commutative ring. |
| C24 | N-dimensional convolution with same size returns the centre of the convolution | `convolution` | induction on dimensions, sums over index boxes | partial: Full N-dimensional convolution proved. The is_size_same branch returns the input image for every kernel (proved as violation, with witness). |
| C25 | Inverse Fourier transform undoes the forward transform | `dft2`, `idft2` over ℂ | orthogonality of roots of unity | proved: Exact real and complex arithmetic; x*m and y*n must fit in size_t. |
| C26 | Inverse cosine transform undoes the forward transform | `dct3_one_plane`, `idct3_one_plane` over ℝ | orthogonality of cosines | proved: Exact real arithmetic. idct3's call of idct3_one_plane cannot be instantiated as written; the intended call is modelled. |
| C27 | Execution-policy versions of per-pixel operations equal the sequential ones for every schedule | loop bodies in any order | the fold depends only on the set of iterations | proved: Proved per operation: each theorem quantifies over every order of the per-pixel bodies. |
| C28 | Matrix product and transpose obey matrix algebra | `Matrix`, `multiply`, `transpose`, `invert` | finite sums, `ring`/`field_simp` | proved |
| C29 | 3x3 inversion returns the true inverse or reports failure | `Matrix`, `multiply`, `transpose`, `invert` | finite sums, `ring`/`field_simp` | proved |
| C30 | The linear solver solves the system it is given | `solve_linear_system` loops | elimination invariant by induction | proved |
| C31 | Symmetry test decides symmetry and is policy independent | `is_symmetry` loops | decision logic | proved |
| C32 | A histogram counts every pixel exactly once | `Histogram` dense and sparse, `build_histogram`, `cumulative` and `normalize` | induction on the pixel list | proved: Proved for both storage forms, every allowed std::reduce order, with size_t arithmetic mod 2^64; normalised values in exact arithmetic. |
| C33 | Histogram with bins puts each pixel in the bin of its value | `Histogram` dense and sparse, `build_histogram`, `cumulative` and `normalize` | induction on the pixel list | partial: Proved when the range starts at zero. Missing: other ranges, for which the code divides the value instead of its distance from the lowest value (violations: access past the last bin, negative index, wrong bin). |
| C34 | 24-bit BMP write then read returns the same image | `bmp_write`, `bmp_file_read`, raw formats at byte level | layout arithmetic, loop invariants on the byte buffers | partial: Proved for all images with less than 2^31 bytes of pixel data; larger images are written but reading them back is undefined behaviour (violation theorem). |
| C35 | BMP rows are aligned and header fields are little-endian | `bmp_write`, `bmp_file_read`, raw formats at byte level | layout arithmetic, loop invariants on the byte buffers | proved |
| C36 | 8-bit BMP decoding maps each index through the palette | `bmp_write`, `bmp_file_read`, raw formats at byte level | layout arithmetic, loop invariants on the byte buffers | partial: Bottom-up and top-down files with less than 2^31 decoded bytes and indices inside the stored palette; a complete 32768 x 32768 file is undefined behaviour (violation theorem). |
| C37 | Raw double and HSV image files round-trip | `bmp_write`, `bmp_file_read`, raw formats at byte level | layout arithmetic, loop invariants on the byte buffers | partial: Bit patterns restored for any malloc content below 2^31 stored samples; larger images violate it (int overflow in the reader). |
| C38 | Plain PPM write then read returns the same image | text formats at character level | parser/printer induction | proved: P3 restores the image for all sizes with 3*w*h < 2^64 (bytes of the pixel buffer); P2 and P1 variants too; any order of the pixel loop. |
| C39 | PNM tokens ignore white space and comments | text formats at character level | parser/printer induction | partial: All separators after white space; the violation shows a comment that follows a token directly. |
| C40 | CSV write then read restores the numbers | text formats at character level | parser/printer induction | partial: Integer element types restored; doubles: whole values of six digits (default format) and fixed precision with error bound; violations for seven digits, bytes (written as characters) and empty images. Decimal text of non-whole doubles in the default format is not modelled. |
| C41 | Bilinear sampling is exact on the grid and never overshoots | interpolation over ℝ | convexity, polynomial identities | proved: Exact real arithmetic; element conversions axiomatised by Conv.Lawful, proved for real and 8-bit pixels. C152 treats the 8-bit case with rounding. |
| C42 | The bicubic kernel interpolates and reproduces constants | interpolation over ℝ | convexity, polynomial identities | proved: Exact real arithmetic; also proves that linear functions are reproduced by the kernel. |
| C43 | Resizing reads only existing pixels and has the requested size | interpolation over ℝ | convexity, polynomial identities | proved: Exact real arithmetic for the ratios; C151 treats rounding to double, where the position can be one too small. |
| C44 | The fisheye root finder brackets the inverse radius | bisection loop | interval-halving invariant | proved: Exact real arithmetic; D0 > 0. |
| C45 | draw_point draws the disc clipped to the image | drawing loops | loop invariants, monotone error terms | partial: Proved in every order of the iterations when the point is at least the radius away from the left and top borders. Missing: points closer than that, for which the code draws nothing (violation proved for every image). |
| C46 | draw_line terminates, connects the endpoints and touches only the line | drawing loops | loop invariants, monotone error terms | proved: Coordinates below 2^61 (beyond that the code's long arithmetic overflows). |
| C47 | draw_circle is symmetric and only writes the draw value | drawing loops | loop invariants, monotone error terms | proved: Radius below 2^31, image sides at most 2^63 (beyond that the code's signed arithmetic overflows). |
| C48 | Extremum detection accepts exactly strict extrema | SIFT decisions, refinement and indices | decision logic, matrix identities | proved: Exact arithmetic; images of other sizes are rejected. |
| C49 | Keypoint refinement solves the quadratic model | SIFT decisions, refinement and indices | decision logic, matrix identities | partial: Violation: the diagonal entries of the inverse Hessian are exchanged, so the offset is right exactly when the two second derivatives agree (or the gradient is zero). Exact arithmetic. |
| C50 | Keypoint search is safe for images of every size | SIFT decisions, refinement and indices | decision logic, matrix identities | partial: Partial: every requested octave must exist and there must be at least three levels. Violations: missing octaves are read (100x100 with the default four octaves), fewer than three levels wrap around, refined locations outside the image are converted to size_t. |
| C51 | Raw matching returns nearest neighbours that pass the ratio test, in any schedule | raw and robust matching loops, any schedule | loop invariant: best and second best so far | partial: Proved when all distances are below the largest number; C51_overflow_violation: a larger distance with a ratio above 1 gives the match index size_t(-1). |
| C52 | Robust matches are mutual and one-to-one | raw and robust matching loops, any schedule | loop invariant: best and second best so far | proved: Proved for every distance, ratio and schedule. |
| C53 | Homography equations characterise the projective map | `find_homography` equations, robust estimators with draws as a parameter | linear algebra, induction on the draws | proved: Equations, scaling and the accuracy of the computed null vector (through C79). |
| C54 | The robust estimator returns a candidate of least cost | `find_homography` equations, robust estimators with draws as a parameter | linear algebra, induction on the draws | proved: Any solver, scoring function and sequence of draws; RANSAC and MSAC costs and the refinement. |
| C55 | Perspective warp gives the same image with and without an execution policy | warp and blend, canvas creation | pixel-function specification, decision logic | partial: warp_perspective with a policy uses the inverse of the given homography: C55_warp_violation; proved: it equals the plain warp of the inverse, and the same homography when it is its own inverse. Stitched images agree when the canvas is not moved; C55_stitch_violation otherwise. |
| C56 | Blending stays between the two inputs | warp and blend, canvas creation | pixel-function specification, decision logic | partial: Proved for canvases moved by less than one pixel; C56_offset_violation: undefined conversion when moved by one pixel or more; C56_dark_violation: pixels of image 2 with all samples at most 5 are dropped. Exact arithmetic for the weights; C152 treats rounding. |
| C57 | Distances are metrics | reductions | list algebra | partial: Exact arithmetic over any ordered ring. manhattan proved outright for images with pixels; squared Euclidean distance proved in exact arithmetic. Missing: 8-bit elements, whose accumulator wraps (witness). |
| C58 | count and replace are consistent | reductions | list algebra | proved |
| C59 | min, max and sum summarise all pixels | reductions | list algebra | proved |
| C60 | Workspace variables behave like a map keyed by sanitised names | `Workspace` | refinement to a map, induction over histories | proved |
| C61 | Renaming a variable moves its value | `Workspace` | refinement to a map, induction over histories | partial: Proved for renames to a different name and for missing names. Missing: renaming a variable to its own name must keep it; the code deletes it (violation witness). |
| C62 | Pipelines connect each stage's output to the next stage's input | pipeline parser, wiring and execution | induction over tokens and stages | partial: Proved: any line typed with spaces and '\|' parses to its stages (C62_parse); the wired command list is the chain of the stages, with the typed arguments kept in order, for schemas as registered; the result goes to the final variable. Missing: a policy word before the positional arguments, and schemas whose position exceeds the typed arguments (zeros); the code injects at the raw position (two violation witnesses). |
| C63 | The pipeline optimiser terminates | pipeline optimiser | decreasing measure; simulation between original and optimised runs | proved: Every pipeline: the number of optimiser passes is bounded by twice the length, proved with a decreasing measure. |
| C64 | The pipeline optimiser does not change what the user's variables hold | pipeline optimiser | decreasing measure; simulation between original and optimised runs | partial: Proved for chains of copy, dct2, idct2 and multiply stages on double images over exact reals with an exact recogniser for the factor 1: every optimised pipeline leaves the user variables the same. Missing: other pixel types, textual factors that round to one, and chains ending in a file argument, which the rewriting changes (three violation witnesses). |
| C65 | A failing pipeline stage does not feed old data to the next stage | pipeline parser, wiring and execution | induction over tokens and stages | partial: Proved for lines whose pipe variables are not left over from an earlier line. Missing: stale pipe variables feed the next line (violation witness). |
| C66 | transform_container applies the command to each element and leaves no temporaries | `transform_container` | loop invariant on the session state, any schedule | partial: Proved when the command succeeds on every element with results of one registered type and no variable has a temporary name, without a policy and under a policy for every schedule; empty containers too. Missing: no temporaries after a failure, untouched user variables with temporary names, and containers of bool; all three violated (witnesses). The elements of a std::vector<bool> are stored as references, which no command recognises: nothing is stored without a policy, and the process ends with one (C66_bool_violation). |
| C67 | Saving and loading a workspace restores it | workspace save/load on an abstract directory | induction on the variables | partial: Proved for names that are distinct, keep a non-empty stem without a slash and whose images have a saveable format, on a directory without other readable files (C67_save_load_partial); stale file of another extension, an unreadable stale file and names without a usable stem each break the round trip (violations). |
| C68 | Commands that are unknown or fail leave the session running | command registry, prompt loop, policy words, container commands | case analysis over outcomes, list algebra | partial: Proved for handlers that return or throw, for execution, registration and whole lines at the prompt. Missing: an exception inside a parallel algorithm terminates the process (violation witness). |
| C69 | Execution-policy words are options, not arguments | command registry, prompt loop, policy words, container commands | case analysis over outcomes, list algebra | proved |
| C70 | Nested-container algorithms agree with their flat counterparts | nested containers as trees | structural induction | partial: recursive_transform, recursive_reduce, predicates, counts, recursive_size and recursive_flatten agree with the flat operation; recursive_size with an unwrap level reads only the first element at each level (violation). |
| C71 | Element commands edit containers like list operations | command registry, prompt loop, policy words, container commands | case analysis over outcomes, list algebra | partial: Proved for all containers except std::vector<bool>, where get_element stores a proxy type (violation witness). |
| C72 | The Gaussian fit never gets worse | Levenberg–Marquardt loop | invariant over iterations, any reduction order | partial: Proved for every non-empty 2-D image below 2^31 pixels, iteration count, tolerance and reduction order (exact real arithmetic); an image without pixels and one of 2^31 or more pixels are undefined behaviour (violations). |
| C73 | Splitting colour planes and merging them restores the image | planes, highlight, predicates | list algebra, pixel-function specification | proved |
| C74 | Highlighting changes only pixels outside or inside the region as documented | planes, highlight, predicates | list algebra, pixel-function specification | proved: Region = frame of the given width around the rectangle. Only frame pixels change for every call with coordinates below 2^30; exact result when the frame lies inside; C74_wrap_draws_nothing records that a frame crossing coordinate 0 is silently not drawn. |
| C75 | all_of, any_of and none_of agree with quantification over pixels | planes, highlight, predicates | list algebra, pixel-function specification | proved |
| C76 | Reverse-mapping rotation turns by quarter turns | reverse-mapping rotation, Gaussian fisheye | pixel-function specification over ℝ | proved: Exact real arithmetic; in double precision the quarter turn is not recognised (C156). |
| C77 | The Gaussian fisheye copies input pixels and is schedule independent | reverse-mapping rotation, Gaussian fisheye | pixel-function specification over ℝ | partial: Proved when all mapped positions are non-negative. Missing: the code converts negative positions to size_t (witness). |
| C78 | The Jacobi eigenvalue solver diagonalises symmetric matrices | Jacobi sweeps, null-vector solver | orthogonal invariance of the Frobenius norm, decreasing off-diagonal norm | proved |
| C79 | The null-vector solver returns a unit vector that nearly minimises ||Ah|| | Jacobi sweeps, null-vector solver | orthogonal invariance of the Frobenius norm, decreasing off-diagonal norm | proved |
| C80 | Otsu's threshold is the best split | Otsu threshold loop, `apply_threshold` | running-maximum invariant; pixel map in any order | proved: Exact arithmetic. |
| C81 | Thresholding is a per-pixel decision in every schedule | Otsu threshold loop, `apply_threshold` | running-maximum invariant; pixel map in any order | proved |
| C82 | The file-size field of a written BMP is the length of the file | BMP header fields, foreign BMP files | layout arithmetic | partial: Holds exactly for widths that are multiples of four; the field leaves out the row padding otherwise (violation theorem). |
| C83 | 24-bit BMP files of other programs are decoded by their header | BMP header fields, foreign BMP files | layout arithmetic | partial: Bottom-up and top-down; a top-down file with exactly one row reads as an empty image (violation theorem); files of 2^31 bytes and more excluded. |
| C84 | A plain PPM file means its samples | PPM reader | parser induction | partial: Maximum values 2^k-1, 1 <= k <= 16. For other maximum values samples wrap around (C84_maximum_violation): 100 of 100 becomes 144, 63 of 100 becomes 252. White of a P1 file is the value 1, not 255. |
| C85 | Extremum search reports exactly the strict extrema | extremum search, orientation histogram, descriptor loops | loop invariants, sums over windows; interleaving model for the race | partial: Partial: iterations one after the other in any order. Violation: two iterations appending at the same time lose a key point (unsynchronised emplace_back in an omp loop). |
| C86 | Orientation histograms sum gradient lengths by direction | extremum search, orientation histogram, descriptor loops | loop invariants, sums over windows; interleaving model for the race | partial: Partial: points at least block away from the left and top borders. Violation: nearer points get an empty histogram (unsigned wrap-around). |
| C87 | Key point descriptors sum gradient lengths by subregion and sector | extremum search, orientation histogram, descriptor loops | loop invariants, sums over windows; interleaving model for the race | partial: Partial: key points at least block away from the left and top borders. Violation: nearer key points get the zero descriptor. |
| C88 | Scaling a homography to other image sizes | `scale_homography` | matrix algebra | proved: Exact arithmetic. |
| C89 | The stitched canvas holds both images | canvas bounds, stitching, sequential stitching | extremal corner argument, pixel-function specification, induction on the images | partial: Proved when image 2 sticks out by less than one pixel at the left and top (otherwise C56_offset_violation: undefined behaviour). |
| C90 | Stitching shows the second image where the homography puts it | canvas bounds, stitching, sequential stitching | extremal corner argument, pixel-function specification, induction on the images | partial: Proved for the version with an execution policy; the other version is wrong when the canvas is moved: C90_registration_violation. |
| C91 | Sequential stitching returns the panorama before the first failing step | canvas bounds, stitching, sequential stitching | extremal corner argument, pixel-function specification, induction on the images | partial: The two phases are arbitrary functions that may fail. A phase that throws stops the loop as stated, but a homography found singular makes the canvas size read out of an empty vector: undefined behaviour instead of the partial panorama (C91_singular_violation). |
| C92 | recursive_transform_reduce equals the flat reduction | recursive algorithms on trees | structural induction | partial: Proved for associative and commutative operations with identity T{}; inner levels restart from T{}, so a product is always zero (violation). |
| C93 | Mean, variance, deviation and root mean square | recursive algorithms on trees | structural induction | partial: Exact arithmetic. Missing: integer result types; the mean of negative integers is wrong (violation). |
| C94 | Filtered copies of nested containers | recursive algorithms on trees | structural induction | proved |
| C95 | Extrema of nested containers | recursive algorithms on trees | structural induction | partial: Proved for containers without empty parts and without a projection; violations for empty parts and projections of recursive_max. recursive_minmax is proved in full. |
| C96 | Operations on two containers | recursive algorithms on trees | structural induction | partial: recursive_transform is proved for equal shapes; a shorter second container is read past its end (violation). two_input_map_reduce is proved in full. |
| C97 | Every leaf is visited exactly once | recursive algorithms on trees | structural induction | partial: Visits are proved; the state accumulated by a function object is lost (violation). |
| C98 | Generated containers | recursive algorithms on trees | structural induction | proved |
| C99 | Each fit step is the damped Gauss-Newton step | fit step, rendering of fit parameters | linear algebra (normal equations), pixel-function specification | proved: Exact real arithmetic. |
| C100 | Rendering Gaussian parameters | fit step, rendering of fit parameters | linear algebra (normal equations), pixel-function specification | partial: The amplitude of the parameters is ignored: what is shown is the normal density times the normalisation factor (partial + violations). |
| C101 | RGB to HSV and back | colour conversions over ℝ with truncation to 8 bits | case analysis on the channel order, trigonometry | partial: The hue is computed by arccos but read back as a hexagon hue, so the middle channel changes (C101_roundtrip_violation); exact when two channels agree (C101_exact). Exact real arithmetic; C153 treats rounding, where the darkest level may become one less. |
| C102 | Brightening an RGB image | colour conversions over ℝ with truncation to 8 bits | case analysis on the channel order, trigonometry | partial: No clipping: undefined once the scaled value reaches 256 (C102_overflow_violation); a hue of exactly 360 gives black (C102_full_turn_violation). |
| C103 | im2double and im2uint8 are inverse | colour conversions over ℝ with truncation to 8 bits | case analysis on the channel order, trigonometry | partial: Images without pixels are refused; channels of 256 and more are undefined. |
| C104 | Grey levels map to distinct vivid colours | colour conversions over ℝ with truncation to 8 bits | case analysis on the channel order, trigonometry | proved |
| C105 | Gaussian filtering keeps the picture in place | `imgaussfilt` by padding and `conv2`, `difference_of_gaussian` | C11–C13 and C23, sums of bell weights | partial: The bell curve is centred on sample (n+1)/2 rather than on the pixel's own sample: C105_displacement_violation shows the one-pixel displacement for every odd window; C105_filter_partial gives the exact average computed. |
| C106 | Gaussian filtering averages | `imgaussfilt` by padding and `conv2`, `difference_of_gaussian` | C11–C13 and C23, sums of bell weights | proved |
| C107 | Difference of Gaussians | `imgaussfilt` by padding and `conv2`, `difference_of_gaussian` | C11–C13 and C23, sums of bell weights | partial: C107_dog_partial inherits the displacement of C105. |
| C108 | Gaussian figures | `gaussianFigure1D/2D/3D` loops | loop invariants with a running sum | proved |
| C109 | Bilateral filtering | `bilateral_filter` | windowed sums, weighted means | partial: The spatial distance is computed on unsigned differences: C109_spatial_violation; the weights right of and below the centre are correct (C109_spatial_partial). Real elements only. |
| C110 | Pixelwise arithmetic between images | image arithmetic overloads, `apply_each` family | list algebra, plane split/merge (C73) | partial: Only subtract checks shapes; the variadic/policy multiplication, the division and the difference do not (C110_multiply_shape_violation, C110_divide_shape_violation). difference on MultiChannel pixels hard-codes three channels (C110_difference_channels_violation). |
| C111 | Plane-by-plane application | image arithmetic overloads, `apply_each` family | list algebra, plane split/merge (C73) | partial: apply_each_single_output with a count above three reads outside the pixel (C111_single_violation). |
| C112 | Bicubic resizing | `copyResizeBicubic`, `lanczos_resample` | pixel-function specification over ℝ; positivity of the alternating Lanczos sums by monotonicity of `sin x / x²`-type terms | partial: On 8-bit elements the fractions are converted to the element type and become zero, so the result is that of nearest-neighbour resizing (C112_u8_violation, C112_rgb_violation); real elements are proved in full. |
| C113 | Lanczos resampling | `copyResizeBicubic`, `lanczos_resample` | pixel-function specification over ℝ; positivity of the alternating Lanczos sums by monotonicity of `sin x / x²`-type terms | partial: A lobe count that is not positive is accepted and yields a picture of zeros (C113_no_lobes_violation). bool and complex elements are not modelled. |
| C114 | Normalising | `normalize` | C59 and list algebra | partial: An image of one value divides zero by zero (C114_constant_violation). |
| C115 | Commands that reduce data to a number | `MetaScalarHandler`, `max`, `min`, `sum` commands on a concrete payload | `std::reduce` as an arbitrary tree over a permutation of the operands; induction on the tree | partial: Empty data: max and min are undefined behaviour (C115_empty_violation). The sum is kept in the element type: 8-bit sums wrap, int overflow is undefined, bool sums saturate at one (C115_sum_violation, C115_sum_overflow_violation, C115_sum_bool_violation). |
| C116 | Commands add and subtract | `add`, `subtract` commands | list zip, modular arithmetic | partial: int overflow is undefined behaviour (C116_overflow_violation); containers are loaded but never added (C116_rejected). MultiChannel and complex images are behind the parameter ext. |
| C117 | Commands count and replace | `count`, `replace`, `parse_arg` | case analysis of number types and conversions, list induction | partial: count on an image never delivers a result because a signed count is cast to an unsigned one (C117_count_image_violation); int and size_t are compared modulo 2^64 (C117_count_signed_violation); replace on images converts the value to the pixel type first (C117_replace_image_violation); with an execution policy replace on containers refuses values of two types (C117_replace_policy_violation). |
| C118 | Commands constructRGB and grid | `construct_rgb`, `grid_generator` | loop invariant over any permutation of the linear indices | partial: A cell size of zero divides by zero (C118_grid_violation). |
| C119 | Distances between images and points | `euclidean_distance` functors, `manhattan_distance`, the command | Minkowski's inequality for lists; `std::reduce` as an arbitrary tree; concrete witnesses for the wrapping types | partial: For unsigned int pixels the difference wraps, so the distance is not symmetric (C119_unsigned_violation); for RGB the 8-bit channel difference wraps (C119_rgb_violation); colour images are compared by pixel count only, so a 2x1 and a 1x2 image are accepted and have distance 0 (C119_colour_size_violation); the command overflows int (C119_command_violation). The range overloads of euclidean_distance call a class name as a function and cannot be instantiated; the MultiChannel overload only compiles for double. |
| C120 | Elementary functions of images | `sin`…`atanh`, `pow`, `abs`, complex pictures, `sort` on images over ℝ, ℂ and fixed-width integers | pixelwise transform lemma; Mathlib's trigonometric identities; permutation and sortedness of `List.mergeSort` | partial: abs of the smallest int is undefined behaviour (C120_abs_int_violation). With integer elements the trigonometric functions do not compile. |
| C121 | Generated images | `zeros`, `ones`, `rand`, `randi`, `generate_image`; sign tests and size tests | state-passing generator folded over the pixels; integer wrap of the pixel count; list quantifiers | partial: The pixel count is computed in int: 65536x65536 counts as zero pixels and 65536x32768 throws length_error (C121_generate_violation); randi with max below 1 is undefined (C121_randi_violation). |
| C122 | Sign and size tests | `zeros`, `ones`, `rand`, `randi`, `generate_image`; sign tests and size tests | state-passing generator folded over the pixels; integer wrap of the pixel count; list quantifiers | partial: is_size_same looks at the first two dimensions only (C122_size_violation). |
| C123 | Volumetric images | `VolumetricImage` (cube.h) and the voxelwise operations (cube_operations.h) | three nested loops flattened to one, injectivity of the row-major position; list zip | partial: The size constructor reads its own uninitialised members (C123_construct_violation); an empty vector of pictures is undefined and larger later pictures are cropped silently (C123_stack_violation); the voxelwise operations compare no sizes (C123_arithmetic_violation). |
| C124 | Pixel and point arithmetic | pixel, channel-array and point operators; component sums, `hypot` | bit-vector and modular algebra, loop invariant over the uninitialised result; arbitrary reduction trees | partial: With a NaN channel the HSV order is not a strict weak order (C124_hsv_nan_violation). |
| C125 | Summing components and multi-argument hypot | pixel, channel-array and point operators; component sums, `hypot` | bit-vector and modular algebra, loop invariant over the uninitialised result; arbitrary reduction trees | partial: For functions that are not associative and commutative the policy versions can give another result (C125_policy_violation). |
| C126 | Butterworth fisheye | `butterworth_fisheye` over ℝ | positions sorted in row order: the last writer of a target decides; bounds on the factor | partial: A cutoff of zero with an order other than zero and a pixel at the centre converts NaN to an index, which is undefined behaviour (C126_zero_violation). |
| C127 | The subimage command | `subimage` command (`MetaTransformHandler` with termination as an outcome) | loop invariant over any permutation of the linear indices; concrete witnesses for the wrapping bounds check | partial: Offset plus size is added in 64 bits without a check: a wrapping sum passes the bounds check, and with an execution policy the out_of_range exception then ends the process; so does any window of a 3-D image (C127_outside_violation). |
| C128 | Inspecting and writing variables | `info`, `print`, `vars`, `write`, `rand` commands | case analysis; duplicate-free keys as an invariant over workspace histories; C121 for the generated image | partial: print reports containers of images (the result of sift_generate_octave) as not found or unsupported (C128_print_violation). |
| C129 | The rand command | `info`, `print`, `vars`, `write`, `rand` commands | case analysis; duplicate-free keys as an invariant over workspace histories; C121 for the generated image | partial: The pixel count is an int: 65536x65536 fails (C129_rand_violation). |
| C130 | From two photographs to a homography | brightness plane, descriptors, distance, homography search, imstitch (StitchFind) | composition of the proved stages; a finder is arbitrary but valid | partial: The key point detector is any function that returns; its own properties are C49, C50 and C86 to C88. When no sample gives a model the search returns the 3x3 zero matrix, which is not empty, so a caller cannot see the failure (C130_no_model_violation). |
| C131 | Drawing matches | canvas and marks of draw_matches | induction on the matches over the exact effects of line and disc drawing | partial: When heights differ the lower image is stretched but its key points are drawn at their old rows (C131_height_violation); match indices are not checked (C131_range_violation); discs near the left and top border are not drawn (C45). |
| C132 | Plugins add commands and change none | `load_plugins`, `register_command`, the command table of `main` (Model/Plugin) | induction on the files; first-registration-wins lemma; permutation invariance for distinct names | partial: When two plugins use the same name, the order in which the file system lists them decides (C132_order_violation); without such a clash the order is irrelevant (C132_order_partial). The roles of the commands are the list in Spec/Plugin.lean (C132_roles). |
| C133 | Library handles | `DynamicLibrary` objects, vector growth, `dlopen`/`dlclose` trace, `shutdown` | invariant: held and closed references together are a permutation of the references handed out; induction on sessions | partial: A module that throws after having registered a command is unloaded while its command stays registered: running it, or just ending the program, uses unloaded code (C133_throw_violation). C133_loaded_partial excludes this. |
| C134 | Commands on the command line | `oneShot` (the end of `main`) against `runLine` | C62, case analysis | partial: The exit status is success for unknown commands and for commands that failed (C134_status_violation); an existing plugin directory that cannot be read ends the program before the command is run (C134_unreadable_violation). The equality with the interactive mode excludes exit, quit, multiply (C64) and words with blanks or bars. |
| C135 | Warping on the graphics processor | the device kernel and its wrapper (Model/Cuda): threads of the grid in any order | each output position is written by exactly one thread; C42 for the interior, nearest-pixel case split near the border | partial: Near the border of the source the device takes a nearest pixel where the host interpolates (C135_border_violation); an output without pixels or an empty matrix makes the device version fail where the host returns an image (C135_empty_violation). Device arithmetic is taken as exact. |
| C136 | Device memory | the list of library calls with failure oracle and the clean-up branch | case analysis along the list of calls | partial: When the release of the output buffer fails, the source buffer is released a second time (C136_double_release_violation). |
| C137 | Stitching on the graphics processor | `create_stitched_image` of the CUDA header | C135 per plane, C55/C56 for the canvas and the blending | partial: C137_schedules_partial needs a canvas moved by less than one pixel (beyond that blending is undefined, C56); agreement with the host needs an unmoved canvas and source positions away from the border, outside, or on a pixel (C135). |
| C138 | Cosine transform commands | `dct2`, `idct2` commands over a real payload (Model/CliTransform) | C18 per plane, plane split and merge, generic lemma on transform commands | proved: Multichannel arrays, complex images, containers and images that are empty or not two-dimensional go through an arbitrary function of the model (`ext`). Arithmetic is exact; in double precision im2uint8 after the round trip may give one level less (C175). |
| C139 | Resizing commands | `bicubic_resize`, `lanczos_resample` commands | C112, C113, parsing of decimal arguments | partial: 8-bit and colour images are not interpolated by bicubic_resize (C139_bicubic_byte_violation); the radius is converted to int without a check, so radius 0 or 2^32 stores a black image (C139_radius_violation); radii from 2^31 and images of 2^31 pixels a side are excluded. |
| C140 | Conversion and plane commands | `im2double`, `im2uint8`, `hsv2rgb`, plane commands | C103, C101, C73 | partial: hsv2rgb keeps the brightest and darkest channels only (C140_hsv_partial, see C101); im2uint8 of a channel of 256 or more is undefined (C140_range_violation). |
| C141 | Variable commands | `copy`, `remove`, `rename`, `read` commands, path stem | C60, C61; induction on the arguments of remove | partial: rename to the same name deletes the variable (C61_violation). A variable in quotation marks is taken for a file name and is found only if it holds an image of the type its ending stands for (C141_quoted_variable). |
| C142 | Commands zeros and ones | `create_image_with_initial_value` with the image constructor | decimal arguments parse to the sizes; constructor lemma | partial: Sizes whose product is 2^64 or more are multiplied modulo 2^64 and give an image with too few pixels (C142_wrap_violation). Memory exhaustion is not modelled. |
| C143 | Rotation by any angle | `rotate_detail_shear_transformation` with any interpolator and with the bicubic default | the loop writes each target pixel; trigonometric identities for the sizes and for turning back | proved: Angles are exact real numbers. |
| C144 | Commands rotate and normalize | `rotate` and `normalize` commands (Model/CliSignal) | C143, C114, plane split and merge, generic lemma on transform commands | partial: A constant image becomes 0/0 in every pixel (C144_normalize_constant_violation). A container of numbers is refused without a policy word, but with one the refusal happens inside a parallel algorithm and ends the process (C144_normalize_numbers_violation). MultiChannel and complex images are not modelled. |
| C145 | Octaves of differences of Gaussians | `generate_octave`, `sift_generate_octave` command | loop invariant on the slots of the vector for any order; C105, C107; telescoping sum | partial: If some window is not smaller than the image, an exception leaves an OpenMP loop and the process ends (C145_small_violation); with the default values this happens for every image of at most 27 pixels in one direction (C145_default_violation). Every colour image is refused with a message (C145_colour_violation): the two overloads of generate_octave are both viable for colour pixels and neither is more constrained, so the test for the operation at main.cpp 740 is false; HSV and RGB_DOUBLE images already fail the test at 760. |
| C146 | Commands dct3, to_complex and gaussian_figure_2d | `dct3`, `to_complex`, `gaussian_figure_2d` commands | C26, C120, C108 | proved: gaussian_figure_2d is the only generator that does not skip policy words: with one in front it fails (C146_gaussian_rejected). |
| C147 | Command get_sift_potential_keypoint | `get_sift_potential_keypoint` command with the octaves, the resampling methods and the search | induction over the octaves, C145, C112, C113 and the search of C50; counting the points with a duplicate-free list | partial: With the default values the command never stores anything for a picture smaller than 224 pixels in one direction (C147_default_violation): a window that is not smaller than the picture of its octave ends the process (C147_small_violation), an octave that does not exist is read out of bounds (C147_missing_violation). Fewer than three levels are undefined behaviour (C147_levels_violation). Iterations that append to the list at the same time are not covered (C85_race_violation). |
| C148 | Command abs | `abs` command with `generic_abs` and the sequential and policy transforms (Model/CliAbs) | induction on the elements; order independence of the writes; plane split and merge | partial: The smallest int has no absolute value: undefined behaviour (C148_overflow_violation). Under par and par_unseq an image or vector of at least two truth values is a data race on the bits of std::vector<bool> (C148_bool_race_violation); other policies are covered by C148_bool. |
| C149 | Gaussian filter in turned directions | `imgaussfilt` with an angle, for real and three-channel real pictures (Model/TurnedFilter) | composition of C143, C105, C143 and C15; a twice turned picture is at least as large as the original | partial: Constant pictures do not stay constant: outside of the turned picture everything counts as zero, so borders are darkened; the one-pixel picture of value 1 becomes 0 when turned by 45 degrees (C149_constant_violation). 8-bit pictures are not covered. |
| C150 | Parallel loops have no data races | the loop bodies as threads of single reads and writes (Model/Parallel) under an interleaving semantics (Spec/Parallel): flips, transpose, rectangle, nearest-neighbour resizing, functions of every pixel, window filter, appending search, packed booleans | invariant over executions: iterations confined to their own written cells and read-only cells behave as if alone; races from the accesses every complete execution contains | partial: Three loops race: windowed_filter reads the windows from the picture it writes, so from windows of two pixels on every complete execution races (C150_window_violation; single-pixel windows are fine, C150_window_single); find_local_extrema appends to one vector from all iterations (C150_append_violation); results of type bool share words of std::vector<bool>, and a result can be lost (C150_bool_violation, C150_lost_violation). |
| C151 | Nearest-neighbour resizing in double precision | resize_nearest_neighbor with each operation followed by rounding to 53 bits (Model/Rounding, Model/Rounded) | bounds on the relative error of two roundings; exact evaluation of the rounded operations for the witness | partial: Safe for every size and exact for whole shrinking factors (C151_resize_partial, C151_whole, C151_same). The position can be one too small where the exact position is a whole number: enlarged 49 times, a row of two pixels shows the first one 50 times (C151_proportion_violation), and shrinking back gives the first pixel twice (C151_enlarge_shrink_violation). C43 is the same property with exact arithmetic. |
| C152 | Weighted means of 8-bit values in double precision | bilinear_interpolate for 8-bit pixels and the blending formula with rounding | error bounds of six roundings against the distance to the next level; exact evaluation for the witnesses | partial: Never above the largest value, possibly one below the smallest (C152_between_partial, C152_blend_partial); exact at pixel positions. Between two pixels of value 29 the result is 28 (C152_constant_violation, C152_blend_violation). C41 and C56 are the properties with exact arithmetic. |
| C153 | RGB to HSV and back in double precision | rgb2hsv and hsv2rgb with rounding, the arc cosine a parameter, the precision of long double a parameter | the argument of the arc cosine is bounded through the exact identity for its square; monotonicity of rounding for the levels | partial: The arc cosine is any function accurate to 2^-50 on its domain; its argument never leaves the domain. The darkest level may become one less (C153_levels_partial); (3,1,1) becomes (3,0,0) (C153_roundtrip_violation). Missing: which channel keeps which level, which C101 proves with exact arithmetic. |
| C154 | Orientation bins in double precision | the two bin computations with rounding | monotonicity of rounding and the exact values of pi and 180/pi as doubles | proved: Rounding to double with unbounded exponents; atan2 returns a value from -pi to pi as rounded to double. |
| C155 | Normalising in double precision | the quotient of normalize with rounding | monotonicity of rounding | proved: Rounding to double with unbounded exponents, so neither overflow of the difference nor subnormal quotients are covered. |
| C156 | Quarter turns in double precision | the comparison with half of pi and the size of the turned picture with rounding | 20 digits of pi from Mathlib determine the 53- and 64-bit values; parity of the 64-bit numerator | partial: No double equals half of the 64-bit long double pi, so the branch for quarter turns is never taken (C156_quarter_violation), and a 2 x 1 picture becomes 2 x 2 (C156_size_violation). With a 53-bit long double the branch is taken (C156_quarter_double). |
| C157 | Bicubic resizing with rounded positions | copyResizeBicubic with positions rounded to p bits | fractional parts of p-bit numbers have p bits; monotonicity of rounding for the bounds | partial: Proved for pictures of at most 2^p columns and rows for precision p; with float a picture of 2^24+3 columns fails even when its size is kept (C157_large_violation). The position can be one too small as in C151. |
| C158 | Sampling at every position a double can hold | the two samplers over numbers, infinities and NaN (Model/Special), for 8-bit and double pixels | every position is outside, NaN or inside; inside, bounds on the magnitude of each operation exclude overflow | partial: Every position without NaN is safe (C158_byte_partial, C158_double_partial); finite positions agree with the rounding model of C152 (C158_finite). A NaN coordinate whose partner is not outside is converted to an index: undefined behaviour (C158_nan_violation). |
| C159 | Rotation by every angle a double can hold | the rotation over numbers, infinities and NaN, fmod, cosine and sine as parameters; the rotate command with the words from_chars accepts | bounds on the size computation; error bounds for the positions; NaN reaches the conversion to size_t | partial: Every finite angle is safe (C159_byte_partial, C159_double_partial, C159_command_partial) and accurate when the library functions are (C159_accuracy). Infinities and NaN are undefined behaviour, and the command accepts the words nan, inf and infinity (C159_nan_violation, C159_command_violation). The command is modelled here for 8-bit pictures. |
| C160 | Perspective warp for every matrix of doubles | the warp over numbers, infinities and NaN | magnitude bounds through products, sums and quotients; a loop with a step that is always undefined is undefined in every order | partial: Safe for entries up to 2^300 (C160_warp_partial). A NaN in the last row (C160_nan_violation) and overflowing finite entries (C160_overflow_violation) are undefined behaviour through C158. Missing: the exact set of matrices between these bounds. |
| C161 | Histogram objects | the variant of vector and map, every member function that compiles (Model/HistClass) | invariant: the object counts a function of the levels; induction over the pixels | partial: Proved for both containers. size() of a map histogram is not the number of levels that occur: reading h[k] of an absent level inserts it (C161_size_violation). A container of the wrong kind, or a vector too short, is refused or undefined as stated in C161_wrong_kind and C161_short_vector. |
| C162 | Loops over a Histogram | iterators as container identity and position, a memory in which containers can be dead | induction over the loop; a dead container is never equal nor readable | partial: begin() and end() return iterators into copies that no longer exist, so every range-for over a Histogram is undefined behaviour (C162_violation, C162_first_violation). C162_live_loop_partial states what the loop would do with iterators into a container that exists. |
| C163 | Otsu threshold of an image | the histogram of the image followed by the threshold search of Model/Hist | the class counts and means of the histogram are those of the pixels | proved: Exact arithmetic, every grouping of the sums. |
| C164 | Normalising a map of counts | the fold over the map with the total modulo the range of the count type | induction over the map | partial: Holds while the total fits the type of the counts (C164_partial); with 8-bit counts 200 and 100 the total wraps to 44 (C164_violation). |
| C165 | Colour forms act channel by channel | the colour overloads as apply_each of the one-channel functions (Model/Wrappers) | the one-channel theorems for each plane, put together | proved: Exact arithmetic. The fisheye statement needs the source positions to be non-negative (C77). |
| C166 | Default comparison of patches | two sub-pictures, the pixelwise square of the difference, the mean with any grouping | the crop theorem and the sum over the pixels; a sum of squares vanishes only if every one does | proved: Exact arithmetic, one-channel real pictures. The strength must not be 0. |
| C167 | Centre pixel | the unchecked read at the centre location | bounds of size/2 | partial: Proved for pictures with at least one pixel; a picture without pixels is read outside of its data (C167_empty_violation). |
| C168 | Rotation in degrees | the degree wrappers over the exact rotations | reduction to the theorems on quarter turns | partial: rotate_degree and rotate drop every quarter turn (C168_degrees_violation, C168_colour_violation, see C21); the shear form is correct (C168_shear_degrees, C168_shear_whole_turns). Exact arithmetic. Missing for rotate with integer radians: where the pixels go (C168_integer_partial). |
| C169 | Differences of ranges | integer types by width and sign, with conversion and overflow | case distinction on the type; the loop in any order | partial: Proved for unsigned elements; for signed ones while the difference fits the type (C169_signed_partial). Otherwise the result is negative for types narrower than int and undefined for the others (C169_signed_violation). |
| C170 | LaTeX output | the loop over the pixels and the decimal numbers | induction over the pixels; splitting the text into lines and each line at its punctuation | proved: The stream is taken to be writable. |
| C171 | Conversions of the element type | the pixelwise conversions | map over the data; decimal strings read back | proved: to_string is stated for int elements; to_double for one channel. |
| C172 | Command estimate_gaussian_params_2d | the command on sessions and words, the fit as in C72 | the call reduces to the library function; C72 theorems | partial: Proved for pictures of double and of bytes with at least one and fewer than 2^31 pixels, under every schedule (exact real arithmetic); a picture without pixels or with 2^31 or more pixels is undefined behaviour (violations). Images of other integer types are a parameter of the model. |
| C173 | Printing an image | the recursion over dimensions with its shared index vector | invariant: the outer indices are kept; the layout is parsed from the left | proved: The text of one element is a parameter (it must be legible for the second part). |
| C174 | Printing a nested container | the recursion over levels | the layout is parsed from the left: a shorter indentation ends a container | proved: The text of one element is a parameter. |
| C175 | The cosine transform in double precision gives an 8-bit picture back | dct3_one_plane and idct3_one_plane with each operation rounded, the cosine a parameter | error bounds for products and for running sums by induction over the three loops, then the exact inversion; the witness is computed step by step from bounds on pi and the square root of 2 | partial: im2uint8 truncates, so an error of any size below a whole level loses one level: the 2 x 1 picture (1, 20) becomes (0, 20) with a correctly rounded cosine (C175_off_by_one_violation). C175_round_trip_partial: never more than one level, and never undefined. |
| C176 | Files can be read and written any number of times | the reading and writing functions with the number of files that can still be opened; sequences of calls | induction over the sequence; the violation by induction over the limit | partial: bmp_file_read never closes the file it opens (image_io.cpp 201). With a limit of N+1 files, reading the same file gives its picture N times, then silently a picture without pixels, then exceptions, and nothing can be written any more (C176_bmp_violation). load_workspace of a directory with that many .bmp files meets this too. double_image::read and hsv_read do not close the file either when a size field is 2^32 - 1. |
| C177 | Progress reports of the windowed and bilateral filters | the two atomic counters, the lock and the task of each pixel as a transition system; the sequential run as a function | invariant over all reachable states; induction on the number of pixels for the sequential run | partial: The report step is total/100, counted from the first pixel, so with 200 or more pixels the last report can fall short of 1: with 250 pixels one after the other it is 249/250 (C177_complete_violation). For a colour picture bilateral_filter runs one filter per channel, at the same time, and each of them reports on its own from 0: the statement is about one of them. Not modelled: wrap-around of the counters, a callback that throws, the OpenMP version (which never calls back). |
| C178 | Function objects that lock a mutex | the calls of a parallel algorithm as programs of lock, unlock and data steps on threads, with an owner of the mutex; the two function objects as such programs | invariant over all reachable states (one holder, alternating locks), a measure that every step lowers by one, refinement of the sequential loop; executions with a double lock for the violations | partial: With unseq and par_unseq the calls on one thread may interleave, and these function objects lock a std::mutex: a thread can lock the mutex it already owns, which is undefined behaviour (C178_transform_violation, C178_matches_violation). The commands pass the words unseq and par_unseq on to these functions; the theorems about commands treat every policy as an order of the calls. A nested container is transformed in one step of the call that holds the lock of its parent. |
| C179 | Sums and means of floating pictures | the models of sum and mean at the element type of numbers with p significant bits, whose operations round | induction over the groupings with the error (1+u)^k-1; exactness because every partial sum is a representable multiple; literal pictures for the violations | partial: The sum, and with it the mean, depends on the grouping (C179_sum_violation: 2^54 and 2^54+4 are both permitted for the pixels 2^54, 1, 1, 1), and the mean of three equal pixels k can be k+1 (C179_mean_violation). Numbers have unbounded exponents: no overflow, no underflow; no fused operations. |
| C180 | Convolution of floating pictures | the model of conv2 at the same element type | a relation between exact sum, sum of absolute values and computed sum carried through the loops; a literal picture for the violation | partial: Swapping picture and kernel changes the order of the additions and with it the result (C180_commutative_violation). Unbounded exponents, no fused operations. |
| C181 | Products of floating matrices | the model of multiply at the same element type | the same relation for the entries; commutativity of rounded products; literal matrices for the violation | partial: Products are not associative (C181_associative_violation). Unbounded exponents, no fused operations. |
| C182 | Distances of floating descriptors | the models of squared_euclidean_distance at the same element type | induction over the groupings; all terms have one sign, so the error is relative; a literal pair of descriptors for the violation | partial: With an execution policy two different results are permitted for the same descriptors (C182_grouping_violation). Zero exactly for equal lists holds as long as no difference underflows: exponents are unbounded in the model. |
| C183 | Gaussian filtering in floating arithmetic | imgaussfilt at the element type of numbers with p significant bits; the computed samples of the bell curve, the grouping of the sums and the order of the pixels are parameters | a calculus of numbers that are near each other by a factor (sums, products, quotients, roundings), carried through the sum of the samples, the division and the two convolutions; a literal picture for the violation | partial: A picture of one colour can become darker by one unit in the last place (C183_constant_violation: the pixel 7 becomes 7-2^-50). As in C105 the bell curve is centred on sample (n+1)/2. The computed bell curve is a parameter; unbounded exponents, no fused operations. A sigma so small that all samples underflow to zero divides zero by zero: outside this model. |
| C184 | Gaussian filtering with an integer sigma | gaussianFigure1D<int>, the sum and the quotients of ints, and imgaussfilt with them | the value of each sample is 0 or 1; at least two samples are 1 when there are two or more; integer quotients are then 0 | partial: Violated: the samples of the bell curve are stored in integers (0 or 1) and divided by their sum as integers, so with more than one sample every weight is 0 and the result is black (C184_integer_sigma, C184_black_violation, for every picture and every integer sigma); difference_of_gaussian with integers is zero everywhere (C184_difference_violation); sigma 0 is an integer division by zero (C184_zero_violation). The model takes SigmaT = int (32 bits) and double pixels. |
| C185 | Sums, means and convolutions of pictures with small integer elements | sum, mean and conv2 at BitVec n, and sum and mean of ints with undefined overflow | the fold modulo 2^n; the ring homomorphism from the integers for conv2; induction on the grouping with the sum of absolute values for int; literal pictures for the violations | partial: Violated: all three compute in the element type. For unsigned elements of n bits the results are exact modulo 2^n (C185_sum, C185_mean, C185_conv2): exact when the exact value fits (C185_mean_partial), but the mean of two pixels 200 is 72 (C185_mean_violation) and the 3x3 box sum of white is 247 (C185_conv2_violation). For int, whether the sum overflows depends on the grouping even if the total is an int (C185_sum_int_violation), and a negative sum is converted to size_t before the division: the mean of two pixels -2 is 9223372036854775806 (C185_mean_int_violation). conv2 of 16-bit elements is not covered (the promoted product may overflow int). |
| C186 | Variables filled by plugin commands at the end of the program | the order in which the objects of main are destroyed, after the session model of C132 and C133 | every reference has been given back exactly once when the libraries are destroyed (C133), so no library is open when the variables are destroyed; a literal session for the violation | partial: Violated: main creates the workspace before the container of libraries, so the variables are destroyed after the libraries are unloaded; the program ends well exactly if no variable left needs the code of a plugin (C186_variables_partial, C186_variables_violation). Which code destroys a value is a parameter: for values of types the program itself stores, the linker option of CMakeLists.txt 460 makes the plugins use the code of the program. |
| C187 | Smallest and largest value with infinities and NaN | imMin and imMax of C59 at the values of a double (numbers, infinities, NaN) | induction over the pixels: the running value is never NaN and bounds the pixels seen | partial: Violated: when the first pixel is NaN both results are NaN, otherwise NaN is passed over (C187_extremes_violation, C187_extremes_partial). The loop of the usual library is modelled; the standard leaves NaN here undefined. minmax is not covered with NaN. |
| C188 | Normalising with special values | normalize with the operations of double | the extremes of C187, the rounding facts of C155, and case analysis on the special values | partial: Violated: NaN in the first pixel, an infinity, a picture of one value and a range of 2^1024 or more give NaN (C188_nan_first_violation, C188_infinity_violation, C188_constant_violation, C188_overflow_violation). Proved for pictures of numbers otherwise (C188_normalize_partial). |
| C189 | Counting, replacing and converting special values | count, replace and im2uint8 with the comparison and the conversion of double | equality of double is equality away from NaN; induction over the schedule and over the pixels | partial: Violated: NaN is never found, so it cannot be counted or replaced (C189_find_violation), and one pixel that is NaN, infinite or outside the bytes makes im2uint8 undefined (C189_bytes_violation). |
| C190 | A variable changes only when a line names it | all command handlers as entries of one registry, lines and sessions of lines | a frame lemma for every handler, an invariant of stage wiring and of the optimiser (every word of a command is a typed word, a pipe variable or empty), and induction over commands and lines | proved: transform_container is C199, load_workspace is left out (C67); batch_add_zeros, help, load_plugins, save_workspace and test do not write to the workspace and are not modelled as commands. Lines that run into undefined behaviour are left out. C190_names says which commands are covered. |
| C191 | A file is written only when a line names it | the handlers, lines and sessions of C190 with the state of the files | the frame lemmas of C190 extended by the file, and the same induction over commands and lines | proved: Same commands as C190 (save_workspace writes files and is not covered). Two words may be paths of one file; what saving at a path can change is a hypothesis. A save that throws is taken to leave the files as they were. |
| C192 | Stopping while a picture is written touches that file only | the writers as sequences of fopen, fwrite and fclose on a map from names to bytes; a step relation in which any number of bytes may reach the file before the next call | the states a program can stop in are characterised exactly by an invariant over the steps (both directions) | partial: Violated as to the ideal: bmp_write, double_image::write, hsv_write, pnm::write and write_to_csv empty the old file first, so a program that stops leaves neither picture (C192_bmp_violation). pnm::write refuses an unknown magic number only after it emptied the file (C192_pnm_magic_violation). The file system is taken to keep the bytes in the order they were written and never to be full. |
| C193 | Reading a BMP file that was cut short | bmp_read on a prefix of the file bmp_write leaves | the byte of every colour value is located in the prefix; what is missing keeps the fill value | partial: Violated: bmp_read does not look at the number of bytes fread returns. A file cut after 26 bytes is read without an error with white for what is missing (C193_bmp_violation); cut earlier the size fields are read from an array that was never filled (C193_bmp_header_violation). |
| C194 | Reading a file of doubles that was cut short | double_image::read and hsv_read on a prefix of the written file | the samples in the prefix are located; an access behind them is undefined behaviour | partial: Violated: double_image::read and hsv_read use samples that were never read when the file is too short (C194_double_violation, C194_hsv_violation). |
| C195 | Reading a PNM file that was cut short | pnm::read on a prefix of the text pnm::write produces | a prefix of a list of words is a shorter list with a prefix of one word; the reader runs out of words, or the last number is a prefix of the written one | partial: Violated for PPM and PGM: a cut inside the last number is not noticed (C195_ppm_violation). PBM files are proved without exception. |
| C196 | Reading a CSV file that was cut short or has uneven rows | read_from_csv on a prefix of the text write_to_csv produces, and on any list of rows | a general theorem about the rows and cells of any text, then the cells of a prefix | partial: Violated as to reporting: read_from_csv never notices a cut (C196_violation). Only integer elements; a cut file of doubles may also throw (a cell that is only a sign). |
| C197 | Giving numbered pictures names with leading zeros | the loop of addLeadingZeros over the file model of C34, with the name that snprintf cuts after 99 characters | induction over the numbers with the round trip of C34; the five-digit names are different | partial: Violated for output paths of more than 94 characters: the name is built in an array of 100 characters and cut, so that with 99 and more all pictures are written to one file (C197_long_violation). The command batch_add_zeros does not call this function: it prints a line and changes nothing. |
| C198 | The program stops while it saves the workspace | the calls on files of save_workspace for a list of variables, in the process model of C192 | the states of a series of writers by induction over the files, from the characterisation of one writer | partial: The bundle is not replaced as a whole: with two or more savable variables the program can stop when the directory holds a mix of old and new variables (C198_mixed_violation). |
| C199 | Sessions with transform_container | transform_container of C66 as an entry of the registry of C190, in a state with a mark for undefined behaviour, inside itself to any depth | a relation between states that every small step keeps is kept by the sequential run and, by induction over the schedule, by the parallel one; induction over the depth; then C190 | partial: Violated for variables whose name is a word of the line without its first character: transform_container takes the first character off its second argument without looking at it, so that transform_container $c xd copy overwrites $d (C199_letter_violation). Variables with the names __tc_in_<n> and __tc_out_<n> are not protected (C66). |
| C200 | Loading a workspace when a file cannot be read | the loop of load_workspace over the formats of C67 with the workspace that is left when a reader throws | induction over the entries of the directory | partial: A failed load is not undone: variables from files listed before the unreadable one are replaced, and which ones they are depends on the order of the directory (C200_violation). |
| C201 | The Fourier transform in the arithmetic of long double | dft2 and idft2 with each operation rounded to the bits of long double; sine and cosine are any functions accurate to 2^-52 | bounds on the rounding of angle, product, sum and norm, induction over the loops, then the inversion theorem of C25 | proved: Proved for the arithmetic without overflow, underflow and fused operations. The bounds hold for each platform's long double (53, 64 or 113 bits). |
| C202 | Two programs write pictures at the same time | two processes with their own stream position on one set of files; opening empties a file the other has open, writing past the end fills with zeros | an invariant over all interleavings (position of each writer and what the file holds up to it); constructed executions for the converse and for the mixture | partial: Different files (BMP, doubles, HSV) and equal content in one file are proved in full. For different pictures of one size in the same BMP file, the file left is read as a picture in which each colour value comes from one of the two; that it is one of the two is false, see C202_same_file_violation: nothing locks the file and nothing is written to a temporary name. Pictures of different sizes in the same file are covered up to the bytes only by lemma same_end. |
| C203 | A BMP file that another program replaces while it is read | bmp_file_read with the content of the file at each of its four openings | case by case from the lemmas for the header and fread; equality with bmp_read when the file does not change | partial: True when the pictures have the same size (the result is the one at the last opening) and when the file does not change. False otherwise: a picture of another size gives a picture with the width of the one and the height of the other (C203_size_violation), and a file that is removed gives a white or an empty picture without an error (C203_removed_violation). A file that changes while it is open once is not modelled. |
| C204 | Bilateral filtering of 8-bit pictures | bilateral_filter on 8-bit elements with sums in double, every operation rounding, and the conversion of the quotient | relative error bounds carried through the window loop; the range by an invariant over the pixels in any order; the violation by computing the roundings | partial: The window result and the upper bound are proved. The lower bound is false: the quotient is cut off, so a window of equal values can lose one, and for some kernels a white picture of any size becomes 254 everywhere (C204_white_violation). Kernels are taken as functions from double to double; std::pow(x, 2.0) is taken as the rounded square. |
| C205 | Difference of Gaussians in floating arithmetic | difference_of_gaussian on elements with p significant bits | from the bound for each filter (C183) and one more rounding; the change of sign because rounding is symmetric | partial: The difference, the change of sign and the zero for equal sigmas are proved. For a picture of one colour only a bound of the size of the roundings of the two filters is proved: the two filters round independently (C183_constant_violation shows one filter that does not keep a constant picture). |
| C206 | The number of pixels and the picture without pixels | count(policy) as the set of values std::reduce may give; the default image | the product modulo 2^64 is the same for every grouping, by induction over the brackets; the empty picture by computation | partial: Proved for pictures with at least one dimension. For the picture without a size count() is 1 and count(policy) is 0, set(0) is not rejected and refers to an element that does not exist, and at with a range of indices reads sizes that do not exist (C206_empty_violation); the other checked accesses are rejected. |
| C207 | Otsu threshold in double precision | otsu_threshold and to_probabilities_vector with every operation rounded | all weights and weighted sums are exact by induction over the levels; the means differ by at least one level, which bounds the relative error of their difference; the violation by evaluating each rounding | partial: Proved for histograms whose entries are whole multiples of a power of two (counts, or pictures with 2^j pixels). For other numbers of pixels the shares are rounded and the claim fails: with 2020 x 2050 pixels of value 254 and one of them 255 instead, the result is 255, above which there is no pixel, instead of 254 (C207_violation): the remaining weight ends at 2^-72 instead of 0 and the quotient of two rounding errors wins. |
| C208 | Shares and bins of a histogram in double precision | normalize, to_probabilities_vector, normalize_histogram, histogram_normalized and histogram_with_bins with every conversion and operation rounded | the error of one rounding and its monotonicity; induction over the pixels of a level for the repeated addition; a quotient of whole numbers below 2^53 does not round up to the next whole number; the violations by evaluating each rounding | partial: histogram_normalized adds the rounded share of one pixel again and again, so its shares drift: exact for 2^k pixels, otherwise within (1 + 2^-53)^(k+1) - 1 of k/N; six equal pixels give 1 - 2^-53 where normalize gives 1 (C208_normalized_violation). Bins are exact while max * bins < 2^53; elements of 64 bits are rounded first: of two bins over uint64_t, 2^63 - 1 is counted in the upper one (C208_bins_violation). |
| C209 | Grey levels as hues in double precision | Grayscale2RGB with every operation rounded | all intermediate results are multiples of 1/128 below 2^53, hence exact; then the exact case C104 | proved |
| C210 | Names of types shown to the user | get_type_name for the three compilers as a function of the text of the signature; find, rfind, find_last_of and substr of string_view | the fixed beginning is searched by evaluation, the type name by induction over its characters | partial: clang and Visual C++: all names. gcc: all names without a semicolon; of other names (types inside function templates) only the part before the first semicolon is shown (C210_gcc_violation). The texts of the three compilers are taken from their documentation (Spec/TypeName). |
| C211 | Brightening an RGB image in double precision | increase_intensity with every operation rounded, on the rounded conversions of C153 | the errors of the saturation, the product and the two roundings of the conversion back are added up; the channels keep their order by monotonicity of rounding | partial: Proved: the brightest channel is the rounded product, cut; the darkest is a number within 2^-42 of the product, cut. It can be one too small even for the factor 1: (3, 1, 1) becomes (3, 0, 0) (C211_one_violation). A product of 256 or more is undefined behaviour instead of being clipped (C211_overflow_violation). |
| C212 | The fisheye root finder in double precision | GaussianFisheyeInverseRootFinder with every operation rounded and any accurate exponential | the midpoint stays between the ends by monotonicity of rounding, the width of the bracket is bounded by induction on the steps, the computed radius is compared with the exact mapping, whose derivative lies between 0 and 1 | partial: Proved: the shown radius is right up to D0 / 2^48 for every radius, and for solutions in the inner half the returned radius is within D0 / 2^46 of the solution (C212_solution_partial). Near the largest radius the mapping is flat: for strength 9 there is a double radius with an error above 9 / 2^28 (C212_solution_violation), although the code announces maximum precision. |
| C213 | Bicubic interpolation of 8-bit pictures in double precision | cubic_kernel and default_bicubic_interpolator on 8-bit pictures with every operation rounded | distances to the samples are exact doubles, the rounding errors of the kernel, the products and the sums are added up, the exact weights sum to one; the violation evaluates every operation at one position | partial: Proved: distance to the exact value and the pixel positions for every picture, and for a picture of one colour that the result is this colour or the next darker one (C213_constant_partial). It is not always this colour: white gives 254 at x = 1 + 525 / 2^21, y = 1 (C213_constant_violation), because the sum is cut and not rounded. |
| C214 | Fitting a Gaussian with infinities and NaN | estimate_gaussian_parameters_2d on values with rounding, infinities and NaN; exp, sqrt and the solver are parameters, every grouping of the reductions is allowed | the clamps are evaluated on all four kinds of values, an invariant of the loop over all schedules, sums of squares that contain an infinity or NaN stay infinite or NaN | partial: Proved for widths and correlation (C214_shape), and that no iteration brings a NaN into amplitude or position (C214_position_partial). Not true of the starting point: a first pixel that is NaN gives the amplitude NaN (C214_first_pixel_violation), and one pixel that is no number switches the iterations off (C214_lost_pixel_violation). std::max_element is modelled as a scan from the first pixel; the standard does not define it for NaN. |
| C215 | Bins of a picture of doubles | histogram_with_bins for double on values with rounding, infinities and NaN, with and without the default range | a relative bound on the rounded quotient gives the bin, the counting loop is the one of C33; the width of the default range is evaluated to infinity; a loop with one undefined step is undefined | partial: Proved for numbers in a range that starts at zero (C215_bins_partial). Not true with the default range: its width overflows to infinity and every pixel is counted in the first bin (C215_default_violation). One infinite or NaN pixel makes the call undefined (C215_special_violation). Ranges that do not start at zero are wrong in exact arithmetic already (C33). |
| C216 | Matching descriptors with infinities and NaN | find_raw_matches, find_keypoint_matches, find_robust_matches and the squared distance on values with rounding, infinities and NaN; the order of the iterations is a parameter | an invariant of the scan over the candidates names the first smallest and the second smallest usable distance; uniqueness of both gives the equivalence; sums of squares with an infinity or NaN stay infinite or NaN | partial: Proved for every ratio between -1 and 1 and for NaN (C216_raw_partial, C216_robust_partial, C216_special_entry). Not true for ratios above one: a descriptor without a usable distance is matched with size_t(-1) (C216_ratio_violation). |
| C217 | The robust estimator with infinities and NaN | find_homography_robust with both scoring functions on values with rounding, infinities and NaN; compute_homography and the random draws are parameters | induction over the draws from the last one with transitivity of the partial order of doubles; a sum with NaN is NaN; sums of zeros and ones are exact up to 2^53 | partial: Proved for the least cost with every scoring function (C217_least), for MSAC and NaN (C217_msac) and for the number of matches with RANSAC (C217_ransac, C217_most). Not true for RANSAC and NaN: a model of NaN counts as one that agrees with no match, and is returned when there is nothing better (C217_nan_violation). |
| C218 | Inverting a 3x3 matrix in double precision | linalg::invert for double with every operation rounded, exponents unbounded | integers below 2^53 are exact, so the determinant and the cofactors of integer matrices are exact; for other matrices a predicate that counts roundings relative to the sum of absolute products; the violation is evaluated on a matrix with entries near 2^52 | partial: Proved for integer matrices with entries up to 65536: the empty matrix exactly for determinant zero, relative error of each entry at most 3/2^53 (C218_integers_partial); for all matrices: the decision when the determinant differs from the limit by more than the rounding error, and every entry as a cofactor over a common denominator (C218_all). Not true in general: a singular matrix of doubles is reported as inverted (C218_singular_violation). Exponents are unbounded: overflow is not modelled here. |
| C219 | Matrix products in double precision | linalg::multiply for double with every product and sum rounded, exponents unbounded | induction over the summands with a predicate that counts roundings; the products of the transpose and the matrix commute; the violation is evaluated on three 1x1 matrices | partial: Error for all sizes (C219_error), exactness for integers (C219_exact), sizes (C219_throws), symmetry (C219_gram). Not associative as the exact product of C28 is (C219_assoc_violation). Exponents are unbounded: overflow is not modelled here. |
| C220 | Scaled homographies in double precision | scale_homography for double with the conversions of sizes, the quotients and both matrix products rounded | products with diagonal matrices leave one rounded product per entry because zeros add exactly; four roundings per entry; powers of two change the exponent only | proved: Error for all sizes up to 2^53 (C220_entries); exact for ratios that are powers of two (C220_exact). Exponents are unbounded; sizes of zero are excluded. |
| C221 | The perspective warp with an execution policy, infinities and NaN | linalg::invert and warp_perspective with an execution policy on values with rounding, infinities and NaN | bounds on magnitudes show that no operation overflows, so the rounded error bounds of C218 apply; NaN passes through every operation of the determinant; the determinant of a large multiple of the identity is infinite and its reciprocal zero | partial: Proved for entries up to 2^80, where the warp never fails and every pixel is the sample at the rounded point of the inverse up to rounding (C221_warp_partial). Not true for NaN, which is inverted to NaN and gives a blank picture (C221_nan_violation), nor for large entries, whose determinant overflows and whose inverse is reported as the zero matrix (C221_overflow_violation). |
| C222 | Refining a homography with infinities and NaN | refine_homography on values with rounding, infinities and NaN; compute_homography is a parameter | the loop is the filter by the independent predicate AgreesD; NaN in one of the nine entries reaches the distance, and no comparison with NaN holds | proved: Proved for every solver, model and threshold (C222_refine, C222_nan, C222_empty). |
| C223 | The homography of point pairs in double precision | compute_homography on values with rounding, infinities and NaN; svd_solve_ah_zero is a parameter | products of coordinates up to 2^26 are integers below 2^53, hence exact; the value of a row is the difference of homogeneous coordinates; one rounding for each quotient; x/x is one; no comparison with NaN holds | proved: Proved for every solver (svd_solve_ah_zero is a parameter): C223_equations, C223_result, C223_few, C223_nine, C223_nan. |
| C224 | Printing a matrix | operator<< for matrices | induction over the two loops; a text up to the first tab is an element and a text up to the first end of line is a row, so that the rows can be read back; two matrices without rows are the counterexample | partial: The layout is proved for every matrix (C224_layout); matrices with at least one row that print the same text are equal (C224_lossless_partial). Without rows nothing is printed and the number of columns is lost (C224_rows_violation). |
| C225 | Stitching with infinities and NaN | create_stitched_image with an execution policy on values with rounding, infinities and NaN | the loop over the corners is a running minimum and maximum, in which NaN never wins and an infinity always does; with NaN every corner is NaN, the canvas is the first picture, the warp is blank by C221 and the first picture is copied pixel by pixel in any order | partial: Proved when no projected corner is infinite: the bounds are the least and greatest coordinates, and corners that are NaN are ignored (C225_bounds_partial). A corner at infinity makes the call undefined (C225_infinity_violation); with a NaN in the homography the result is the first picture alone and no failure is reported (C225_nan_violation). A blended 8-bit value lies between the two, or one below, and is the first picture's in its first column (C225_feather_partial, C225_left); the moved homography has the third row of the inverse and two roundings elsewhere (C225_shift). Missing: the pixels of the warp for finite homographies in double precision. |
| C226 | Sequences of volumes | plus and divides of vectors of volumes, with recursive_transform to the end of the first vector | induction over the first vector, with C123 for the volumes at one position; the elements at one position of all vectors by induction over the pack | partial: Proved for vectors at least as long as the first (C226_plus_partial, C226_divides_partial). The lengths are not compared in a release build: a shorter vector is read past its end (C226_length_violation, C226_plus_length_violation). |
| C227 | The normal distributions are densities | normalDistribution1D for real and complex numbers, normalDistribution2D, gaussianFigure2D with parameters, over the real numbers | the integral of the Gaussian from Mathlib, the product rule for integrals over the plane, and completion of the square with a translation for correlated widths | partial: Proved in exact arithmetic for normalDistribution2D (C227_plane), for the drawn surface (C227_volume) and for complex arguments (C227_complex). False for normalDistribution1D, whose integral is the standard deviation times the square root of 2 pi (C227_line_violation). |
| C228 | The depth of nested containers | recursive_depth and recursive_invocable, as functions of types that are single values, texts or containers | induction over the type and over the level; a type taken for its own target has depth zero, so that no level above zero is allowed | partial: Proved for the depth (C228_depth), the depth with a target type (C228_target) and functions of one argument (C228_one_partial); the type found inside for types without arrays (C228_unwrap_partial). False for arrays (C228_array_violation), for two arguments, where the first type is taken for a target type (C228_two_violation), and for more (C228_three_violation). |
| C229 | The type of the result of a function applied inside containers | recursive_invoke_result_t, recursive_variadic_invoke_result_t and recursive_array_invoke_result_t | induction over the level with a case for every kind of type; the names of the outer containers are kept by every step | partial: Proved for types without arrays and functions of one argument (C229_result_partial) and of several (C229_several_partial), and for nested arrays (C229_array_partial). False for arrays inside other containers and the other way round (C229_mixed_violation). |
| C230 | Recognising whole numbers | is_integer on doubles with infinities and NaN; std::modf is specified | a number minus its rounding towards zero is zero exactly for whole numbers; a double with 53 bits of magnitude 2^53 or more has a non-negative exponent | partial: Proved for finite numbers, NaN and integers (C230_whole_partial), with the consequence for large doubles (C230_large). The infinities pass as whole numbers (C230_infinity_violation). |
| C231 | Selecting one of several arguments | get_from_variadic_template, its version for types, and first_of, with packs as lists | induction over the pack; for types the index zero wraps around and is never reduced to one | partial: Proved for indices from one on (C231_pick_partial). The index zero returns the first argument, although there is no type with this index (C231_zero_violation). |

### Observations on the code that are not stated as a property

* `dft2` negates `input.at(...)`, which wraps for unsigned element types; only real/complex elements are
  modelled.
* `idct3` calls `idct3_one_plane` with arguments that cannot be instantiated as written; the intended call is
  modelled. `Histogram::operator+=`/`-=` are declared `const` and cannot be instantiated; neither can the
  sparse `to_probabilities_vector`.
* `copyResizeBicubic` on `int` elements can overflow; `lanczos_resample` on integer elements truncates after
  normalisation (in floating point a value can fall just below the exact integer; rounding is not modelled for it).
* `apply_each` with a plane count other than three ignores the extra arguments.
* The image versions of `sin`, `cos`, … build a `std::vector` of the function's result type, so they compile only
  where that is the element type (`double`, `std::complex<double>`), not for integer or 8-bit pixels.
* cube.h/cube_operations.h: `operator+=`, `-=`, `subtract` and the two-dimensional conversions use
  `getSizeX`/`getSizeY`, which the class lacks, and cannot be instantiated; neither can the execution-policy
  overloads of `multiplies`/`divides`.
* `imgaussfilt` with mirror extension throws when the window is not smaller than the image.

## 3. Trusted base

* Lean 4.33.0's kernel and the axioms `propext`, `Classical.choice`, `Quot.sound` at most
  (section 5 lists the axioms by theorem, as printed by `#print axioms`). No axiom is added, and no
  theorem depends on `sorryAx` or on compiled code.
* The reading of the C++ source that the comments in `Model/` record.
* Exact arithmetic in place of floating point outside C151-C160 and C175, unbounded memory, sequentially consistent
  atomic loop bodies, as stated above.
* Parameters of the model: element operations (any function), random draws, the file system as a finite
  map, solver and scoring functions where a theorem quantifies over them.

## 4. Which parts of the code are modelled

Line ranges cited by the comments of `Model/`, by file in `/repo`. Lines outside these ranges are not modelled,
apart from declarations, comments and overloads that only forward to a modelled function.

* `image.h`: 73-213, 218-250, 269-314, 319-393, 401-420, 433-547, 553-561, 574-584, 605-620, 632-635, 660-670, 689-708, 726-734, 747-762, 780-781, 796-917
* `image_operations.h`: 25-29, 41-176, 184-188, 196-206, 246-445, 457-497, 525-532, 549-691, 704-733, 737-791, 799-817, 856-948, 952-1258, 1300-1305, 1309-1367, 1372-1481, 1490-1673, 1680-1709, 1717-1967, 1973-1993, 1999-2078, 2089-2230, 2239-2600, 2663-2838, 2842-2852, 2870-2909, 2929-3017, 3030-3057, 3071-3126, 3136-3334, 3346-3483, 3515-3520, 3566-3993, 4017-4056, 4069-4110, 4162-4382, 4388-4463, 4469-4507, 4511-4541, 4545-4611, 4621-4717, 4721-4864, 4871-4887, 4891-5632, 5645-6099, 6104-6144, 6148-6232, 6238-6279, 6285-6593, 6601-6635, 6639-6815, 6874-7029, 7069-7183, 7245-7297, 7317-7383, 7416-7459, 7485-7548, 7554-7572, 7584-7667, 7705-7760, 7766-7789, 7807-7909, 7914-8054, 8066-8166, 8178-8332, 8338-8412
* `basic_functions.h`: 155-165, 178-187, 223-371, 382-394, 466-513, 535-760, 783-890, 900-3347
* `base_types.h`: 30-34, 46-141, 149-167, 184-220
* `linear_algebra.h`: 19-61, 67-391
* `histogram.h`: 24-25, 29-139, 148-166, 175-187, 196-210, 214-227, 240-323, 413-458
* `image_io.h`: 24-610
* `image_io.cpp`: 8-657
* `main.h`: 50-72, 77-118, 124-140, 164-313, 320-336, 367-668, 672-727, 732-783, 791-802, 808-837, 851-869, 876-881, 885-893, 901-1130, 1144-1175, 1184-1195, 1201-1232, 1239-1379, 1393-1476, 1491-2850, 2870-3048, 3062-3830, 3838-4121, 4125-4964
* `main.cpp`: 224-257, 267-427, 444-1063, 1141-1172, 1185-1310, 1391-1702, 1741-1752
* `cube.h`: 30-83, 183-196
* `cube_operations.h`: 147-163, 182-203, 224-246, 257-270, 281-291

Not modelled at all: SIMD/`avx` paths, the
operating system's part of loading plugins, serialization through third-party libraries, timing and progress output, the text
of a single printed element (printing itself is C173 and C174), random number generators (their outputs are parameters), the test
programs, and the hardware kernels under `test/hw`.
The members `+=`, `+`, `-=` and `-` of the class `Histogram` (histogram.h 326-410) are not modelled: they index the histogram's
variant as if it were an array and do not compile when used.
The forms of `pixelwise_multiplies` with an execution policy (image_operations.h 3503-3528) are not modelled: they call a
`pixelwise_transform` with a policy and two images, which does not exist.
A program that stops while it writes (C192): the file system is a map from names to bytes that keeps the bytes of one file in
the order they were written and is never full; a write may reach the file in any number of pieces. A loss of power with a file
system that reorders writes is not modelled. A second program that writes files at the same time is modelled for the
BMP, double and HSV writers (C202), and a program that replaces a BMP file between the four openings of a reader (C203); not a
file that changes while a reader has it open.

## 5. Axioms by theorem

As printed by `#print axioms`, for all 1020 property theorems.

**none** (15): C01_default_violation, C08_shape_violation, C08_smaller_violation, C09_empty_violation, C46_rejects, C47_rejects, C61_missing_partial, C70_size_level_violation, C74_wrap_draws_nothing, C97_for_each_violation, C110_divide_shape_violation, C110_multiply_shape_violation, C122_size_violation, C123_arithmetic_violation, C123_construct_violation

**propext** (51): C01_ofDataRvalue_partial, C01_ofData_partial, C01_overflow_violation, C01_ragged_violation, C04_atRange_violation, C04_setIndex_safe, C06_not_2d, C06_zero_width_violation, C09_compose, C11_add_border, C11_not_2d, C14_column_violation, C14_row_violation, C15_rejects, C17_even_violation, C17_overlap_violation, C19_not_2d, C19_overflow_violation, C22_windowed_filter_violation, C24_same_size_witness_violation, C31_image_throws, C31_nonsquare, C40_failures, C57_squared_u8_violation, C60_typed, C70_flatten, C85_race_violation, C93_integer_mean_violation, C97_for_each_policy, C98_generator, C110_difference_channels_violation, C111_single_violation, C120_abs_int_violation, C123_stack_violation, C125_sequential, C131_range_violation, C161_size_dense, C167_empty_violation, C169_refused, C178_transform_violation, C185_mean_empty, C185_sum_int_violation, C206_count_partial, C206_empty_partial, C206_empty_violation, C224_rows_violation, C228_array_violation, C228_three_violation, C229_array_partial, C229_result_partial, C229_several_partial

**Quot.sound, propext** (65): C01_ofRows_partial, C01_ofSizes_partial, C02_first_coordinate_fastest, C03_unchecked_agrees, C03_writes_commute, C05_linear_index_strides, C07_add_comm, C07_add_sub_restores, C09_identity, C09_multiplies_scalar, C12_reflect_is_reflection, C13_clamp_is_clamp, C20_pixels, C48_extremum, C54_few, C59_sum, C62_typed, C68_execute_partial, C70_reduce, C70_size_level_partial, C70_transform, C70_transform_policy, C73_addChannel, C76_four_turns, C91_returns, C91_sequential_partial, C92_product_violation, C92_transform_reduce_partial, C93_empty, C94_filter, C94_remove_value, C94_replace, C95_empty_violation, C95_minmax, C97_fold_right, C97_for_each_partial, C110_divide_scalar, C111_rejected, C111_single, C121_generate_partial, C121_generate_violation, C123_access, C123_plus_partial, C124_hsv_nan_violation, C124_real, C124_rgb, C125_policy_partial, C128_readonly, C131_same_height, C133_assign, C161_new, C161_short_vector, C161_size_violation, C161_wrong_kind, C167_any_dimension, C176_bmp_violation, C176_calls_partial, C177_complete_violation, C178_matches_violation, C192_csv_partial, C228_one_partial, C228_target, C228_two_violation, C231_pick_partial, C231_zero_violation

**Classical.choice, Quot.sound, propext** (889): C02_addressing, C03_write_frame, C04_atRange_partial, C04_at_safe, C04_setTuple_safe, C05_linear_index, C05_round_trip, C06_each_once, C06_pixel_iteration, C07_opAssign, C08_add_partial, C08_order, C09_transform2_partial, C09_transform_partial, C10_no_wrap, C10_subtract_saturates, C11_constant_padding, C12_mirror_padding, C12_too_large, C13_replicate_padding, C14_subimage2_partial, C15_subimage, C15_subimage2d, C16_degenerate, C16_round_trip, C16_split, C17_no_overlap_odd_partial, C17_split_overlap_partial, C18_concat_horizontal, C18_concat_vertical, C18_mismatch, C19_paste_partial, C20_flips_compose, C20_involutions, C20_quarter_turn, C21_detail, C21_quarter_turns_dropped, C21_rotate_partial, C21_rotate_violation, C21_size_kept, C22_windowed_filter_causal_partial, C22_windowed_filter_centre_partial, C22_windowed_filter_partial, C23_conv2_commutative, C23_conv2_full, C23_conv2_linear, C23_conv2_same, C23_conv2_sequential, C24_convolution_full_partial, C24_same_size_ignores_kernel_violation, C25_dft2_is_fourier, C25_idft2_dft2, C25_idft2_is_inverse_fourier, C26_dct2_idct2, C26_dct3_idct3, C26_dct3_plane_is_cosine, C26_idct2_dct2, C26_idct3_dct3, C26_idct3_plane_is_expansion, C27_construct_schedules, C27_geometry_schedules, C27_pixelwise_schedules, C27_planes_schedules, C27_replace_schedules, C27_resize_schedules, C27_subimage2_schedules, C28_assoc, C28_product, C28_throws, C28_transpose, C28_transpose_involution, C28_transpose_mul, C29_determinant, C29_inverse, C29_throws, C30_singular, C30_solver, C31_image, C31_square, C31_tolerance, C32_dense, C32_forms_agree, C32_histogram_normalized, C32_normalize_array, C32_normalize_dense, C32_normalize_sparse, C32_sparse, C33_negative_violation, C33_partial, C33_violation, C34_bmp_missing, C34_bmp_round_trip_partial, C34_bmp_unwritable, C34_bmp_violation, C35_bmp_layout, C36_bmp8_partial, C36_bmp8_topdown_partial, C36_bmp8_violation, C37_double_round_trip_partial, C37_double_violation, C37_hsv_round_trip_partial, C37_hsv_violation, C38_pbm_round_trip, C38_pgm_round_trip, C38_ppm_round_trip, C39_glued_comment_violation, C39_separators_partial, C40_double_violation, C40_empty_violation, C40_fixed_doubles_partial, C40_integers_partial, C40_u8_violation, C40_whole_doubles_partial, C41_between_neighbours, C41_exact_on_grid, C41_zero_outside, C42_constants, C42_exact_on_grid, C42_kernel, C42_never_out_of_range, C43_enlarge_shrink, C43_resize, C43_same_size, C44_bisection, C44_mapping_strictMono, C44_root_finder, C45_only_disc_partial, C45_partial, C45_points_partial, C45_violation, C46_draw_line, C46_endpoints, C47_draw_circle, C47_no_gaps, C47_ring_symmetric, C48_rejected, C49_refinement_partial, C49_refinement_violation, C50_levels_violation, C50_location_violation, C50_mapped_inside, C50_missing_octave_violation, C50_schedule, C50_search_partial, C51_overflow_violation, C51_raw_partial, C52_mutual, C52_robust, C53_equations, C53_few, C53_homography, C53_scale, C54_msac, C54_ransac, C54_refine, C54_robust, C54_sample, C55_singular, C55_stitch_partial, C55_stitch_violation, C55_warp_partial, C55_warp_violation, C56_blend_partial, C56_dark_violation, C56_offset_violation, C56_stitch_violation, C57_manhattan, C57_squared_partial, C57_squared_policy, C58_replace, C58_replace_self, C58_unique, C59_min_max, C59_sum_coordinates, C60_history, C60_remove, C60_store, C61_partial, C61_violation, C62_final_partial, C62_parse, C62_partial, C62_policy_violation, C62_single_stage, C62_zeros_violation, C63, C64_factor_violation, C64_file_violation, C64_images_partial, C64_partial, C64_type_violation, C65_partial, C65_transform_skips, C65_violation, C66_bool_violation, C66_clobber_violation, C66_empty, C66_leftover_violation, C66_partial, C66_transform_acts, C67_name_violation, C67_save_load_partial, C67_stale_violation, C67_unreadable_violation, C68_line_partial, C68_register_partial, C68_unknown_line_partial, C68_violation, C69_anywhere, C69_dispatch, C69_extract, C69_filter, C70_count, C70_predicates, C70_size, C70_transform_throw, C71_append, C71_create, C71_erase, C71_get_partial, C71_get_violation, C71_reject, C71_reject_more, C72_dimension, C72_empty_violation, C72_fit_partial, C72_large_violation, C72_more_iterations, C72_perfect_start, C72_schedule, C72_start, C72_step, C73_getPlane, C73_merge_split, C73_split_merge, C74_exact, C74_only_frame_changes, C75_quantifiers, C76_shear_default, C76_shear_quarter_turns, C77_fisheye_partial, C77_negative_violation, C78_eigenpairs, C78_jacobi, C78_throws, C78_trace, C79_null_vector, C80_otsu, C81_threshold, C82_size_field_partial, C82_size_field_violation, C83_bmp24_partial, C83_bmp24_topdown_partial, C83_bmp24_topdown_violation, C84_bad_sample, C84_maximum_violation, C84_missing_samples, C84_pbm_samples, C84_pgm_samples, C84_ppm_failures, C84_ppm_samples, C85_extrema_partial, C85_schedule, C86_border_matters, C86_border_violation, C86_histogram_partial, C87_border_violation, C87_descriptor_partial, C87_nonneg, C88_scale, C89_canvas_partial, C90_registration_partial, C90_registration_violation, C91_singular_violation, C93_deviation, C93_mean_partial, C93_root_mean_square, C93_variance, C95_empty, C95_max_min_partial, C95_projection_violation, C96_map_reduce, C96_transform_partial, C96_transform_violation, C99_jacobian, C99_stationary, C99_step, C100_amplitude_violation, C100_peak_violation, C100_render_partial, C101_exact, C101_hsv_range, C101_image_partial, C101_roundtrip_partial, C101_roundtrip_violation, C102_full_turn_violation, C102_intensity_partial, C102_overflow_violation, C103_empty_violation, C103_range_gray_violation, C103_range_violation, C103_roundtrip_gray, C103_roundtrip_partial, C103_truncate_gray_partial, C103_truncate_partial, C104_image, C104_injective, C104_vivid, C105_displacement_violation, C105_filter_partial, C105_offset, C105_weights, C106_constant, C106_linear, C106_range, C106_rejected, C107_antisymmetric, C107_constant, C107_dog_partial, C107_one_sigma, C107_size, C107_small_image, C108_ellipse, C108_ellipse_separable, C108_figure1D, C108_figure2D, C108_figure3D, C108_shape, C109_constant, C109_range, C109_spatial_partial, C109_spatial_violation, C109_window, C110_difference_partial, C110_difference_three, C110_divide_partial, C110_divide_vectors_partial, C110_multiply_all_partial, C110_multiply_two, C110_negate, C110_subtract, C110_subtract_add, C110_subtract_channels, C110_subtract_vectors, C111_compose, C111_construct, C111_each_pixel, C111_multi, C111_multiplies, C111_planes, C111_pointwise, C111_two_images, C112_at_sample, C112_constant, C112_constant_value, C112_enlarge, C112_resize_partial, C112_rgb_violation, C112_same_size, C112_u8_case_violation, C112_u8_violation, C112_weights, C113_constant, C113_interpolating, C113_kernel, C113_no_lobes_violation, C113_rejected, C113_resample, C113_same_size, C113_total_weight, C114_constant_violation, C114_normalize_partial, C114_order, C115_channels, C115_empty_violation, C115_frame, C115_max_partial, C115_min_partial, C115_missing, C115_sum_bool_violation, C115_sum_channels, C115_sum_overflow_violation, C115_sum_partial, C115_sum_unsigned, C115_sum_violation, C116_add_partial, C116_channels, C116_comm, C116_few, C116_frame, C116_overflow_violation, C116_rejected, C116_roundtrip_partial, C116_subtract_partial, C117_count_frame, C117_count_image_violation, C117_count_partial, C117_count_rejected, C117_count_shown, C117_count_signed_violation, C117_replace_container_partial, C117_replace_count, C117_replace_frame, C117_replace_image_partial, C117_replace_image_violation, C117_replace_policy_violation, C118_construct, C118_construct_mismatch, C118_construct_rejected, C118_frame, C118_grid_partial, C118_grid_rejected, C118_grid_violation, C119_colour_count, C119_colour_partial, C119_colour_size_violation, C119_command_colour, C119_command_frame, C119_command_partial, C119_command_rejected, C119_command_violation, C119_euclidean, C119_euclidean_coordinates, C119_gray, C119_manhattan_colour, C119_manhattan_triangle, C119_multi, C119_point, C119_point_metric, C119_rgb_violation, C119_unsigned_violation, C120_abs, C120_abs_int_partial, C120_channels, C120_complex, C120_inverse, C120_multi, C120_pixel, C120_pow, C120_pow_channels, C120_sort, C120_trig, C120_trig_complex, C121_constant, C121_neutral, C121_rand_partial, C121_randi_partial, C121_randi_violation, C122_sign, C122_size_partial, C123_arithmetic_partial, C123_construct_partial, C123_equal, C123_stack_partial, C123_stack_smaller, C124_array, C124_hsv_order_partial, C124_point, C124_text, C125_hypot, C125_policy_violation, C126_butterworth_partial, C126_centre, C126_dimension, C126_zero_violation, C127_frame, C127_outside_partial, C127_outside_violation, C127_rejected, C127_window, C128_info, C128_print_partial, C128_print_violation, C128_vars, C128_write, C129_rand_partial, C129_rand_violation, C129_rejected, C130_brightness, C130_distance, C130_failure, C130_homography, C130_imstitch_partial, C130_no_model_violation, C131_draw_partial, C131_height_violation, C132_core, C132_load, C132_no_directory, C132_order_partial, C132_order_violation, C132_roles, C132_shipped, C133_loaded_partial, C133_references, C133_shutdown, C133_throw_violation, C134_same_as_interactive_partial, C134_status_violation, C134_unreadable_violation, C135_border_violation, C135_empty_violation, C135_one_thread, C135_same_as_cpu_partial, C135_warp, C136_double_release_violation, C136_failure_reported, C136_released_partial, C137_pixels, C137_same_as_cpu_partial, C137_schedules_partial, C138_byte, C138_double, C138_frame, C138_rejected, C138_rgb, C138_three_channels, C139_bicubic_byte_violation, C139_bicubic_partial, C139_bicubic_three_partial, C139_lanczos_partial, C139_lanczos_same_size, C139_radius_violation, C139_rejected, C140_conversion, C140_empty, C140_hsv_partial, C140_planes, C140_range_violation, C140_refused, C141_copy, C141_quoted_extension, C141_quoted_variable, C141_read, C141_read_default, C141_rejected, C141_remove, C141_remove_all, C141_rename_partial, C142_create_partial, C142_file_partial, C142_rejected, C142_wrap_violation, C143_default, C143_every_angle, C143_no_waste, C143_nothing_cut_off, C143_refused, C143_value, C143_value_exact, C143_whole_turns, C144_normalize_constant_violation, C144_normalize_numbers_violation, C144_normalize_partial, C144_normalize_refused, C144_rotate_colour, C144_rotate_grey, C144_rotate_rejected, C145_colour_violation, C145_command_partial, C145_default_violation, C145_few, C145_octave_partial, C145_rejected, C145_small_violation, C145_sum, C146_dct3, C146_dct3_refused, C146_dct3_solid, C146_gaussian, C146_gaussian_rejected, C146_to_complex, C146_to_complex_bool, C147_default_violation, C147_inside, C147_keypoints_partial, C147_levels_violation, C147_method, C147_missing_violation, C147_rejected, C147_small_violation, C148_bool, C148_bool_race_violation, C148_colour, C148_containers_partial, C148_images_partial, C148_overflow_violation, C148_rejected, C149_colour, C149_constant_violation, C149_filter, C149_rejected, C149_whole_turns, C150_append_one, C150_append_violation, C150_bool_violation, C150_each_pixel, C150_flips, C150_lost_violation, C150_parts, C150_window_single, C150_window_violation, C151_enlarge_shrink_violation, C151_proportion_violation, C151_resize_partial, C151_same, C151_whole, C152_between_partial, C152_blend_partial, C152_blend_violation, C152_constant_violation, C152_grid, C153_grey, C153_levels_partial, C153_roundtrip_violation, C154_descriptor, C154_histogram, C154_last, C155_normalize, C156_quarter_double, C156_quarter_violation, C156_size_violation, C157_bicubic_partial, C157_large_violation, C158_byte_partial, C158_double_partial, C158_finite, C158_nan_violation, C158_outside, C159_accuracy, C159_byte_partial, C159_command_partial, C159_command_violation, C159_double_partial, C159_nan_violation, C160_nan_violation, C160_overflow_violation, C160_warp_partial, C161_addCount, C161_image, C161_read, C161_write, C162_first_violation, C162_live_loop_partial, C162_violation, C163_threshold, C164_partial, C164_violation, C165_bilateral, C165_bilinear, C165_conv2, C165_fisheye, C165_fisheye_int, C165_rotate, C166_distance, C166_metric, C166_weight, C167_planar, C168_colour_violation, C168_degrees_violation, C168_integer_partial, C168_shear_degrees, C168_shear_whole_turns, C169_signed_partial, C169_signed_violation, C169_unsigned, C170_lossless, C170_text, C171_to_complex, C171_to_double, C171_to_string, C172_empty_violation, C172_fit_partial, C172_large_violation, C172_more_iterations, C172_rejected, C172_schedule, C173_layout, C173_lossless, C173_planar, C174_lines, C174_lossless, C175_off_by_one_violation, C175_round_trip_partial, C176_closed, C177_complete_partial, C177_every_schedule, C177_finished, C177_no_deadlock, C177_sequential, C178_matches_orders, C178_matches_partial, C178_runs_partial, C178_transform_partial, C179_bound, C179_mean_exact, C179_mean_partial, C179_mean_violation, C179_sum_exact, C179_sum_partial, C179_sum_violation, C180_commutative_violation, C180_conv2_exact, C180_conv2_partial, C180_conv2_same, C181_associative_violation, C181_identity, C181_multiply_exact, C181_multiply_partial, C181_transpose, C182_distance_partial, C182_grouping_violation, C182_sequential, C182_symmetric, C183_average_partial, C183_blur_partial, C183_constant_violation, C183_range_partial, C184_black_violation, C184_difference_violation, C184_integer_sigma, C184_overflow_violation, C184_zero_violation, C185_conv2, C185_conv2_violation, C185_mean, C185_mean_int_partial, C185_mean_int_violation, C185_mean_partial, C185_mean_violation, C185_sum, C185_sum_int_iff, C185_sum_int_partial, C186_variables_partial, C186_variables_violation, C187_extremes_partial, C187_extremes_violation, C188_constant_violation, C188_infinity_violation, C188_nan_first_violation, C188_normalize_partial, C188_overflow_violation, C189_bytes_partial, C189_bytes_violation, C189_find_partial, C189_find_violation, C190_commands, C190_line, C190_names, C190_session, C191_commands, C191_line, C191_session, C192_bmp_partial, C192_bmp_violation, C192_double_partial, C192_hsv_partial, C192_pnm_magic_violation, C192_pnm_partial, C193_bmp_header_violation, C193_bmp_partial, C193_bmp_violation, C194_double_partial, C194_double_violation, C194_hsv_partial, C194_hsv_violation, C195_pbm, C195_pgm_partial, C195_ppm_partial, C195_ppm_violation, C196_integers_partial, C196_ragged_rows, C196_violation, C197_long_violation, C197_missing_picture, C197_numbered_partial, C198_mixed_violation, C198_save_partial, C199_files, C199_letter_violation, C199_session_partial, C199_undefined, C200_bystanders, C200_stops_partial, C200_succeeds, C200_violation, C201_round_trip, C202_different_files, C202_same_content, C202_same_file_partial, C202_same_file_violation, C203_removed_violation, C203_same_size_partial, C203_size_violation, C203_unchanged, C204_range_partial, C204_spatial_partial, C204_spatial_violation, C204_white_violation, C204_window, C204_window_range, C205_antisymmetric, C205_constant_partial, C205_difference, C207_histogram_partial, C207_image_partial, C207_violation, C208_bins_partial, C208_bins_violation, C208_normalized_partial, C208_normalized_violation, C208_shares, C209_image, C209_levels, C210_clang_msvc, C210_gcc_partial, C210_gcc_violation, C211_levels_partial, C211_one_violation, C211_overflow_violation, C212_shown, C212_solution_partial, C212_solution_violation, C212_zero, C213_constant_partial, C213_constant_violation, C213_grid, C213_level, C214_first_pixel_violation, C214_lost_pixel_violation, C214_position_partial, C214_shape, C215_bins_partial, C215_default_violation, C215_special_violation, C216_ratio_violation, C216_raw_partial, C216_robust_partial, C216_special_entry, C217_least, C217_most, C217_msac, C217_nan_violation, C217_ransac, C218_all, C218_integers_partial, C218_singular_violation, C218_throws, C219_assoc_violation, C219_error, C219_exact, C219_gram, C219_throws, C220_entries, C220_exact, C221_nan_violation, C221_overflow_violation, C221_warp_partial, C222_empty, C222_nan, C222_refine, C223_equations, C223_few, C223_nan, C223_nine, C223_result, C224_layout, C224_lossless_partial, C225_bounds_partial, C225_empty, C225_feather_partial, C225_infinity_violation, C225_left, C225_nan_violation, C225_shift, C226_divides_partial, C226_length_violation, C226_plus_length_violation, C226_plus_partial, C227_complex, C227_line_violation, C227_plane, C227_volume, C228_depth, C228_unwrap_partial, C229_mixed_violation, C230_infinity_violation, C230_large, C230_whole_partial
