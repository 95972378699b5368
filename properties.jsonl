{"id": "C01", "title": "A constructed image stores exactly one element per pixel", "statement": "Whatever sizes (and, where given, data) are passed to an Image constructor, if construction succeeds then getSize() returns the requested sizes and the number of stored elements equals the product of the sizes; data whose length does not match the sizes is rejected with an exception.", "quantifier": "every number of dimensions, every size list, every data vector", "why_tests_cant": "sizes are arbitrary 64-bit numbers, including ones whose product overflows", "anchors": ["image.h: Image constructors, count, getSize"]}
{"id": "C02", "title": "Coordinates address pixels one-to-one", "statement": "For every image, two different in-bounds coordinate tuples never address the same element, and every stored element is addressed by exactly one in-bounds tuple, with the first coordinate varying fastest.", "quantifier": "every dimensionality, every size list, every pair of coordinate tuples", "why_tests_cant": "the number of size lists and tuples is unbounded", "anchors": ["image.h: calculateIndex, at, get"]}
{"id": "C03", "title": "Writing one pixel changes that pixel and nothing else", "statement": "After writing a value at in-bounds coordinates, reading those coordinates returns the value, reading any other coordinates returns what it returned before, and sizes are unchanged; two writes at different coordinates commute.", "quantifier": "every image, every in-bounds coordinate, every value, every other coordinate", "why_tests_cant": "needs all images and all pairs of positions", "anchors": ["image.h: at, set, calculateIndex"]}
{"id": "C04", "title": "Checked accessors never touch memory outside the image", "statement": "The variadic at() accessors and both set() members either access a stored element of a well-formed image or report the problem (exception, or false for tuple set) leaving the image unchanged; they succeed exactly when the coordinate count matches and every coordinate is below its size.", "quantifier": "every well-formed image, every coordinate tuple of any length", "why_tests_cant": "all invalid inputs must be covered, not sample ones", "anchors": ["image.h: at, set, checkBoundary, checkBoundaryTuple"]}
{"id": "C05", "title": "Linear indices and coordinates convert back and forth", "statement": "linear_index_to_indices turns every linear index of an image into the in-bounds coordinate tuple that addresses that element.", "quantifier": "every size list, every linear index below the element count", "why_tests_cant": "unbounded dimensions and sizes", "anchors": ["image_operations.h: linear_index_to_indices; image.h: calculateIndex"]}
{"id": "C06", "title": "Iterating over pixels visits each pixel once with its own coordinates", "statement": "Iterating a 2-D image with the pixel iterator yields every (x, y) exactly once, in row order, and the reference yielded is the element that at(x, y) addresses; the iteration ends.", "quantifier": "every 2-D image with positive width", "why_tests_cant": "requires termination and coverage for every size", "anchors": ["image.h: pixel_iterator, pixel_proxy"]}
{"id": "C07", "title": "In-place arithmetic works pixel by pixel and rejects mismatched shapes", "statement": "a += b, -=, *=, /= replaces each pixel by the operation applied to the two pixels at the same position, keeps the shape, and when the sizes differ throws and leaves a unchanged; for wrap-around integers a += b then a -= b restores a.", "quantifier": "every pair of images, every element value", "why_tests_cant": "all shapes and values", "anchors": ["image.h: operator+=, operator-=, operator*=, operator/=, operator+, operator-; image_operations.h: check_size_same"]}
{"id": "C08", "title": "Adding several images gives the pixelwise sum and is safe for any shapes", "statement": "add(i1, ..., in) of images returns an image of the common shape whose every pixel is the sum of the pixels at that position, independent of argument order; images of differing shape are rejected rather than read out of range.", "quantifier": "every number of images, every shape, every value", "why_tests_cant": "number of arguments and shapes unbounded; out-of-range reads are invisible to tests", "anchors": ["image_operations.h: add, pixelwise_transform; basic_functions.h: recursive_transform, transform"]}
{"id": "C09", "title": "Pixelwise transform keeps the shape and maps every pixel", "statement": "pixelwise_transform(f, image) returns an image with the same sizes whose element at each coordinate is f of the input element there; composing two transforms equals transforming by the composition.", "quantifier": "every image, every function", "why_tests_cant": "universal over functions and shapes", "anchors": ["image_operations.h: pixelwise_transform; basic_functions.h: recursive_transform"]}
{"id": "C10", "title": "Subtracting RGB images saturates", "statement": "subtract on RGB images yields in every channel the true difference clamped to [0,255], throws when sizes differ, and never wraps around.", "quantifier": "every pair of RGB images, every channel value", "why_tests_cant": "all values at all positions", "anchors": ["image_operations.h: subtract"]}
{"id": "C11", "title": "Constant padding surrounds the image with the chosen value", "statement": "generate_constant_padding_image returns an image enlarged by the expansion on each side; the centre block equals the input and every other pixel equals the given value.", "quantifier": "every 2-D image, every expansion width and height, every value", "why_tests_cant": "all sizes and offsets", "anchors": ["image_operations.h: generate_constant_padding_image, add_border_2d, paste2D"]}
{"id": "C12", "title": "Mirror padding reflects the image at its borders", "statement": "generate_mirror_padding_image returns an enlarged image in which each pixel equals the input pixel reached by reflecting the coordinates at the borders without repeating the border pixel; expansions that are not smaller than the image are rejected.", "quantifier": "every 2-D image, every expansion", "why_tests_cant": "eight border regions for all sizes", "anchors": ["image_operations.h: generate_mirror_padding_image"]}
{"id": "C13", "title": "Replicate padding repeats the nearest border pixel", "statement": "generate_replicate_padding_image returns an enlarged image in which each pixel equals the input pixel at the coordinates clamped into the input.", "quantifier": "every non-empty 2-D image, every expansion", "why_tests_cant": "eight border regions for all sizes", "anchors": ["image_operations.h: generate_replicate_padding_image"]}
{"id": "C14", "title": "Cropping by corner coordinates returns exactly that rectangle or an error", "statement": "subimage2(image, sx, ex, sy, ey) returns the rectangle with inclusive corners, pixel for pixel, and throws whenever the rectangle is not contained in the image; it never reads outside the image.", "quantifier": "every 2-D image, all four corner values", "why_tests_cant": "all boundary combinations", "anchors": ["image_operations.h: subimage2"]}
{"id": "C15", "title": "Centred sub-image extraction", "statement": "subimage(image, w, h, cx, cy[, default]) returns a w by h image whose pixel (i, j) is the input pixel at (cx - w/2 + i, cy - h/2 + j) where that lies inside the input, and the default elsewhere.", "quantifier": "every image, size, centre and default value", "why_tests_cant": "unsigned wrap-around at the borders for all positions", "anchors": ["image_operations.h: subimage"]}
{"id": "C16", "title": "Splitting into blocks and concatenating them restores the image", "statement": "split cuts an image into segment_x by segment_y blocks of equal size covering the image in order, and concat of the result restores the image whenever the segment counts divide the sizes.", "quantifier": "every image, every segment count dividing the sizes", "why_tests_cant": "all sizes and counts", "anchors": ["image_operations.h: split, concat, concat_horizontal, concat_vertical, subimage2"]}
{"id": "C17", "title": "Overlapping split returns each block extended by its surroundings", "statement": "split_overlap returns for each block the block of split extended on all four sides by the given overlap, taken from the padded image.", "quantifier": "every image, segment counts, overlap sizes", "why_tests_cant": "all sizes and overlaps", "anchors": ["image_operations.h: split_overlap"]}
{"id": "C18", "title": "Concatenation places images side by side without loss", "statement": "concat_horizontal and concat_vertical return an image of summed width (height) whose pixels are those of the inputs in order; mismatched heights (widths) are rejected.", "quantifier": "every list of images", "why_tests_cant": "lists and sizes unbounded", "anchors": ["image_operations.h: concat_horizontal, concat_vertical, concat"]}
{"id": "C19", "title": "Pasting overlays the target and keeps the rest of the background", "statement": "paste2D returns an image holding the target at the given location, the background everywhere else it covers, and the default value elsewhere; the output is just large enough for both.", "quantifier": "every background, target, location and default", "why_tests_cant": "all overlaps and overflow positions", "anchors": ["image_operations.h: paste2D"]}
{"id": "C20", "title": "Transpose, flips and quarter turns obey the symmetry laws of the square", "statement": "transpose, flip_horizontal and flip_vertical are each their own inverse, the flips commute and compose to flip_horizontal_vertical, a 90 degree rotation has order four and equals transpose followed by a horizontal flip, and each moves the pixel at (x, y) to the documented place.", "quantifier": "every 2-D image", "why_tests_cant": "all sizes", "anchors": ["image_operations.h: transpose, flip_horizontal, flip_vertical, flip_horizontal_vertical, rotate_detail"]}
{"id": "C21", "title": "rotate by multiples of a quarter turn rotates the image", "statement": "rotate(image, k * pi / 2) returns the image turned by k quarter turns.", "quantifier": "every image, every integer k", "why_tests_cant": "all multiples", "anchors": ["image_operations.h: rotate, rotate_detail"]}
{"id": "C22", "title": "Windowed filtering applies the window function to the unmodified neighbourhood", "statement": "windowed_filter returns an image of the input's size whose pixel at each position is the window function of the window of the padded input around that position, independently of evaluation order.", "quantifier": "every image, window size, window function and schedule", "why_tests_cant": "depends on schedule and on the whole image", "anchors": ["image_operations.h: windowed_filter"]}
{"id": "C23", "title": "Full 2-D convolution is mathematical convolution", "statement": "conv2 returns an image of size (w1+w2-1, h1+h2-1) whose pixel (i, j) is the sum over all k, l of x(k,l)*y(i-k,j-l); it is commutative and linear, and with is_size_same returns the central part of that result.", "quantifier": "every pair of images over any commutative ring", "why_tests_cant": "all sizes and values", "anchors": ["image_operations.h: conv2"]}
{"id": "C24", "title": "N-dimensional convolution with same size returns the centre of the convolution", "statement": "convolution(image, kernel, is_size_same = true) returns the central part, of the image's size, of the full convolution.", "quantifier": "every image and kernel of equal dimensionality", "why_tests_cant": "all sizes and values", "anchors": ["image_operations.h: convolution"]}
{"id": "C25", "title": "Inverse Fourier transform undoes the forward transform", "statement": "idft2(dft2(x)) = x for every real image, in exact arithmetic.", "quantifier": "every size and every pixel value", "why_tests_cant": "all sizes and real values", "anchors": ["image_operations.h: dft2, idft2"]}
{"id": "C26", "title": "Inverse cosine transform undoes the forward transform", "statement": "idct3(dct3(x)) = x and dct3(idct3(x)) = x for every stack of images, idct2(dct2(x)) = x and dct2(idct2(x)) = x for every image, in exact arithmetic.", "quantifier": "every size, every number of planes, every pixel value", "why_tests_cant": "all sizes and real values", "anchors": ["image_operations.h: dct3_one_plane, dct3, idct3_one_plane, idct3, dct2, idct2"]}
{"id": "C27", "title": "Execution-policy versions of per-pixel operations equal the sequential ones for every schedule", "statement": "When an operation runs its per-pixel bodies in parallel (each body computing one output pixel from the input), the resulting image does not depend on the order or interleaving of the bodies and equals the sequential result.", "quantifier": "every image, every interleaving of the iterations", "why_tests_cant": "schedules cannot be enumerated by tests", "anchors": ["image_operations.h: transpose, apply_each_pixel, subimage, warp_perspective; main.h: grid_generator, construct_rgb; main.cpp: subimage"]}
{"id": "C28", "title": "Matrix product and transpose obey matrix algebra", "statement": "multiply computes the matrix product, throws exactly when the inner sizes differ, is associative, and transpose reverses products and is its own inverse.", "quantifier": "every matrix size and content over a commutative ring", "why_tests_cant": "all sizes", "anchors": ["linear_algebra.h: Matrix, multiply, transpose"]}
{"id": "C29", "title": "3x3 inversion returns the true inverse or reports failure", "statement": "invert throws unless the matrix is 3x3, returns the empty matrix when the determinant is (near) zero, and otherwise returns a matrix whose product with the input on either side is the identity (exact arithmetic).", "quantifier": "every 3x3 matrix over an ordered field", "why_tests_cant": "all real entries", "anchors": ["linear_algebra.h: invert"]}
{"id": "C30", "title": "The linear solver solves the system it is given", "statement": "solve_linear_system either returns the zero vector because some pivot column has no entry above the threshold, or returns x with A x = b exactly (exact arithmetic).", "quantifier": "every dimension, matrix, right-hand side and threshold over an ordered field", "why_tests_cant": "all sizes and values", "anchors": ["image_operations.h: solve_linear_system"]}
{"id": "C31", "title": "Symmetry test decides symmetry and is policy independent", "statement": "is_symmetry on integer matrices returns true exactly when the matrix is square and equals its transpose; the parallel version gives the same answer.", "quantifier": "every integer matrix", "why_tests_cant": "all sizes and contents", "anchors": ["linear_algebra.h: is_symmetry; image_operations.h: is_symmetry"]}
{"id": "C32", "title": "A histogram counts every pixel exactly once", "statement": "The histogram of an image assigns to each level the number of pixels with that level; the counts sum to the number of pixels; normalising gives values summing to 1; both storage forms agree.", "quantifier": "every image", "why_tests_cant": "all images and both storage forms", "anchors": ["histogram.h: Histogram, getCount, getCountSum, addCount, normalize; image_operations.h: histogram, normalize_histogram"]}
{"id": "C33", "title": "Histogram with bins puts each pixel in the bin of its value", "statement": "histogram_with_bins counts each pixel in the bin whose interval of the value range contains it, for every value range.", "quantifier": "every image and bin count", "why_tests_cant": "all value ranges including those not starting at zero", "anchors": ["image_operations.h: histogram_with_bins"]}
{"id": "C34", "title": "24-bit BMP write then read returns the same image", "statement": "Writing an RGB image with bmp_write and reading the file with bmp_read yields the same sizes and pixels.", "quantifier": "every image with positive width and height below 2^31", "why_tests_cant": "all widths, heights and pixel values, including every row padding", "anchors": ["image_io.cpp: bmp_write, bmp_file_read, bmp_read_detail, array_to_raw_image, raw_image_to_array, bmp_filling_byte_calc"]}
{"id": "C35", "title": "BMP rows are aligned and header fields are little-endian", "statement": "Each stored BMP row occupies a multiple of four bytes with less than four bytes of padding, and the size fields decode to the image's width and height.", "quantifier": "every image whose rows are shorter than 2^31 bytes and whose height is below 2^31 (the range of the format's fields)", "why_tests_cant": "all widths", "anchors": ["image_io.cpp: bmp_filling_byte_calc, bmp_write, bmp_read_x_size, bmp_read_y_size"]}
{"id": "C36", "title": "8-bit BMP decoding maps each index through the palette", "statement": "Reading an 8-bit BMP yields for each pixel the palette colour selected by the stored index.", "quantifier": "every palette, size and index data", "why_tests_cant": "all palettes and sizes", "anchors": ["image_io.cpp: bmp_read_detail"]}
{"id": "C37", "title": "Raw double and HSV image files round-trip", "statement": "double_image::write then read, and hsv_write then hsv_read, restore sizes and bit patterns of all samples.", "quantifier": "every image", "why_tests_cant": "all sizes and bit patterns", "anchors": ["image_io.cpp: double_image::write, double_image::read, hsv_write, hsv_read"]}
{"id": "C38", "title": "Plain PPM write then read returns the same image", "statement": "pnm::write with P3 followed by pnm::read restores every RGB image; for P1 each sample reads back as 1 exactly when it was non-zero.", "quantifier": "every image and every pixel value", "why_tests_cant": "all sizes and values", "anchors": ["image_io.h: pnm::read, pnm::write, ProcessPPMData, shift_color_value"]}
{"id": "C39", "title": "PNM tokens ignore white space and comments", "statement": "Reading a PNM file gives the same image whatever white space and # comments separate the tokens.", "quantifier": "every token list and every placement of separators and comments", "why_tests_cant": "separator placements are unbounded", "anchors": ["image_io.h: read_pnm_token"]}
{"id": "C40", "title": "CSV write then read restores the numbers", "statement": "Writing a numeric image to CSV and reading it back restores width, height and every cell.", "quantifier": "every image", "why_tests_cant": "all sizes", "anchors": ["image_io.h: write_to_csv, ParseCSVRow, read_from_csv"]}
{"id": "C41", "title": "Bilinear sampling is exact on the grid and never overshoots", "statement": "bilinear_interpolate returns the pixel itself at integer positions inside the image, 0 outside, and otherwise a value between the minimum and maximum of the surrounding pixels; it never reads outside the image.", "quantifier": "every image and every real position", "why_tests_cant": "positions are real numbers", "anchors": ["image_operations.h: bilinear_interpolate"]}
{"id": "C42", "title": "The bicubic kernel interpolates and reproduces constants", "statement": "cubic_kernel is even, is 1 at 0 and 0 at other integers, and its four shifted values sum to 1 for every offset, so the bicubic interpolator returns the pixel at interior integer positions and reproduces constant images.", "quantifier": "every real offset, every image", "why_tests_cant": "offsets are real numbers", "anchors": ["image_operations.h: cubic_kernel, default_bicubic_interpolator"]}
{"id": "C43", "title": "Resizing reads only existing pixels and has the requested size", "statement": "resize_nearest_neighbor returns an image of the requested size each of whose pixels is a pixel of the input, at the proportional position; resizing to the same size is the identity.", "quantifier": "every non-empty image and target size", "why_tests_cant": "all sizes", "anchors": ["image_operations.h: resize_nearest_neighbor"]}
{"id": "C44", "title": "The fisheye root finder brackets the inverse radius", "statement": "The bisection returns a radius inside [0, D0] whose distance to a true solution is at most the initial width divided by 2^50, when the mapping is monotone and continuous and brackets the target.", "quantifier": "every monotone mapping and target radius", "why_tests_cant": "real-valued inputs", "anchors": ["image_operations.h: GaussianFisheyeInverseRootFinder"]}
{"id": "C45", "title": "draw_point draws the disc clipped to the image", "statement": "draw_point changes exactly the pixels inside the image at distance less than the radius from the point to the draw value and no others, wherever the point lies.", "quantifier": "every image, point, radius and value", "why_tests_cant": "all positions including those near the borders", "anchors": ["image_operations.h: draw_point, draw_points"]}
{"id": "C46", "title": "draw_line terminates, connects the endpoints and touches only the line", "statement": "draw_line finishes for every pair of endpoints, sets both endpoints that lie inside the image, and every pixel is either unchanged or has the draw value.", "quantifier": "every image and endpoints", "why_tests_cant": "termination over all endpoints", "anchors": ["image_operations.h: draw_line"]}
{"id": "C47", "title": "draw_circle is symmetric and only writes the draw value", "statement": "draw_circle finishes, changes only pixels within one pixel of the circle of the given radius, only to the draw value, and draws the eight symmetric images of each point.", "quantifier": "every image, centre and radius", "why_tests_cant": "all radii", "anchors": ["image_operations.h: draw_circle"]}
{"id": "C48", "title": "Extremum detection accepts exactly strict extrema", "statement": "is_it_extremum returns true exactly when the centre exceeds the threshold in magnitude and is strictly greater than, or strictly less than, all 26 neighbours.", "quantifier": "every triple of 3x3 images and threshold", "why_tests_cant": "all real values", "anchors": ["image_operations.h: SIFT_impl::is_it_extremum"]}
{"id": "C49", "title": "Keypoint refinement solves the quadratic model", "statement": "keypoint_refinement returns the offset at which the gradient of the fitted quadratic vanishes.", "quantifier": "every 3x3 neighbourhood with non-singular Hessian", "why_tests_cant": "all real values", "anchors": ["image_operations.h: SIFT_impl::keypoint_refinement"]}
{"id": "C50", "title": "Keypoint search is safe for images of every size", "statement": "get_potential_keypoint never reads a missing octave, whatever the size of the image and the number of octaves requested.", "quantifier": "every image size, octave count and scale level count", "why_tests_cant": "out-of-range reads are invisible to tests", "anchors": ["image_operations.h: SIFT_impl::get_potential_keypoint"]}
{"id": "C51", "title": "Raw matching returns nearest neighbours that pass the ratio test, in any schedule", "statement": "find_raw_matches returns, as a multiset independent of the schedule, exactly the pairs (i, j) where j is the first nearest neighbour of i and its distance is below the ratio times the second nearest distance.", "quantifier": "every descriptor list, ratio and schedule", "why_tests_cant": "schedules and real values", "anchors": ["image_operations.h: find_raw_matches, find_keypoint_matches"]}
{"id": "C52", "title": "Robust matches are mutual and one-to-one", "statement": "find_robust_matches returns only pairs that are raw matches in both directions, and no descriptor of either image occurs in two pairs.", "quantifier": "every pair of descriptor lists", "why_tests_cant": "all inputs", "anchors": ["image_operations.h: find_robust_matches"]}
{"id": "C53", "title": "Homography equations characterise the projective map", "statement": "A coefficient vector satisfies all rows built by compute_homography exactly when the homography maps every first point to its second point (where the denominator is non-zero).", "quantifier": "every list of point pairs", "why_tests_cant": "real values and list lengths", "anchors": ["image_operations.h: compute_homography"]}
{"id": "C54", "title": "The robust estimator returns a candidate of least cost", "statement": "find_homography_robust returns a model whose cost is minimal among all the sampled candidates, and its inlier set is exactly the matches within the threshold of that model.", "quantifier": "every match list, sample sequence and threshold", "why_tests_cant": "random samples", "anchors": ["image_operations.h: find_homography_robust_impl, RansacScorer, MsacScorer"]}
{"id": "C55", "title": "Perspective warp gives the same image with and without an execution policy", "statement": "warp_perspective with and without an execution policy return the same image for the same homography.", "quantifier": "every image, homography and output size", "why_tests_cant": "all homographies", "anchors": ["image_operations.h: warp_perspective, create_stitched_image"]}
{"id": "C56", "title": "Blending stays between the two inputs", "statement": "Where stitched images overlap, every blended sample lies between the two source samples, and elsewhere equals the source that covers it.", "quantifier": "every pair of images and alpha", "why_tests_cant": "all values", "anchors": ["image_operations.h: create_stitched_image"]}
{"id": "C57", "title": "Distances are metrics", "statement": "manhattan_distance and squared Euclidean distance are non-negative, symmetric and zero exactly for equal inputs, manhattan_distance satisfies the triangle inequality, mismatched sizes are rejected, and the parallel version gives the same value.", "quantifier": "every pair or triple of images or ranges", "why_tests_cant": "all values and sizes", "anchors": ["image_operations.h: manhattan_distance, squared_euclidean_distance, difference"]}
{"id": "C58", "title": "count and replace are consistent", "statement": "After replace(image, old, new) with old different from new, count(old) is 0 and count(new) is the sum of the previous counts; all other pixels are unchanged; unique_value is true exactly when the value occurs once.", "quantifier": "every image and pair of values", "why_tests_cant": "all inputs", "anchors": ["image_operations.h: count, replace, unique_value"]}
{"id": "C59", "title": "min, max and sum summarise all pixels", "statement": "min and max return a pixel bounding all pixels, minmax returns both, sum is independent of evaluation order.", "quantifier": "every non-empty image", "why_tests_cant": "all inputs and schedules", "anchors": ["image_operations.h: min, max, minmax, sum"]}
{"id": "C60", "title": "Workspace variables behave like a map keyed by sanitised names", "statement": "After store(n, v), retrieving n gives v and retrieving any different name gives what it gave before; remove deletes only that name; names that differ only by surrounding quotes or white space are the same name.", "quantifier": "every history of operations, every name", "why_tests_cant": "histories are unbounded", "anchors": ["main.h: Workspace, sanitize_string_view"]}
{"id": "C61", "title": "Renaming a variable moves its value", "statement": "rename(old, new) of an existing variable makes new hold the value of old, removes old when the names differ, keeps every other variable, and never loses the value.", "quantifier": "every workspace and pair of names", "why_tests_cant": "all names including equal ones", "anchors": ["main.h: Workspace::rename"]}
{"id": "C62", "title": "Pipelines connect each stage's output to the next stage's input", "statement": "For a command line of stages separated by |, each producing stage receives a variable at the position where it writes its output, and the next stage receives the same variable at its input position.", "quantifier": "every command line and registry", "why_tests_cant": "command lines are unbounded", "anchors": ["main.cpp: run_interactive_mode; main.h: IOSchema"]}
{"id": "C63", "title": "The pipeline optimiser terminates", "statement": "Optimising any pipeline finishes, never makes it longer, and a second run changes nothing.", "quantifier": "every pipeline and registry", "why_tests_cant": "termination over all inputs", "anchors": ["main.h: PeepholeOptimizer"]}
{"id": "C64", "title": "The pipeline optimiser does not change what the user's variables hold", "statement": "Executing the optimised pipeline leaves every user variable (every variable that is not a pipe temporary) with the same value as executing the original pipeline.", "quantifier": "every pipeline, registry and workspace", "why_tests_cant": "all pipelines and states", "anchors": ["main.h: PeepholeOptimizer, handlers::copy, handlers::multiply, MetaTransformHandler"]}
{"id": "C65", "title": "A failing pipeline stage does not feed old data to the next stage", "statement": "If a stage of a pipeline fails, no user variable is assigned a value computed from data of an earlier command line.", "quantifier": "every history of command lines", "why_tests_cant": "histories are unbounded", "anchors": ["main.cpp: run_interactive_mode; main.h: CommandRegistry::execute"]}
{"id": "C66", "title": "transform_container applies the command to each element and leaves no temporaries", "statement": "transform_container stores the container of the command's results in order, leaves every other variable unchanged and leaves no temporary variable behind, whether the command succeeds or fails, for every schedule.", "quantifier": "every container, command, failure position and schedule", "why_tests_cant": "failure points and schedules", "anchors": ["main.h: handlers::transform_container"]}
{"id": "C67", "title": "Saving and loading a workspace restores it", "statement": "save_workspace to a directory followed by load_workspace restores every saveable variable, for every earlier content of the directory and every directory iteration order.", "quantifier": "every workspace, earlier directory content and iteration order", "why_tests_cant": "iteration order and history", "anchors": ["main.h: save_workspace, load_workspace"]}
{"id": "C68", "title": "Commands that are unknown or fail leave the session running", "statement": "Executing an unknown command changes no variable, and an exception thrown by a handler is reported and does not escape.", "quantifier": "every command name, argument list and workspace", "why_tests_cant": "all inputs", "anchors": ["main.h: CommandRegistry::execute"]}
{"id": "C69", "title": "Execution-policy words are options, not arguments", "statement": "Filtering policy words keeps the other arguments in order, the words can be placed anywhere without changing the remaining arguments, and unknown policies fall back to the default.", "quantifier": "every argument list", "why_tests_cant": "placements are unbounded", "anchors": ["main.h: args_filter, extract_policy_string, dispatch_policy_string"]}
{"id": "C70", "title": "Nested-container algorithms agree with their flat counterparts", "statement": "recursive_transform preserves nesting shape and applies the function to every leaf; recursive_reduce, recursive_count, recursive_all_of/any_of/none_of and recursive_size agree with the flat operation on the flattened leaves.", "quantifier": "every nesting depth and content", "why_tests_cant": "depth unbounded", "anchors": ["basic_functions.h: recursive_transform, recursive_reduce, recursive_count_if, recursive_all_of, recursive_any_of, recursive_none_of, recursive_size, recursive_flatten"]}
{"id": "C71", "title": "Element commands edit containers like list operations", "statement": "get_element, append_element and erase_element act as indexing, appending and removing at an index, reject out-of-range indices without changing any variable, and leave the source container untouched.", "quantifier": "every container, index and workspace", "why_tests_cant": "all indices", "anchors": ["main.h: handlers::get_element, append_element, erase_element, create_container"]}
{"id": "C72", "title": "The Gaussian fit never gets worse", "statement": "Every accepted Levenberg-Marquardt step strictly decreases the squared error, a rejected step leaves the parameters unchanged, and the spread and correlation parameters stay in their domain.", "quantifier": "every image, initial state and iteration count", "why_tests_cant": "iterations unbounded", "anchors": ["image_operations.h: estimate_gaussian_parameters_2d"]}
{"id": "C73", "title": "Splitting colour planes and merging them restores the image", "statement": "getRplane/getGplane/getBplane followed by constructRGB restores every RGB image; getPlane selects the documented channel.", "quantifier": "every image", "why_tests_cant": "all sizes and values", "anchors": ["image_operations.h: getPlane, getRplane, getGplane, getBplane, constructRGB; main.h: construct_rgb"]}
{"id": "C74", "title": "Highlighting changes only pixels outside or inside the region as documented", "statement": "highlight_region changes only the pixels of the selected region and keeps all others.", "quantifier": "every image and region", "why_tests_cant": "all regions", "anchors": ["image_operations.h: highlight_region"]}
{"id": "C75", "title": "all_of, any_of and none_of agree with quantification over pixels", "statement": "all_of/any_of/none_of on an image decide whether the predicate holds for all, some or no pixels.", "quantifier": "every image and predicate", "why_tests_cant": "universal over predicates", "anchors": ["image_operations.h: all_of, any_of, none_of"]}
{"id": "C76", "title": "Reverse-mapping rotation turns by quarter turns", "statement": "rotate_detail_shear_transformation(image, k * pi / 2) returns the image turned by k quarter turns, for every interpolator that returns the pixel itself at integer positions.", "quantifier": "every image, every integer k", "why_tests_cant": "all multiples and sizes", "anchors": ["image_operations.h: rotate_detail_shear_transformation"]}
{"id": "C77", "title": "The Gaussian fisheye copies input pixels and is schedule independent", "statement": "gaussian_fisheye returns an image of the input's size, each pixel of which is the input pixel at the mapped position or 0, for every evaluation order, without undefined behaviour.", "quantifier": "every image, D0, root finder and order of pixels", "why_tests_cant": "positions are real numbers; undefined conversions are invisible to tests", "anchors": ["image_operations.h: gaussian_fisheye, FisheyePixelMapper"]}
{"id": "C78", "title": "The Jacobi eigenvalue solver diagonalises symmetric matrices", "statement": "jacobi_eigen_solver throws on a non-square matrix; on a symmetric one it returns an orthogonal eigenvector matrix Q and eigenvalues that are the diagonal of a matrix F with Q F Q^T equal to the input, where every off-diagonal entry of F is below the tolerance or the off-diagonal mass has shrunk by the factor (1-2/(n(n-1))) per iteration (exact arithmetic).", "quantifier": "every symmetric matrix of every size, iteration limit and positive tolerance", "why_tests_cant": "all sizes and real entries", "anchors": ["linear_algebra.h: jacobi_eigen_solver"]}
{"id": "C79", "title": "The null-vector solver returns a unit vector that nearly minimises ||Ah||", "statement": "svd_solve_ah_zero returns a unit vector h such that no unit vector x gives ||Ax||^2 smaller than ||Ah||^2 by more than the residual off-diagonal mass of the eigenvalue iteration.", "quantifier": "every matrix with at least one column", "why_tests_cant": "all real matrices", "anchors": ["linear_algebra.h: svd_solve_ah_zero"]}
{"id": "C80", "title": "Otsu's threshold is the best split", "statement": "otsu_threshold returns the first level that maximises the variance between the two classes it separates, among the levels that leave both classes non-empty; when no level does, it returns the number of levels.", "quantifier": "every histogram with non-negative entries, of every length", "why_tests_cant": "optimality over all histograms", "anchors": ["image_operations.h: otsu_threshold"]}
{"id": "C81", "title": "Thresholding is a per-pixel decision in every schedule", "statement": "apply_threshold_openmp returns an image of the same size whose pixels are the largest value where the pixel is greater than the threshold and the lowest value elsewhere, for every order of the parallel iterations.", "quantifier": "every image with at least one pixel, threshold and iteration order", "why_tests_cant": "schedules", "anchors": ["image_operations.h: apply_threshold_openmp"]}
{"id": "C82", "title": "The file-size field of a written BMP is the length of the file", "statement": "The little-endian file-size field in the header written by bmp_write equals the number of bytes of the file.", "quantifier": "every image that fits the format", "why_tests_cant": "all widths", "anchors": ["image_io.cpp: bmp_write"]}
{"id": "C83", "title": "24-bit BMP files of other programs are decoded by their header", "statement": "Reading a complete 24-bit BMP file yields, for each pixel, the blue, green and red bytes stored at the offset given by the header; a negative height means that the rows are stored top-down and reverses them.", "quantifier": "every complete 24-bit file, every offset, size and sign of the height", "why_tests_cant": "all files", "anchors": ["image_io.cpp: bmp_file_read, bmp_read_detail, bmp_read"]}
{"id": "C84", "title": "A plain PPM file means its samples", "statement": "Reading a plain P1, P2 or P3 file gives the sizes in its header and, row by row from the top, its samples scaled from the maximum value (2^k-1 means k bits) to 8 bits, one per pixel or three; a sample 1 of a P1 file is black and 0 is not; a file that cannot be opened, a wrong magic number and missing samples raise runtime_error.", "quantifier": "every header, every list of samples, every separator placement and every schedule of the pixel loop", "why_tests_cant": "sizes, samples and separators are unbounded", "anchors": ["image_io.h: pnm::read, ProcessPPMData, shift_color_value, read_pnm_token"]}
{"id": "C85", "title": "Extremum search reports exactly the strict extrema", "statement": "find_local_extrema on three images of the same size reports exactly the inner pixels of the middle image that are strict extrema among their 26 neighbours (and pass the contrast and edge test when it is requested), in every order of the parallel iterations, and loses none.", "quantifier": "every triple of images, thresholds and order of iterations", "why_tests_cant": "schedules are unbounded", "anchors": ["image_operations.h: SIFT_impl::find_local_extrema, is_it_extremum, keypoint_filtering, keypoint_refinement"]}
{"id": "C86", "title": "Orientation histograms sum gradient lengths by direction", "statement": "get_orientation_histogram returns 37 bins, each the sum of the gradient lengths of the pixels of the window around the point whose direction falls in it.", "quantifier": "every image, point and block size", "why_tests_cant": "all real values and positions", "anchors": ["image_operations.h: SIFT_impl::get_orientation_histogram, compute_each_pixel_orientation"]}
{"id": "C87", "title": "Key point descriptors sum gradient lengths by subregion and sector", "statement": "get_keypoint_descriptor returns 128 non-negative entries, eight 45 degree sectors for each of the 4 x 4 subregions of the 16 x 16 neighbourhood, each the sum of the gradient lengths of its pixels.", "quantifier": "every image, key point and block size", "why_tests_cant": "all real values and positions", "anchors": ["image_operations.h: SIFT_impl::get_keypoint_descriptor, compute_each_pixel_orientation"]}
{"id": "C88", "title": "Scaling a homography to other image sizes", "statement": "scale_homography returns a homography that sends a point of the first image in its new size to the scaled image of the correspondingly scaled point under the given homography.", "quantifier": "every homography and all positive sizes", "why_tests_cant": "all matrices and points", "anchors": ["image_operations.h: scale_homography"]}
{"id": "C89", "title": "The stitched canvas holds both images", "statement": "create_stitched_image, with and without execution policy, returns a canvas on which the whole first image and the projected corners of the second image lie, and no larger than needed.", "quantifier": "every pair of images and invertible homography", "why_tests_cant": "all homographies", "anchors": ["image_operations.h: create_stitched_image"]}
{"id": "C90", "title": "Stitching shows the second image where the homography puts it", "statement": "Every canvas pixel that the first image does not cover shows the second image at the point to which the homography sends that position.", "quantifier": "every pair of images, homography and canvas pixel", "why_tests_cant": "all homographies", "anchors": ["image_operations.h: create_stitched_image, warp_perspective"]}
{"id": "C91", "title": "Sequential stitching returns the panorama before the first failing step", "statement": "stitch_sequential stitches the images in order, stops at the first image for which a phase fails and returns the panorama of the images before it; an empty range gives an empty image.", "quantifier": "every sequence of images and every behaviour of the two phases", "why_tests_cant": "sequence length unbounded", "anchors": ["image_operations.h: stitch_sequential"]}
{"id": "C92", "title": "recursive_transform_reduce equals the flat reduction", "statement": "recursive_transform_reduce over a nested container equals the reduction of the transformed leaves with the initial value, whatever order and grouping the standard library chooses.", "quantifier": "every depth, container, operation, initial value, order and grouping of the reduction", "why_tests_cant": "order of the reduction is unspecified; depth unbounded", "anchors": ["basic_functions.h: recursive_transform_reduce"]}
{"id": "C93", "title": "Mean, variance, deviation and root mean square", "statement": "arithmetic_mean times the count is the sum and lies within the bounds of the data; population_variance is the mean squared deviation, equals mean of squares minus squared mean, is never negative and is zero only for constant data; population_standard_deviation is its root; root_mean_square is the root of the mean square; empty data throw std::logic_error.", "quantifier": "every list and every order of the parallel additions", "why_tests_cant": "all inputs and schedules", "anchors": ["basic_functions.h: arithmetic_mean, population_variance, population_standard_deviation, square_sum, root_mean_square"]}
{"id": "C94", "title": "Filtered copies of nested containers", "statement": "recursive_replace_copy_if keeps the shape and replaces exactly the matching leaves; recursive_remove_copy_if, recursive_remove_copy and recursive_copy_if keep the outer containers and split the leaves into complementary parts, in order.", "quantifier": "every depth, container and predicate", "why_tests_cant": "depth unbounded", "anchors": ["basic_functions.h: recursive_replace_copy_if, recursive_remove_copy_if, recursive_remove_copy, recursive_copy_if"]}
{"id": "C95", "title": "Extrema of nested containers", "statement": "recursive_max, recursive_min and recursive_minmax return a largest, a smallest, or both kinds of leaf under every strict weak order and projection.", "quantifier": "every depth, container, order and projection", "why_tests_cant": "depth and orders unbounded", "anchors": ["basic_functions.h: recursive_max, recursive_min, recursive_minmax, recursive_flatten_view"]}
{"id": "C96", "title": "Operations on two containers", "statement": "recursive_transform on two containers combines the leaves at the same place; two_input_map_reduce rejects different sizes and reduces the pairwise results, for every order of the reduction.", "quantifier": "every depth, pair of containers and order of the reduction", "why_tests_cant": "depth and schedules unbounded", "anchors": ["basic_functions.h: recursive_transform, two_input_map_reduce"]}
{"id": "C97", "title": "Every leaf is visited exactly once", "statement": "recursive_for_each calls the function object once for every leaf, in order without a policy and in some order with one, and returns the function object with what it accumulated; recursive_fold_right_all is the right fold.", "quantifier": "every depth, container, function object and schedule", "why_tests_cant": "depth and schedules unbounded", "anchors": ["basic_functions.h: recursive_for_each, recursive_reverse_foreach_all, recursive_fold_right_all"]}
{"id": "C98", "title": "Generated containers", "statement": "n_dim_vector_generator and its variants build a container with the given number of elements at every level, and every leaf is the given value.", "quantifier": "every value, size and dimension", "why_tests_cant": "dimension unbounded", "anchors": ["basic_functions.h: n_dim_vector_generator, n_dim_array_generator, n_dim_deque_generator, n_dim_list_generator, n_dim_container_generator"]}
{"id": "C99", "title": "Each fit step is the damped Gauss-Newton step", "statement": "The step computed in every iteration of the Gaussian fit solves the damped normal equations built from the exact partial derivatives of the Gaussian with respect to its six parameters (or is zero), a non-zero step points strictly downhill in squared error, and a stationary point stops the fit.", "quantifier": "every image, proper parameters, damping and reduction order", "why_tests_cant": "derivatives and linear systems over all real inputs", "anchors": ["image_operations.h: LMMapper, LMAccumulator, solve_linear_system, estimate_gaussian_parameters_2d"]}
{"id": "C100", "title": "Rendering Gaussian parameters", "statement": "gaussianFigure2D with GaussianParameters2D shows at every pixel the Gaussian bump described by the parameters, whatever the order in which the rows are computed.", "quantifier": "every size, parameter set and row order", "why_tests_cant": "all sizes and real parameters", "anchors": ["image_operations.h: gaussianFigure2D, GaussianParameters2D"]}
{"id": "C101", "title": "RGB to HSV and back", "statement": "Converting an 8-bit RGB pixel to hue, saturation and value gives a hue in [0,360), a saturation in [0,1] and the brightest channel as value, and converting back returns the pixel: brightest and darkest channels keep their position and value and the third stays between them; the conversion back returns the same third channel.", "quantifier": "every 8-bit RGB pixel, every image with pixels", "why_tests_cant": "16.7 million pixels and all images; the failing pixels lie between the ones tests pick (primary colours and greys round-trip).", "anchors": ["image_operations.h: rgb2hsv, hsv2rgb"]}
{"id": "C102", "title": "Brightening an RGB image", "statement": "Multiplying the intensity of an RGB image by a factor scales the brightest and darkest channels of every pixel by that factor (rounded down), keeps the third channel between them, and clips at the largest channel value.", "quantifier": "every RGB image and every factor at least 0", "why_tests_cant": "Ranges over all images and real factors; undefined behaviour when a value leaves the 8-bit range need not show in a test.", "anchors": ["image_operations.h: increase_intensity, hsv2rgb, multiplies, constructHSV"]}
{"id": "C103", "title": "im2double and im2uint8 are inverse", "statement": "An 8-bit image converted to floating point and back is unchanged; the other way each channel is cut off after the whole number, which is defined exactly when it is more than -1 and less than 256.", "quantifier": "every 8-bit colour or grey image, every floating-point image", "why_tests_cant": "Ranges over all images; out-of-range conversions are undefined and may happen to look right in a test.", "anchors": ["image_operations.h: im2double, im2uint8, convert_image"]}
{"id": "C104", "title": "Grey levels map to distinct vivid colours", "statement": "Converting grey levels to the hue scale gives a fully bright, fully saturated colour for every grey level and different colours for different levels, pixel by pixel.", "quantifier": "every pair of 8-bit grey levels, every grey image with pixels", "why_tests_cant": "Injectivity relates all pairs of levels.", "anchors": ["image_operations.h: Grayscale2RGB, hsv2rgb"]}
{"id": "C105", "title": "Gaussian filtering keeps the picture in place", "statement": "imgaussfilt returns a picture of the same size in which every pixel is the average of its neighbourhood in the picture extended beyond its border (mirrored, constant or replicated), with bell-curve weights that are positive, sum to one and fall off with the distance from the pixel itself.", "quantifier": "every two-dimensional image, pair of sigmas, pair of window lengths for which the extension exists, and boundary condition", "why_tests_cant": "Ranges over all images, windows and real sigmas; a displacement of one pixel is invisible on smooth test pictures.", "anchors": ["image_operations.h: imgaussfilt, gaussianFigure1D, conv2"]}
{"id": "C106", "title": "Gaussian filtering averages", "statement": "Filtering creates no value outside the range of the picture, leaves pictures of one colour unchanged, is linear in the picture, and rejects non-planar images, empty windows and (when mirroring) windows that do not fit.", "quantifier": "every image, sigma, window and boundary condition", "why_tests_cant": "Range preservation and linearity relate all pictures and all real weights.", "anchors": ["image_operations.h: imgaussfilt"]}
{"id": "C107", "title": "Difference of Gaussians", "statement": "The automatic window is odd and spans two sigmas to each side; difference_of_gaussian is the pixelwise difference of the two filtered pictures, changes sign when the sigmas are swapped, and vanishes for equal sigmas and for pictures of one colour; images too small for a window are rejected.", "quantifier": "every image and pair of sigmas", "why_tests_cant": "Antisymmetry and vanishing relate all sigmas and pictures.", "anchors": ["image_operations.h: computeFilterSizeFromSigma, imgaussfilt, difference_of_gaussian"]}
{"id": "C108", "title": "Gaussian figures", "statement": "The one-, two- and three-dimensional Gaussian figures show the (product of) bell curves around their centre, sum to one when normalised, are at most one and symmetric; the elliptical figure shows a multiple of the bivariate normal density with the given variances and correlation, whatever the order in which its pixels are computed.", "quantifier": "every size, centre, deviation, correlation in (-1,1) and pixel order", "why_tests_cant": "Ranges over all sizes and real parameters and all schedules of the parallel loop.", "anchors": ["image_operations.h: gaussianFigure1D, gaussianFigure2D, gaussianFigure3D, normalDistribution1D"]}
{"id": "C109", "title": "Bilateral filtering", "statement": "bilateral_filter replaces each pixel by the mean of its window weighted by the range kernel of the value difference times the spatial kernel of the Euclidean distance to the centre, whatever the order in which pixels are processed; results stay within the range of the picture and pictures of one colour are unchanged.", "quantifier": "every image, kernels, window size, boundary condition and processing order", "why_tests_cant": "Ranges over all kernels, images and schedules; the wrong spatial distance affects only one side of the window.", "anchors": ["image_operations.h: bilateral_filter, bilateral_filter_detail, bilateral_filter_spatial_kernel, windowed_filter"]}
{"id": "C110", "title": "Pixelwise arithmetic between images", "statement": "Subtracting, multiplying, dividing and differencing two images (or lists of images) of one shape acts pixel by pixel and channel by channel: subtraction undoes addition, multiplication undoes division by images without zeros, negation changes the sign of every pixel. Images of different shape are rejected.", "quantifier": "every pair or list of images of one shape, every element type and channel count", "why_tests_cant": "Quantifies over all shapes, dimensions and element values.", "anchors": ["image_operations.h: subtract, multiplies, divides, negate, difference, pixelwise_multiplies"]}
{"id": "C111", "title": "Plane-by-plane application", "statement": "Applying an operation to each plane of a colour image gives an image whose planes are the operation applied to the planes of the input; two such applications compose; a failure on one plane or planes of different size give no result; building a multi-channel image from planes and splitting it are inverse.", "quantifier": "every colour or multi-channel image and every operation on planes", "why_tests_cant": "Quantifies over all operations and images.", "anchors": ["image_operations.h: apply_each, apply_each_single_output, apply_each_pixel, constructMultiChannel, getPlane"]}
{"id": "C112", "title": "Bicubic resizing", "statement": "copyResizeBicubic returns a picture of the requested size in which every pixel is the bicubic value of the input (border pixels continued) at the proportional position; original pixels are kept when enlarging by whole factors or resizing to the same size, and pictures of one colour stay so, whatever the order of the parallel loop.", "quantifier": "every image, element type, target size and schedule", "why_tests_cant": "Ranges over all images, sizes and schedules; the loss of the fraction in integer arithmetic yields plausible pictures.", "anchors": ["image_operations.h: copyResizeBicubic, bicubicPolate, cubic_interpolate"]}
{"id": "C113", "title": "Lanczos resampling", "statement": "lanczos_resample returns the picture of the requested size in which every pixel is the average of the surrounding pixels (border pixels continued) weighted by the Lanczos window around the pixel-centre position; the total weight never vanishes, the kernel is one at zero and zero at the other integers, so resampling to the same size is the identity and pictures of one colour stay so; images that are not planar are rejected.", "quantifier": "every image, target size, number of lobes and processing order", "why_tests_cant": "The total weight being positive is a statement about all real positions and all lobe counts.", "anchors": ["image_operations.h: lanczos_resample, lanczos_kernel"]}
{"id": "C114", "title": "Normalising", "statement": "normalize maps the values of an image linearly onto [0, 1]: the least value to zero, the greatest to one, keeping the order.", "quantifier": "every non-empty image", "why_tests_cant": "Quantifies over all images; an image of one value is the case a test tends to omit.", "anchors": ["image_operations.h: normalize, max, min, subtract, divides"]}
{"id": "C115", "title": "Commands that reduce data to a number", "statement": "The commands max, min and sum store (or print, when no output is named) the greatest, least and total value of an image or container of numbers, channel by channel for colour images, whatever execution policy is chosen; they change at most the named variable, and a missing variable changes nothing.", "quantifier": "every session, image or container, output name, policy and grouping of the parallel reduction", "why_tests_cant": "The reduction order of std::reduce is unspecified and the data unbounded.", "anchors": ["main.h: MetaScalarHandler, handlers::max, handlers::min, handlers::sum"]}
{"id": "C116", "title": "Commands add and subtract", "statement": "add and subtract store the pixelwise sum or difference of two images of one type and size in the arithmetic of the pixel type; subtracting and adding again restores the image; add does not depend on the order of its operands; images of different size or type change nothing, and at most the named output changes.", "quantifier": "every session and every pair of stored values", "why_tests_cant": "Quantifies over all pixel values, sizes, types and sessions.", "anchors": ["main.h: handlers::add, handlers::subtract", "image.h: operator+=, operator-="]}
{"id": "C117", "title": "Commands count and replace", "statement": "count stores or prints how many elements equal the given value; replace stores the data with the value exchanged exactly where it occurred, so that counting it afterwards gives zero; the value may be a literal or a variable; at most the named output changes.", "quantifier": "every session, container or image, literal or variable, and policy", "why_tests_cant": "Ranges over all element values and all pairs of number types.", "anchors": ["main.h: handlers::count, handlers::replace, parse_arg", "image_operations.h: count, replace"]}
{"id": "C118", "title": "Commands constructRGB and grid", "statement": "constructRGB stores the colour image with the three given planes as channels and rejects planes of different size; grid stores a picture that is black exactly on the lines of the grid and white elsewhere; both independent of the execution policy and of the order in which the pixels are processed.", "quantifier": "every session, all planes and sizes, every processing order", "why_tests_cant": "Quantifies over all schedules and sizes.", "anchors": ["main.h: handlers::construct_rgb, handlers::grid_generator"]}
{"id": "C119", "title": "Distances between images and points", "statement": "euclidean_distance of two images or points of one size is the Euclidean distance of their values: never negative, zero exactly for equal arguments, symmetric and obeying the triangle inequality; images of different size are rejected. manhattan_distance of two images is the sum of the absolute differences, channel by channel for colour images, for every execution policy; the manhattan_distance command stores or prints that value and changes at most the named variable.", "quantifier": "every pair (or triple) of images or points, every element type that compiles, every grouping of the parallel reductions, every session of the command line", "why_tests_cant": "The metric laws range over all images of all sizes and the reduction order is unspecified.", "anchors": ["image_operations.h: euclidean_distance, EuclideanDistance, manhattan_distance", "base_types.h: Point", "main.h: handlers::manhattan_distance"]}
{"id": "C120", "title": "Elementary functions of images", "statement": "sin, cos, tan, cot, sec, csc, asin, acos, pow, abs and the construction of complex images act on every pixel and channel separately and give the value of the mathematical function wherever it is defined; sort returns the same pixels in ascending order.", "quantifier": "every image of every size, every pixel value, one or several channels, real and complex elements", "why_tests_cant": "The claim is about all real or complex pixel values and all sizes.", "anchors": ["image_operations.h: sin, cos, tan, cot, sec, csc, asin, acos, pow, abs, to_complex, generate_complex_image, sort"]}
{"id": "C121", "title": "Generated images", "statement": "zeros, ones and constant images hold the constant in every pixel of the requested shape and are neutral for addition and multiplication; generate, rand and randi call the generator once per pixel in row-major order, and the values of randi and rand lie in the requested range.", "quantifier": "every list of sizes, every generator function and state, every range", "why_tests_cant": "Generators and sizes are arbitrary; the order of calls is only visible for stateful generators.", "anchors": ["image_operations.h: zeros, ones, generate, rand, randi"]}
{"id": "C122", "title": "Sign and size tests", "statement": "all_positive, any_negative, none_zero and the related tests hold exactly if all, some or none of the pixels have the sign; the width, height and size tests hold exactly if the sizes agree, and the checking versions throw otherwise.", "quantifier": "every image of every size, every ordered element type", "why_tests_cant": "The tests quantify over all pixels.", "anchors": ["image_operations.h: all_positive, any_positive, none_positive and relatives, is_width_same, is_height_same, is_size_same, check_width_same, check_height_same"]}
{"id": "C123", "title": "Volumetric images", "statement": "Reading and writing a voxel addresses exactly one element and out-of-range coordinates throw; a volume built from data or from a vector of pictures holds them layer by layer; plus, multiplies, divides, modulus, negate and scaling act voxel by voxel for volumes of one size.", "quantifier": "every volume of every size, every voxel position, every number of layers or operands", "why_tests_cant": "All sizes and positions; addressing errors show only for particular shapes.", "anchors": ["cube.h: VolumetricImage", "cube_operations.h: voxelwiseOperation, plus, multiplies, divides, modulus, negate"]}
{"id": "C124", "title": "Pixel and point arithmetic", "statement": "Adding and subtracting pixels or points acts channel by channel (coordinate by coordinate), modulo 256 for 8-bit channels and modulo 2^64 for unsigned coordinates; subtraction undoes addition; addition is commutative and associative. HSV pixels are totally ordered, consistently with equality. The text of an RGB pixel determines the pixel.", "quantifier": "every pair (or triple) of pixels, channel arrays or points of every dimension", "why_tests_cant": "All channel values, including those that wrap; order laws quantify over triples.", "anchors": ["base_types.h: RGB, RGB_DOUBLE, HSV, MultiChannel, Point operators", "basic_functions.h: to_string"]}
{"id": "C125", "title": "Summing components and multi-argument hypot", "statement": "sum_first_element, sum_second_element and sum_n_th_element combine the chosen component of every entry exactly once; with an execution policy the result is the left-to-right one whenever the function is associative and commutative. hypot of any number of arguments is the root of the sum of the squares.", "quantifier": "every list of tuples, every combining function and grouping of the reduction, every list of reals", "why_tests_cant": "The grouping of a parallel reduction is unspecified.", "anchors": ["basic_functions.h: sum_first_element, sum_second_element, sum_n_th_element, hypot"]}
{"id": "C126", "title": "Butterworth fisheye", "statement": "Each pixel moves along its ray from the image centre by the Butterworth factor of its distance; the output has the size of the input, every pixel moved stays inside, and where several pixels land on one position the last in row order wins; positions no pixel lands on keep the fill value. The centre stays fixed.", "quantifier": "every image of every size, every cutoff D0 > 0 and order N >= 0", "why_tests_cant": "The property ranges over all sizes and real parameters, and the last-writer rule over all collisions.", "anchors": ["image_operations.h: butterworth_fisheye"]}
{"id": "C127", "title": "The subimage command", "statement": "subimage $v $d x y w h stores the w by h window of the image v whose top left pixel is (x, y), for every execution policy, and changes nothing else; a window that does not lie inside the image is reported as an error and nothing changes; wrong argument counts, texts that are no numbers and unknown variables change nothing.", "quantifier": "every session, every stored image, every offset and size, every policy word and order of the indices", "why_tests_cant": "Offsets range over all 64-bit values and the schedule of the parallel loop is unspecified.", "anchors": ["main.cpp: handlers::subimage", "main.h: MetaTransformHandler"]}
{"id": "C128", "title": "Inspecting and writing variables", "statement": "info, print and vars change nothing; info shows width and height of the stored image, print shows the stored value, vars lists every variable exactly once with its value in alphabetical order; write hands the stored image to the file writer and leaves all variables as they are.", "quantifier": "every session and history of the workspace, every stored value, every argument list", "why_tests_cant": "The listing must be right after every history of stores, removals and renames.", "anchors": ["main.cpp: handlers::info, handlers::print, handlers::vars, handlers::write", "main.h: Workspace::list_variables"]}
{"id": "C129", "title": "The rand command", "statement": "rand with a known generator name stores an image of the requested sizes whose values are the first draws of the generator in row-major order and changes nothing else; an unknown generator or a missing size changes nothing; a size that is no number is an error.", "quantifier": "every session, every list of sizes, every generator and seed", "why_tests_cant": "Seeds are random and sizes arbitrary.", "anchors": ["main.cpp: handlers::rand_generator, RandomGenerator", "image_operations.h: generate"]}
{"id": "C130", "title": "From two photographs to a homography", "statement": "find_stitch_homography looks for key points on the brightness (largest channel) of both images, describes every one, and pairs the descriptors that are each other's nearest within the ratio of squared Euclidean distances. Without key points or with fewer than four pairs it reports failure by the empty matrix; otherwise it returns the model solved from all inliers of a sampled model of least cost, or that sampled model itself when there are fewer than four inliers or the solver fails. imstitch gives the empty image for an empty or singular homography. When no model is found at all, failure is reported in the same way.", "quantifier": "every pair of images, every detector result, every random sample sequence and threshold", "why_tests_cant": "Detected points, samples and images are arbitrary.", "anchors": ["image_operations.h: find_stitch_homography, squared_euclidean_distance, imstitch"]}
{"id": "C131", "title": "Drawing matches", "statement": "draw_matches shows the two images side by side at the larger height, and for every match marks the places of its two key points with discs in one colour and joins them by a line; pixels off the marks keep the image; later matches may cover earlier ones, and nothing else does.", "quantifier": "every pair of images, every list of key points and matches, every colour sequence, every order of the parallel loops", "why_tests_cant": "Overlaps of marks and clipping at the borders depend on all matches together.", "anchors": ["image_operations.h: draw_matches, draw_point, draw_line"]}
{"id": "C132", "title": "Plugins add commands and change none", "statement": "Loading a plugin directory leaves every command that exists as it is; any other name belongs to the first command registered under it, in the order in which the files are visited, by a file with a module's extension that can be opened and exports the entry point; every other file is skipped without affecting the rest. The program's own commands keep schema and handler through every session, and the shipped plugins all become available in whatever order they are found. The result does not depend on the order of the files.", "quantifier": "every command table, every directory content in every order, every session", "why_tests_cant": "Directory contents, their order and what plugins do are unknown to the program's author.", "anchors": ["main.cpp: load_plugins, command_registration, main", "main.h: CommandRegistry::register_command", "plugin_math.cpp", "plugin_math_add.cpp", "plugin_replace.cpp"]}
{"id": "C133", "title": "Library handles", "statement": "At every moment of every session each library handle that was opened is owned by exactly one object or has been closed exactly once; when the program ends normally every handle has been closed exactly once. The code of every registered command stays loaded as long as the command can be run and until it is destroyed.", "quantifier": "every sequence of directory loads and commands, every failure of opening, symbol lookup and registration, every growth of the container of libraries", "why_tests_cant": "Failure points and container growth combine with every history.", "anchors": ["dynamic_loader.h: DynamicLibrary", "main.cpp: load_plugins, main"]}
{"id": "C134", "title": "Commands on the command line", "statement": "A command given on the command line has the effect of the same words typed as a line in the interactive mode, and the exit status tells whether it worked.", "quantifier": "every command, argument list, plugin directory and session state", "why_tests_cant": "Ranges over all commands and their failures.", "anchors": ["main.cpp: main, run_interactive_mode", "main.h: CommandRegistry::execute"]}
{"id": "C135", "title": "Warping on the graphics processor", "statement": "The image warped on the graphics processor does not depend on the order in which its threads run, every pixel is computed by exactly one thread, no buffer is accessed outside, and the result is that of the host version with bicubic interpolation.", "quantifier": "every source image, homography, output size within the device limits, every order of the threads", "why_tests_cant": "Thread orders cannot be enumerated by running, and a device is not available to tests.", "anchors": ["image_operations_cuda.cu: warp_perspective_kernel, get_pixel_bicubic_device, warp_perspective_cuda_wrapper", "image_operations_cuda.h: warp_perspective"]}
{"id": "C136", "title": "Device memory", "statement": "Each buffer allocated on the graphics processor is released exactly once whichever call of its library fails, and a failure never yields an image.", "quantifier": "every pattern of failing calls", "why_tests_cant": "Failing calls cannot be provoked by tests.", "anchors": ["image_operations_cuda.cu: warp_perspective_cuda_wrapper"]}
{"id": "C137", "title": "Stitching on the graphics processor", "statement": "The stitched image does not depend on the order of the threads nor of the blending loop, and it is the image that stitching on the host gives.", "quantifier": "every pair of images and homography whose canvas fits the device, every schedule", "why_tests_cant": "All schedules and all images.", "anchors": ["image_operations_cuda.h: create_stitched_image, warp_perspective", "image_operations_cuda.cu: warp_perspective_cuda_wrapper"]}
{"id": "C138", "title": "Cosine transform commands", "statement": "The commands dct2 and idct2 store the cosine transform of the stored image and its inverse, undo each other on every floating-point image, and together with im2uint8 give 8-bit and colour images back; each transformation command changes at most its output, and does nothing for missing or unsuitable inputs.", "quantifier": "every image of one or three channels, session, argument list and policy words", "why_tests_cant": "All images and sessions.", "anchors": ["main.h: dct2, idct2", "main.h: MetaTransformHandler", "image_operations.h: dct2, idct2"]}
{"id": "C139", "title": "Resizing commands", "statement": "bicubic_resize and lanczos_resample store an image of the asked size whose pixels are the bicubic values or the Lanczos averages at the proportional positions, whatever the policy and the order of the pixels; resampling to the same size is the identity; malformed arguments change nothing.", "quantifier": "every image, target size, radius, order of the pixels, session", "why_tests_cant": "All images, sizes and schedules.", "anchors": ["main.h: bicubic_resize", "main.cpp: lanczos_resample", "image_operations.h: copyResizeBicubic, lanczos_resample"]}
{"id": "C140", "title": "Conversion and plane commands", "statement": "im2double followed by im2uint8 gives the stored image back, getRplane, getGplane and getBplane store the channels, hsv2rgb undoes the conversion to HSV, and images of other types are refused without any change.", "quantifier": "every image, session and argument list", "why_tests_cant": "All images and sessions.", "anchors": ["main.h: im2double, im2uint8, getRplane, getGplane, getBplane, hsv2rgb", "image_operations.h: im2double, im2uint8, getPlane, hsv2rgb"]}
{"id": "C141", "title": "Variable commands", "statement": "copy makes the target hold the value of the source; remove deletes exactly the variables it names and remove all empties the workspace; rename moves a value; read stores the image of a file in the named variable, or in the variable named like the file without directory and extension; nothing else changes, and malformed arguments or unreadable files change nothing.", "quantifier": "every session, variable name, argument list, path and file content", "why_tests_cant": "All sessions and names.", "anchors": ["main.h: copy, read", "main.cpp: remove, rename"]}
{"id": "C142", "title": "Commands zeros and ones", "statement": "zeros and ones store or write an image of exactly the given sizes, in any number of dimensions, with every pixel zero or one; sizes that are zero or no numbers create nothing.", "quantifier": "every list of sizes, session and output argument", "why_tests_cant": "All lists of sizes, including those whose product exceeds 64 bits.", "anchors": ["main.h: create_image_with_initial_value", "main.cpp: zeros, ones"]}
{"id": "C143", "title": "Rotation by any angle", "statement": "Rotating a two-dimensional image by an angle gives an image of the size of the turned picture, large enough that no source pixel centre is cut off and no larger than the bounding rectangle needs; each pixel is the interpolated value at the point turned back about the centres, or zero outside the source; whole turns give the image back.", "quantifier": "every image, pixel value and real angle", "why_tests_cant": "All angles and sizes.", "anchors": ["image_operations.h: rotate_detail_shear_transformation, bicubic_interpolate"]}
{"id": "C144", "title": "Commands rotate and normalize", "statement": "rotate $v $d angle stores the turned image for grey, byte and colour images, colour images channel by channel, and keeps the pixel type; normalize stores the pixels scaled to the range from 0 to 1; malformed angles, missing variables and images of integers change nothing.", "quantifier": "every session, image, angle and argument list", "why_tests_cant": "All images and angles.", "anchors": ["main.cpp: handlers::rotate", "main.h: handlers::normalize"]}
{"id": "C145", "title": "Octaves of differences of Gaussians", "statement": "An octave with n levels consists of n - 1 images; image i is the picture smoothed with sigma k^i minus the picture smoothed with sigma k^(i+1), whatever the order of the parallel iterations, and the images add up to the difference between the first and the last smoothing; sift_generate_octave stores exactly these images, for grey and for colour images, with 5, 1.6 and the square root of 2 for arguments that are left out; malformed arguments change nothing.", "quantifier": "every image, number of levels, sigma, k, schedule and session", "why_tests_cant": "All images, levels and schedules.", "anchors": ["image_operations.h: SIFT_impl::generate_octave, difference_of_gaussian", "main.cpp: handlers::sift_generate_octave"]}
{"id": "C146", "title": "Commands dct3, to_complex and gaussian_figure_2d", "statement": "dct3 stores the planes of the three-dimensional cosine transform of a container of images; to_complex stores the pixels as complex numbers without imaginary part and leaves complex images alone; gaussian_figure_2d stores the sampled bell curve; unsuitable data and malformed arguments change nothing.", "quantifier": "every session, stack of images, image, size, centre and sigma", "why_tests_cant": "All stacks and images.", "anchors": ["main.h: handlers::dct3, handlers::gaussian_figure_2d", "main.cpp: handlers::to_complex"]}
{"id": "C147", "title": "Command get_sift_potential_keypoint", "statement": "get_sift_potential_keypoint $v $d [octaves levels sigma k contrast edge resampling] stores exactly one point for every pixel of the difference-of-Gaussians levels of an octave that is a strict extremum among its 26 neighbours and above the contrast threshold: its refined location in pixels of the whole picture. Octaves are halved with the named resampling method; what is left out has the documented default; policy words may stand anywhere and change only the order (without one, or with seq last, the points come octave by octave and level by level); an unknown method, malformed numbers and unsuitable images change nothing.", "quantifier": "every session, argument list, picture, number of octaves and levels, sigma, k, threshold and schedule", "why_tests_cant": "All pictures and schedules.", "anchors": ["main.h: handlers::get_sift_potential_keypoint", "image_operations.h: SIFT_impl::get_potential_keypoint, generate_octave, copyResizeBicubic, lanczos_resample"]}
{"id": "C148", "title": "Command abs", "statement": "abs $v $e stores the element-by-element absolute value of an image or container of numbers or of a three-channel image in e, with the type and size of v, and changes nothing else; policy words and the order in which a policy visits the elements make no difference. Missing arguments, unknown variables and variables of other types change nothing.", "quantifier": "every session, argument list, image or container of numbers, policy and visiting order", "why_tests_cant": "All element values and schedules.", "anchors": ["main.h: handlers::abs", "image_operations.h: abs", "basic_functions.h: generic_abs, recursive_transform"]}
{"id": "C149", "title": "Gaussian filter in turned directions", "statement": "The Gaussian filter with an angle returns a picture of the size of the input: the input turned by the angle, smoothed with the two standard deviations along the axes with the chosen boundary condition, turned back and cut around the middle; for whole turns it is the plain filter, pictures with several channels are filtered channel by channel, and images that are not two-dimensional or standard deviations that are not positive are refused. Constant pictures stay constant.", "quantifier": "every picture, angle, pair of standard deviations, window sizes and boundary condition", "why_tests_cant": "All pictures and angles.", "anchors": ["image_operations.h: imgaussfilt (with radians), rotate_detail_shear_transformation, subimage"]}
{"id": "C150", "title": "Parallel loops have no data races", "statement": "The loops that run under OpenMP or an execution policy access memory without data races, stay inside the images and give the result of the sequential loop, however the reads and writes of the iterations interleave: flips, transpose, cutting out a rectangle, nearest-neighbour resizing, functions applied to every pixel, filters over windows and the search for extrema.", "quantifier": "every image, every interleaving of the single reads and writes of all iterations", "why_tests_cant": "Races depend on the schedule; a test sees a few schedules on one machine.", "anchors": ["image_operations.h: flip_horizontal, flip_vertical, flip_horizontal_vertical, transpose, subimage2, resize_nearest_neighbor, apply_each_pixel, apply_each_pixel_openmp, windowed_filter, find_local_extrema"]}
{"id": "C151", "title": "Nearest-neighbour resizing in double precision", "statement": "With every operation rounded to double, resizing with resize_nearest_neighbor never reads outside the input, each result pixel is the pixel at the proportional position, keeping the size changes nothing, and enlarging by whole factors and shrinking back restores the picture.", "quantifier": "every non-empty picture of up to 2^53 columns and rows, every new size up to 2^52, every order of the loop", "why_tests_cant": "The rounded ratio times the column can fall on either side of a whole number; only a bound on rounding errors covers all sizes.", "anchors": ["image_operations.h: resize_nearest_neighbor"]}
{"id": "C152", "title": "Weighted means of 8-bit values in double precision", "statement": "With every operation rounded to double, bilinear sampling and blending of 8-bit values give a value between the smallest and the largest value involved, and at pixel positions the pixel itself.", "quantifier": "every 8-bit picture, every position, every width and column, every pair of values", "why_tests_cant": "The final truncation turns the smallest rounding error into a different level; a test sees a few weights.", "anchors": ["image_operations.h: bilinear_interpolate, create_stitched_image"]}
{"id": "C153", "title": "RGB to HSV and back in double precision", "statement": "With every operation rounded, the hue of every pixel is defined and below 360, converting back succeeds, keeps the brightest and the darkest level, and leaves greys alone.", "quantifier": "every RGB pixel, every arc cosine accurate to 2^-50, every precision of long double from 53 bits", "why_tests_cant": "The argument of the arc cosine could leave its domain and the hue could reach 360 for single pixels among 16 million, depending on the library.", "anchors": ["image_operations.h: rgb2hsv, hsv2rgb"]}
{"id": "C154", "title": "Orientation bins in double precision", "statement": "With every operation rounded to double, every angle atan2 can return falls into one of the 37 bins of the orientation histogram and one of the 8 bins of the descriptor.", "quantifier": "every angle from -pi to pi as rounded to double", "why_tests_cant": "One rounding up at the largest angle would write beyond the histogram; that angle occurs for single gradients.", "anchors": ["image_operations.h: get_orientation_histogram, get_keypoint_descriptor"]}
{"id": "C155", "title": "Normalising in double precision", "statement": "With every operation rounded to double, normalising maps the smallest value to 0, the largest to 1, every value into the range from 0 to 1, and never reverses the order of two values.", "quantifier": "every smallest and largest value, every value between", "why_tests_cant": "Rounding could push a quotient above 1 for some triple of doubles.", "anchors": ["image_operations.h: normalize"]}
{"id": "C156", "title": "Quarter turns in double precision", "statement": "Turning a picture by the double nearest to a quarter turn exchanges its width and height.", "quantifier": "every angle of type double; pictures of every size", "why_tests_cant": "Whether the comparison with half of pi succeeds depends on the precision of long double on the machine.", "anchors": ["image_operations.h: rotate_detail_shear_transformation"]}
{"id": "C157", "title": "Bicubic resizing with rounded positions", "statement": "With positions computed in float or double, copyResizeBicubic of 8-bit pictures never reads outside the input and each result pixel is the pixel at the proportional position.", "quantifier": "every non-empty 8-bit picture, every new size, every order of the loop, every precision from 2 bits", "why_tests_cant": "float represents every column number only up to 2^24; rounding affects the bound of the columns as well.", "anchors": ["image_operations.h: copyResizeBicubic, bicubicPolate"]}
{"id": "C158", "title": "Sampling at every position a double can hold", "statement": "Bilinear and bicubic sampling give a value at every position, zero outside of the picture, also for infinite and NaN positions.", "quantifier": "every picture of up to 2^53 columns and rows, every pair of numbers, infinities and NaN", "why_tests_cant": "Infinities and NaN defeat comparisons; tests use ordinary positions.", "anchors": ["image_operations.h: bilinear_interpolate, default_bicubic_interpolator, cubic_kernel"]}
{"id": "C159", "title": "Rotation by every angle a double can hold", "statement": "Rotation by any angle, and the rotate command with any number it accepts, returns a picture: unchanged, turned by a quarter, or sampled at the positions turned back, never larger than width plus height in either direction.", "quantifier": "every 8-bit picture and every picture of doubles of fewer than 2^32 columns plus rows, every angle including infinities and NaN, every accuracy of the library functions", "why_tests_cant": "An overflow or a NaN in the size computation happens for single angles; the library functions differ between systems.", "anchors": ["image_operations.h: rotate_detail_shear_transformation", "main.cpp: handlers::rotate", "main.h: parse_arg"]}
{"id": "C160", "title": "Perspective warp for every matrix of doubles", "statement": "Warping with any non-empty 3 x 3 matrix returns a picture of the requested size whose pixels are zero where the denominator vanishes and samples at the quotients elsewhere.", "quantifier": "every 8-bit picture, every matrix of doubles, every frame, every order of the pixels", "why_tests_cant": "Overflow and NaN arise for matrices from degenerate matches, which tests do not contain.", "anchors": ["image_operations.h: warp_perspective"]}
{"id": "C161", "title": "Histogram objects", "statement": "A Histogram built from an image holds for every level the number of pixels of that level; addCount adds one to one level; all ways of reading a count agree; h[k] = c stores c and changes no other count; size() is the number of levels.", "quantifier": "every element type, every image, every history of additions, reads and writes", "why_tests_cant": "The container is chosen by the element type and the defects depend on what was read before.", "anchors": ["histogram.h: Histogram, addCount, getCount, operator[], size, to_vector"]}
{"id": "C162", "title": "Loops over a Histogram", "statement": "A range-for over a Histogram visits every entry once.", "quantifier": "every histogram, every loop body", "why_tests_cant": "Reading freed memory usually looks correct in a test.", "anchors": ["histogram.h: begin, end, cbegin, cend"]}
{"id": "C163", "title": "Otsu threshold of an image", "statement": "otsu_threshold of an image of unsigned elements returns a level that separates the dark and the bright pixels best, counted and averaged over the pixels themselves.", "quantifier": "every image with at least one pixel, every grouping of the sums", "why_tests_cant": "Optimality over all levels for all images.", "anchors": ["image_operations.h: otsu_threshold", "histogram.h: Histogram"]}
{"id": "C164", "title": "Normalising a map of counts", "statement": "normalize_histogram of a map keeps the levels and gives each its share of the total.", "quantifier": "every map, every width of the count type", "why_tests_cant": "The wrap of the total happens only for large counts.", "anchors": ["image_operations.h: normalize_histogram"]}
{"id": "C165", "title": "Colour forms act channel by channel", "statement": "Convolution, the fisheye lens, the bilateral filter, bilinear sampling and rotation of a colour picture give in every channel what the one-channel form gives for that channel; an integer strength or angle means that number.", "quantifier": "every colour picture with a pixel, every kernel, strength, window, position and angle, every order", "why_tests_cant": "A swapped or repeated channel shows only for particular pictures.", "anchors": ["image_operations.h: conv2, gaussian_fisheye, bilateral_filter, bilinear_interpolate, rotate, apply_each"]}
{"id": "C166", "title": "Default comparison of patches", "statement": "The default distance of two patches is the mean of their squared differences, symmetric, never negative, zero exactly for equal patches; the default weight lies in (0, 1], is 1 exactly for distance 0 and falls strictly.", "quantifier": "every picture, every two centres, every patch size, every grouping of the sum", "why_tests_cant": "A metric law quantifies over all pairs of patches.", "anchors": ["image_operations.h: DefaultPatchDistance, DefaultWeightCalculation"]}
{"id": "C167", "title": "Centre pixel", "statement": "get_center_pixel returns the pixel at half of every size.", "quantifier": "every picture of any number of dimensions", "why_tests_cant": "Empty pictures and odd sizes in many dimensions.", "anchors": ["image_operations.h: get_center_pixel, get_center_location"]}
{"id": "C168", "title": "Rotation in degrees", "statement": "Turning by k times 90 degrees makes k quarter turns; whole turns change nothing.", "quantifier": "every picture, every integer k", "why_tests_cant": "All multiples of the angle.", "anchors": ["image_operations.h: rotate_degree, rotate, rotate_detail_shear_transformation_degree"]}
{"id": "C169", "title": "Differences of ranges", "statement": "difference of two ranges of integers gives the absolute differences.", "quantifier": "every two ranges, every integer type, every order of execution", "why_tests_cant": "The overflow happens for extreme pairs only.", "anchors": ["image_operations.h: difference"]}
{"id": "C170", "title": "LaTeX output", "statement": "print_with_latex and print_with_latex_to_file write one line for each pixel, row by row, between the opening and the closing line, and the text determines the picture.", "quantifier": "every 8-bit colour picture", "why_tests_cant": "Losslessness quantifies over all pairs of pictures.", "anchors": ["image_operations.h: print_with_latex, print_with_latex_to_file"]}
{"id": "C171", "title": "Conversions of the element type", "statement": "to_double, to_string and to_complex convert every element on its own and keep the size; the strings of integers read back as the integers.", "quantifier": "every picture, every order of execution", "why_tests_cant": "All values and all sizes.", "anchors": ["image_operations.h: to_double, to_string, to_complex"]}
{"id": "C172", "title": "Command estimate_gaussian_params_2d", "statement": "estimate_gaussian_params_2d $v $d [iterations [tolerance]] stores a bump with positive widths and a correlation strictly between -1 and 1: the starting bump (first brightest pixel and second moments), or one with a strictly smaller squared error. Policy words may stand anywhere and change nothing; one more iteration never makes the result worse; malformed numbers, unknown variables, containers and images of truth values, colours or complex numbers change nothing.", "quantifier": "every session, argument list, picture, iteration count, tolerance and schedule", "why_tests_cant": "All pictures, sessions and reduction orders.", "anchors": ["main.h: handlers::estimate_gaussian_params_2d, MetaScalarHandler", "image_operations.h: estimate_gaussian_parameters_2d"]}
{"id": "C173", "title": "Printing an image", "statement": "Printing an image (print, operator<<) with any number of dimensions writes every pixel once in the order of storage: each followed by the separator, an end of line after every part of a higher dimension and one more after its last part. Images with the same number of dimensions and with pixels that print the same text are equal.", "quantifier": "every image, number of dimensions, element text and separator that can be told apart", "why_tests_cant": "All dimensions and sizes.", "anchors": ["image.h: Image::print, print_recursive_helper, operator<<"]}
{"id": "C174", "title": "Printing a nested container", "statement": "recursive_print writes every element once, from left to right, on its own line indented by its depth, and a line announcing each container; containers of the same type that print the same text are equal.", "quantifier": "every nested container, depth and starting level", "why_tests_cant": "All depths and shapes.", "anchors": ["basic_functions.h: recursive_print"]}
{"id": "C175", "title": "The cosine transform in double precision gives an 8-bit picture back", "statement": "dct2, idct2 and im2uint8 one after the other give an 8-bit picture back when every operation rounds to double. (What holds: coefficients and pixels stay within stated distances of the exact ones, the conversion is defined, and each level is the original one or one less.)", "quantifier": "every 8-bit picture up to 1024 x 1024, every order of the parallel loops, every cosine accurate to 2^-52", "why_tests_cant": "Rounding errors of up to a million terms for every picture.", "anchors": ["image_operations.h: dct3_one_plane, idct3_one_plane, dct2, idct2, im2uint8"]}
{"id": "C176", "title": "Files can be read and written any number of times", "statement": "Whatever files a process has read and written before, a file that is there reads as its picture and a writable name can be written: no call uses up the files the process may have open. (What holds: sequences with fewer reads than the number of files that may still be opened; writing, and reading .dbmp and .hsv files, closes what it opens.)", "quantifier": "every sequence of calls, every file system, every limit on open files", "why_tests_cant": "Tests read a few files; the failure needs as many calls as the process may open files.", "anchors": ["image_io.cpp: bmp_file_read, bmp_read, bmp_read_x_size, bmp_read_y_size, bmp_read_detail, double_image::read, hsv_read, bmp_write, double_image::write, hsv_write_detail"]}
{"id": "C177", "title": "Progress reports of the windowed and bilateral filters", "statement": "A progress callback gets strictly increasing fractions in (0, 1], at least one report step apart, at most 199 times, whatever the schedule; when the filter is done the last fraction reported is above 0.99; reporting cannot block the filter. (That the last report is 1 holds for fewer than 200 pixels only.)", "quantifier": "every number of pixels, every interleaving of the threads, every value a relaxed load may return", "why_tests_cant": "Tests see one schedule; the double-checked report is only wrong under particular interleavings.", "anchors": ["image_operations.h: windowed_filter, bilateral_filter"]}
{"id": "C178", "title": "Function objects that lock a mutex", "statement": "With std::execution::seq and std::execution::par, recursive_transform, pixelwise_transform, find_raw_matches and find_keypoint_matches never run into undefined behaviour, never leave their threads waiting for each other and always end, whatever the threads do in between: the transformed container holds f of each element in its place, and the matches are those found by handling the descriptors one after the other in some order; with any policy every order of the descriptors can occur. (The same is expected of unseq and par_unseq.)", "quantifier": "every container, every list of descriptors, every placement of the calls on threads and every interleaving of their steps", "why_tests_cant": "Tests run few schedules, and a lock taken twice by one thread shows only under particular interleavings.", "anchors": ["basic_functions.h: recursive_transform", "image_operations.h: pixelwise_transform, find_raw_matches, find_keypoint_matches"]}
{"id": "C179", "title": "Sums and means of floating pictures", "statement": "Whatever order and grouping std::reduce chooses, sum of a float or double picture of n pixels differs from the exact sum by at most (1+2^-p)^n-1 times the sum of the absolute values, and mean by at most (1+2^-p)^(n+1)-1 times the mean of the absolute values; for whole pixel values (or whole multiples of one power of two) whose sum fits into p bits the sum is exact, so it does not depend on the schedule, and the mean is the exact mean rounded once and lies between the smallest and the largest pixel. (Expected in general: a result that does not depend on the schedule, and a mean between the smallest and the largest pixel.)", "quantifier": "every picture of floating pixels, every order and grouping of the additions, every precision", "why_tests_cant": "The number of groupings is exponential and rounding errors depend on every pixel.", "anchors": ["image_operations.h: sum, mean"]}
{"id": "C180", "title": "Convolution of floating pictures", "statement": "conv2 of float or double pictures gives, in whatever order the pixels are computed, the mathematical convolution up to (1+2^-p)^(n+1)-1 times the convolution of the absolute values, n being the number of products in one sum; it is exact for whole pixels and weights whose sums of absolute products fit into p bits; with is_size_same the numbers are the same ones, cropped. (Expected in general: swapping picture and kernel changes nothing.)", "quantifier": "every picture, every kernel, every order of the pixels, every precision", "why_tests_cant": "The error depends on all pixels and weights; tests look at a few pictures.", "anchors": ["image_operations.h: conv2"]}
{"id": "C181", "title": "Products of floating matrices", "statement": "multiply of float or double matrices is off by at most (1+2^-p)^(n+1)-1 times the product of the absolute values, n being the common size; exact for whole entries whose sums of absolute products fit into p bits; (A B) transposed equals B transposed times A transposed to the last bit, and a matrix times the identity is the same matrix to the last bit. (Expected in general: associativity.)", "quantifier": "every pair of matrices of matching sizes, every precision", "why_tests_cant": "The error depends on all entries.", "anchors": ["linear_algebra.h: multiply, transpose"]}
{"id": "C182", "title": "Distances of floating descriptors", "statement": "squared_euclidean_distance of two lists of n float or double numbers is the exact squared distance up to a relative error of (1+2^-p)^(n+3)-1 (no cancellation), never negative, zero exactly for equal lists, and the same whichever list comes first; the sequential call is one of the results permitted with an execution policy. (Expected: one result for all schedules.)", "quantifier": "every two lists of the same length, every order and grouping of the additions, every precision", "why_tests_cant": "The number of groupings is exponential, and zero for different descriptors would need a search.", "anchors": ["image_operations.h: squared_euclidean_distance"]}
{"id": "C183", "title": "Gaussian filtering in floating arithmetic", "statement": "imgaussfilt on float or double pictures without negative pixels, whatever order and grouping std::reduce and the execution policy choose: every pixel of the result is the average of the extended picture with weights proportional to the computed samples of the bell curve, up to 2(n1+n2)+4 roundings; so the brightness is kept up to those roundings however inaccurate std::exp is, and if std::exp is accurate to a factor r the result is the exact Gaussian average up to r^4 and those roundings. (Expected: a picture of one colour stays exactly as it is.)", "quantifier": "every picture without negative pixels, every window, every border treatment, every computed bell curve whose samples are not negative and not all zero, every order and grouping, every precision", "why_tests_cant": "The error depends on every pixel, the library function exp and the schedule.", "anchors": ["image_operations.h: imgaussfilt, gaussianFigure1D, normalDistribution1D, conv2, sum, divides"]}
{"id": "C184", "title": "Gaussian filtering with an integer sigma", "statement": "imgaussfilt(picture, 2) gives the same result as imgaussfilt(picture, 2.0), and difference_of_gaussian(picture, 1, 2) the same as difference_of_gaussian(picture, 1.0, 2.0): integer types are permitted by the constraint on SigmaT.", "quantifier": "every picture, every integer sigma from 1 to 32767, every window length up to 46340, every border treatment", "why_tests_cant": "The overload with an integer is never called by the tests, and one test would show one sigma only.", "anchors": ["image_operations.h: imgaussfilt, gaussianFigure1D, normalDistribution1D, divides, difference_of_gaussian"]}
{"id": "C185", "title": "Sums, means and convolutions of pictures with small integer elements", "statement": "sum and mean of an integer picture give the sum and the mean of its pixels, and conv2 of two integer pictures their convolution: the mean lies between the smallest and the largest pixel.", "quantifier": "every picture of unsigned numbers of any width and of ints, every order and grouping of std::reduce and of the pixels", "why_tests_cant": "Whether a sum wraps depends on all pixels, and whether an int overflows on the grouping as well.", "anchors": ["image_operations.h: sum, mean, conv2"]}
{"id": "C186", "title": "Variables filled by plugin commands at the end of the program", "statement": "A session that has loaded plugins and run their commands ends without running unloaded code, whatever variables are left in the workspace.", "quantifier": "every sequence of directory loads and commands, every content of the workspace", "why_tests_cant": "The crash happens after main and depends on the history and on which library the code of a value belongs to.", "anchors": ["main.cpp: main", "dynamic_loader.h: DynamicLibrary", "main.h: Workspace"]}
{"id": "C187", "title": "Smallest and largest value with infinities and NaN", "statement": "min and max of a picture of double are the smallest and the largest of the pixels that are not NaN, in whatever order the pixels come.", "quantifier": "every picture size, every content, including infinities and NaN", "why_tests_cant": "Comparisons with NaN are false, so the answer depends on where NaN stands; tests use numbers.", "anchors": ["image_operations.h: min", "image_operations.h: max"]}
{"id": "C188", "title": "Normalising with special values", "statement": "normalize maps a picture onto the numbers from 0 to 1, the smallest to 0 and the largest to 1, with every pixel a number.", "quantifier": "every picture size, every content, including infinities, NaN, pictures of one value and ranges that overflow", "why_tests_cant": "The special cases are contents no test writes, and one such pixel changes the whole picture.", "anchors": ["image_operations.h: normalize"]}
{"id": "C189", "title": "Counting, replacing and converting special values", "statement": "count and replace find exactly the pixels that hold the given value, under every schedule, and im2uint8 gives a byte for every pixel.", "quantifier": "every picture, every value including infinities and NaN, every schedule", "why_tests_cant": "NaN is not equal to itself, and converting a value outside the bytes is undefined, which no test can observe.", "anchors": ["image_operations.h: count", "image_operations.h: replace", "image_operations.h: im2uint8"]}
{"id": "C190", "title": "A variable changes only when a line names it", "statement": "During a session a variable keeps its value, and keeps existing or missing, as long as no word of the lines refers to it: as $name, as the file that read loads under its own name, or as the word all. This covers every command of the program and of the shipped plugins except load_workspace, transform_container and those that do not use the workspace, on success and on failure, with pipes and after the optimiser.", "quantifier": "every sequence of lines, every workspace, every variable except the pipe variables of the program, every argument list, every file content", "why_tests_cant": "A side effect on an unrelated variable shows only in the combination of commands, arguments and names that causes it.", "anchors": ["main.cpp: run_interactive_mode", "main.cpp: PipelineOptimizer", "main.h: CommandRegistry", "main.h: handlers"]}
{"id": "C191", "title": "A file is written only when a line names it", "statement": "During a session a file keeps its content, and keeps existing or missing, as long as no word of the lines is its path. This covers the same commands as C190, on success and on failure, with pipes and after the optimiser.", "quantifier": "every sequence of lines, every state of the files, every file, every argument list", "why_tests_cant": "Overwriting an unrelated file shows only for the lines and directories that cause it, and the damage is outside what a test compares.", "anchors": ["main.h: Saver", "main.cpp: run_interactive_mode", "main.cpp: PipelineOptimizer"]}
{"id": "C192", "title": "Stopping while a picture is written touches that file only", "statement": "If the program stops at any moment while it writes a picture (BMP, double, HSV, PNM, CSV), every other file is as before, and the file itself holds its old content or a beginning of the new one; when the call returns it holds the new content. Ideally it would never hold anything but the whole old or the whole new picture.", "quantifier": "every picture, every old content, every moment at which the program can stop", "why_tests_cant": "A test cannot stop the program after every single byte, and the states in between are only seen after a crash.", "anchors": ["image_io.cpp: bmp_write", "image_io.cpp: double_image::write", "image_io.cpp: hsv_write", "image_io.h: pnm::write", "image_io.h: write_to_csv"]}
{"id": "C193", "title": "Reading a BMP file that was cut short", "statement": "A BMP file whose writing was interrupted is either reported as damaged or gives the picture as far as it was written: no colour value other than the written one or the fill value white appears, and the size is right.", "quantifier": "every picture, every length the file may have been cut to", "why_tests_cant": "The number of lengths grows with the picture, and wrong colours in a damaged file look plausible.", "anchors": ["image_io.cpp: bmp_read", "image_io.cpp: bmp_file_read", "image_io.cpp: bmp_write"]}
{"id": "C194", "title": "Reading a file of doubles that was cut short", "statement": "A double or HSV file that was cut after the last sample of the last row still gives the whole picture; cut earlier it should be reported as damaged.", "quantifier": "every picture, every length the file may have been cut to", "why_tests_cant": "A test can only cut a few files, and reading past the end of a buffer often seems to work.", "anchors": ["image_io.cpp: double_image::read", "image_io.cpp: hsv_read"]}
{"id": "C195", "title": "Reading a PNM file that was cut short", "statement": "A PNM text file that was cut short is refused by an exception, or the picture read is the one that was written; at most the last number of the file can be affected.", "quantifier": "every picture, every length the file may have been cut to, every schedule of the pixel loop", "why_tests_cant": "A cut inside the last number still gives a valid file, which a test sees only for that one length.", "anchors": ["image_io.h: pnm::read", "image_io.h: pnm::write"]}
{"id": "C196", "title": "Reading a CSV file that was cut short or has uneven rows", "statement": "Of a CSV file that was cut, every whole row and every whole cell is read as it was written, and cells that are missing are 0. In a file with rows of different length the first row gives the width, missing cells are 0 and surplus cells are dropped.", "quantifier": "every picture of integers, every length the file may have been cut to, every list of rows, every schedule of the row loop", "why_tests_cant": "Uneven and damaged files come in endless shapes, and a row that is read into the wrong place goes unnoticed.", "anchors": ["image_io.h: read_from_csv", "image_io.h: ParseCSVRow"]}
{"id": "C197", "title": "Giving numbered pictures names with leading zeros", "statement": "addLeadingZeros(input, output) leaves, for every number from 1 to 96, the picture input<number>.bmp under the name output with the number in five digits, and changes no other file; a missing picture ends it with an exception.", "quantifier": "every state of the files, every two paths, all pictures", "why_tests_cant": "A test tries one directory with one prefix; long paths and prefixes that overlap are not among them.", "anchors": ["main.cpp: addLeadingZeros"]}
{"id": "C198", "title": "The program stops while it saves the workspace", "statement": "save_workspace writes one file per picture variable. If the program stops during the command, the variables come in three groups, in the order of the memory store: the first are saved whole, then at most one file holds its old content or a beginning of the new one, and all others hold their old content; files of no variable are unchanged.", "quantifier": "every state of the files, every memory store whose variables belong to different files, every point at which the program stops", "why_tests_cant": "A test runs the command to its end; it cannot stop the program between any two bytes.", "anchors": ["main.h: save_workspace", "image_io.cpp: bmp_write", "image_io.cpp: hsv_write"]}
{"id": "C199", "title": "Sessions with transform_container", "statement": "In a session that uses transform_container, also inside itself and with any execution policy, a variable keeps its value as long as no word of the lines refers to it, and a file keeps its content as long as no word is its path.", "quantifier": "every sequence of lines, every workspace, every set of element commands that leave unnamed variables and files alone, every schedule, every depth of nesting", "why_tests_cant": "The command runs other commands with arguments it makes up; a side effect on another variable depends on names and interleavings a test does not choose.", "anchors": ["main.h: transform_container", "main.cpp: run_interactive_mode"]}
{"id": "C200", "title": "Loading a workspace when a file cannot be read", "statement": "load_workspace succeeds exactly when every image file of the directory can be read. If one cannot be read, the files listed before it are loaded and those after it are not. In every case a variable that has the name of no image file of the directory keeps its value.", "quantifier": "every directory in every order, every workspace, every position of the unreadable file", "why_tests_cant": "The outcome depends on the order in which the file system lists the directory, which a test does not choose.", "anchors": ["main.h: load_workspace", "main.h: CommandRegistry::execute"]}
{"id": "C201", "title": "The Fourier transform in the arithmetic of long double", "statement": "For every 8-bit picture of at most 1024 x 1024 pixels, dft2 computed in long double gives each coefficient of the unitary Fourier transform up to 5e-8 times the square root of the number of pixels. idft2 of these coefficients gives every pixel back up to 1.6e-7 times the number of pixels, so each real part rounds to the original level.", "quantifier": "every such picture, every long double of at least 53 bits, every library cosine and sine accurate to 2^-52", "why_tests_cant": "The claim is about every picture and about the accumulation of about a million rounding errors per pixel.", "anchors": ["image_operations.h: dft2", "image_operations.h: idft2"]}
{"id": "C202", "title": "Two programs write pictures at the same time", "statement": "Two running programs that write pictures to different files do not disturb each other: whatever the order of their steps and wherever they stop, each file holds what its writer alone could have left, and when both are over both files are whole. Two programs that write the same picture to the same file leave that picture; two that write different pictures to the same file leave one of the two.", "quantifier": "every two pictures and file names, every order of the steps of the two programs, every stop", "why_tests_cant": "The claim is about every interleaving of two processes.", "anchors": ["image_io.cpp: bmp_write", "image_io.cpp: double_image::write", "image_io.cpp: hsv_write"]}
{"id": "C203", "title": "A BMP file that another program replaces while it is read", "statement": "bmp_read opens its file four times. Whatever another program puts in the place of the file between the openings, the picture read is the one the file held at some opening, or an error is reported.", "quantifier": "every content of the file at each of the four openings", "why_tests_cant": "The claim is about every moment at which another process can replace the file.", "anchors": ["image_io.cpp: bmp_file_read", "image_io.cpp: bmp_read_x_size", "image_io.cpp: bmp_read_y_size", "image_io.cpp: bmp_read_detail"]}
{"id": "C204", "title": "Bilateral filtering of 8-bit pictures", "statement": "Bilateral filtering of an 8-bit picture, computed in double, gives for every window the whole part of the weighted mean of the window, up to the rounding of the sums, and the result stays within the range of the input.", "quantifier": "every window, picture, boundary rule, pair of kernels that are never negative and positive at zero, and order of the pixels", "why_tests_cant": "The rounding of the sums depends on every weight and every pixel; samples cannot exclude a value at which the quotient falls just below a whole number.", "anchors": ["image_operations.h: bilateral_filter_detail", "image_operations.h: bilateral_filter_spatial_kernel", "image_operations.h: bilateral_filter"]}
{"id": "C205", "title": "Difference of Gaussians in floating arithmetic", "statement": "difference_of_gaussian on float or double pictures without negative pixels is, up to rounding, the difference of the two Gaussian averages; exchanging the sigmas changes the sign exactly, equal sigmas give exactly zero, and a picture of one colour gives zero.", "quantifier": "every picture without negative pixels, every pair of window lengths smaller than the picture, every computed bell curve whose samples are not negative and not all zero, every order and grouping, every precision", "why_tests_cant": "The two filters round independently, and differences of nearly equal numbers can lose every digit; a sample shows one picture.", "anchors": ["image_operations.h: difference_of_gaussian", "image_operations.h: imgaussfilt", "image_operations.h: subtract"]}
{"id": "C206", "title": "The number of pixels and the picture without pixels", "statement": "count() and count(policy) give the number of stored pixels, and every checked access to a picture without pixels (Image<T>{}, or what a failed stitching returns) is reported as an error.", "quantifier": "every picture of any number of dimensions, every order and grouping of the product, every index", "why_tests_cant": "The product of the sizes is taken in an order the execution policy chooses, and the claim is about every index.", "anchors": ["image.h: count", "image.h: set", "image.h: at", "image.h: cast"]}
{"id": "C207", "title": "Otsu threshold in double precision", "statement": "otsu_threshold, computed in double, reports no threshold (the number of levels) exactly when all pixels have the same value, and otherwise a level that leaves pixels on both sides and separates them, up to rounding, as well as any level.", "quantifier": "every picture of unsigned elements, every histogram of floating numbers, every grouping of the sums", "why_tests_cant": "The claim is about the best of all levels for every picture, with every operation rounded.", "anchors": ["image_operations.h: otsu_threshold", "histogram.h: to_probabilities_vector"]}
{"id": "C208", "title": "Shares and bins of a histogram in double precision", "statement": "In double, the share of a level is the number of its pixels divided by the number of pixels, correctly rounded, from whichever function it is obtained (normalize, to_probabilities_vector, normalize_histogram, histogram_normalized); it is zero (one) exactly when no (every) pixel has the level, the shares keep the order of the counts and sum to one up to rounding. histogram_with_bins counts every pixel in the bin whose interval contains it.", "quantifier": "every picture of unsigned elements, every number of pixels up to 2^53, every number of bins, every grouping of the sums", "why_tests_cant": "The claim is about the rounding of every operation for all pictures; a test can only look at some counts.", "anchors": ["histogram.h: normalize, to_probabilities_vector", "image_operations.h: histogram_normalized, normalize_histogram, histogram_with_bins"]}
{"id": "C209", "title": "Grey levels as hues in double precision", "statement": "With every operation rounded to double or long double, Grayscale2RGB gives every grey level the same colour as exact arithmetic: a fully bright, fully saturated colour, different for different levels, pixel by pixel.", "quantifier": "every 8-bit grey level and every pair of levels, every grey picture with pixels, every precision of long double from that of double", "why_tests_cant": "A quotient rounded across a sixth of the colour circle would change the colour of a level, and the precision of long double depends on the machine.", "anchors": ["image_operations.h: Grayscale2RGB, hsv2rgb"]}
{"id": "C210", "title": "Names of types shown to the user", "statement": "The name of a type in the list of variables and in error messages is the name the compiler gives it: cutting it out of the text of the function signature returns exactly the type name, with clang, gcc and Visual C++.", "quantifier": "every type name of any length", "why_tests_cant": "Type names are arbitrary texts; a test sees the few types of the program and one compiler.", "anchors": ["main.h: get_type_name"]}
{"id": "C211", "title": "Brightening an RGB image in double precision", "statement": "With every operation rounded to double or long double, increase_intensity multiplies the brightest and the darkest channel of every pixel by the factor, cuts off the part after the whole number, and clips at the largest channel value.", "quantifier": "every RGB image with pixels, every factor at least 0, every arc cosine accurate to 2^-50, every precision of long double from that of double", "why_tests_cant": "The cut turns the smallest rounding error into a different level, for single pixels and factors.", "anchors": ["image_operations.h: increase_intensity, rgb2hsv, hsv2rgb"]}
{"id": "C212", "title": "The fisheye root finder in double precision", "statement": "With every operation rounded to double, the root finder returns a radius inside [0, D0] that the fisheye shows at the wanted radius, or at the largest radius it reaches, up to D0 / 2^48, and the returned radius is within a few units of rounding of the true solution.", "quantifier": "every strength D0 > 0 and every radius in double, every exponential accurate to 2^-52", "why_tests_cant": "The bracket shrinks to the size of rounding errors, which depend on every bit of the strength and the radius.", "anchors": ["image_operations.h: GaussianFisheyeInverseRootFinder"]}
{"id": "C213", "title": "Bicubic interpolation of 8-bit pictures in double precision", "statement": "With every operation rounded to double, bicubic sampling of an 8-bit picture gives the exact bicubic value up to 1 / 2^32, cut to the integer below and to 0..255; at pixel positions it gives the pixel itself, and a picture of one colour gives this colour everywhere.", "quantifier": "every picture of up to 2^53 pixels a side, every pair of double positions", "why_tests_cant": "Each result comes from forty roundings that depend on every bit of the position, and the final cut turns the smallest of them into a whole level.", "anchors": ["image_operations.h: cubic_kernel", "image_operations.h: default_bicubic_interpolator"]}
{"id": "C214", "title": "Fitting a Gaussian with infinities and NaN", "statement": "Whatever values the pixels have, whatever the mathematical library and the solver return and however parallel sums are grouped, a fit ends with usable parameters: widths of at least one millionth, a correlation strictly between -1 and 1, and no NaN in amplitude and position; pixels that are no numbers do not keep the fit from running.", "quantifier": "every picture of doubles with any values, every number of iterations and tolerance, every behaviour of exp, sqrt and the solver, every grouping of the sums", "why_tests_cant": "Overflow and NaN arise inside the iterations, at positions that depend on every earlier step and on the schedule of the threads.", "anchors": ["image_operations.h: estimate_gaussian_parameters_2d", "image_operations.h: LMMapper", "image_operations.h: LMReducer", "image_operations.h: SSEMapper", "image_operations.h: SSEReducer"]}
{"id": "C215", "title": "Bins of a picture of doubles", "statement": "histogram_with_bins of a picture of doubles counts every pixel once, in a bin whose interval of the range contains it up to rounding, also with the default range and for pixels that are infinite or NaN.", "quantifier": "every picture of doubles, every number of bins, every range", "why_tests_cant": "The width of a range can overflow and a quotient can be NaN; which pixels are affected depends on all bits of the pixel and of the range.", "anchors": ["image_operations.h: histogram_with_bins"]}
{"id": "C216", "title": "Matching descriptors with infinities and NaN", "statement": "Whatever the distances are, find_raw_matches returns a pair exactly when its second descriptor is the first nearest one and passes the ratio test, both indices are valid, the matches do not depend on the schedule, find_robust_matches returns the pairs that match in both directions, and a descriptor with an entry that is no number is in no match.", "quantifier": "every two lists of descriptors, every behaviour of the distance function including overflow and NaN, every ratio, every order of the parallel iterations", "why_tests_cant": "Distances overflow or become NaN for particular combinations of two descriptors, and comparisons with NaN depend on the order of the candidates.", "anchors": ["image_operations.h: find_raw_matches", "image_operations.h: find_keypoint_matches", "image_operations.h: find_robust_matches", "image_operations.h: squared_euclidean_distance"]}
{"id": "C217", "title": "The robust estimator with infinities and NaN", "statement": "Whatever the solver returns, find_homography_robust returns a sampled model of least cost: with RANSAC one that agrees with the most matches, with MSAC one of least truncated error; a model that gives NaN for a match is not returned.", "quantifier": "every solver, all matches and random draws, every threshold, all entries of models including infinities and NaN", "why_tests_cant": "Degenerate samples give models with huge or undefined entries at random; a comparison with NaN is false and can make the estimator keep or drop the wrong model.", "anchors": ["image_operations.h: find_homography_robust", "image_operations.h: find_homography_robust_impl", "image_operations.h: RansacScorer", "image_operations.h: MsacScorer"]}
{"id": "C218", "title": "Inverting a 3x3 matrix in double precision", "statement": "linalg::invert gives the empty matrix exactly for the matrices without an inverse; for the others its entries are those of the inverse up to a few rounding errors.", "quantifier": "all 3x3 matrices of doubles; exact decision for all integer matrices with entries up to 65536", "why_tests_cant": "Cancellation in the determinant appears for particular entries only; whether the near-zero test separates singular matrices from the others depends on every entry.", "anchors": ["linear_algebra.h: linalg::invert"]}
{"id": "C219", "title": "Matrix products in double precision", "statement": "linalg::multiply computes every entry of the product up to the error of n + 1 roundings relative to the sum of the absolute products; integer products that fit are exact; the transpose times the matrix is exactly symmetric.", "quantifier": "all sizes and all matrices of doubles", "why_tests_cant": "Sums of different lengths and with cancellation round differently; a test fixes a few sizes and entries.", "anchors": ["linear_algebra.h: linalg::multiply", "linear_algebra.h: linalg::transpose"]}
{"id": "C220", "title": "Scaled homographies in double precision", "statement": "scale_homography multiplies every entry by the two ratios of sizes up to 5/2^53 of the value; it is exact when the full sizes are powers of two times the small sizes.", "quantifier": "all homographies and all positive sizes up to 2^53", "why_tests_cant": "The ratios of sizes are rounded differently for every pair of sizes.", "anchors": ["image_operations.h: scale_homography"]}
{"id": "C221", "title": "The perspective warp with an execution policy, infinities and NaN", "statement": "warp_perspective with an execution policy inverts the homography and takes every pixel from the point the inverse sends it to; it is blank exactly when the homography has no inverse.", "quantifier": "all pictures, frames, orders of the policy and homographies of doubles including infinities and NaN", "why_tests_cant": "Overflow in the determinant and NaN from degenerate estimates appear for particular homographies only, and the result is an ordinary blank picture.", "anchors": ["image_operations.h: warp_perspective", "linear_algebra.h: linalg::invert"]}
{"id": "C222", "title": "Refining a homography with infinities and NaN", "statement": "refine_homography gives exactly the matches that agree with the model, in their order, to the solver when there are at least four, and returns the answer of the solver; with fewer, or when the solver fails, it returns the model. A model with a NaN anywhere, or the threshold NaN, agrees with no match, so that the model is returned unchanged.", "quantifier": "all solvers, key points, lists of matches, models and thresholds of doubles including infinities and NaN", "why_tests_cant": "A NaN model comes from degenerate samples only; that it is never replaced by a good one shows for no ordinary input.", "anchors": ["image_operations.h: refine_homography"]}
{"id": "C223", "title": "The homography of point pairs in double precision", "statement": "The equations compute_homography builds are exact for coordinates up to 2^26: coefficients satisfy them all exactly when the homography sends every first point to its second. A homography it returns has the last entry exactly one and every entry within one rounding of the quotient by the last coefficient. It returns none for fewer than four pairs, for an answer of the solver without nine numbers and for a last coefficient below 2^-52. NaN as the last coefficient is not rejected and gives the matrix of NaN.", "quantifier": "all lists of point pairs with coordinates up to 2^26 and all answers of the solver with magnitudes up to 2, and NaN", "why_tests_cant": "Rounding and NaN for all coordinates and null vectors.", "anchors": ["image_operations.h: compute_homography"]}
{"id": "C224", "title": "Printing a matrix", "statement": "Printing a matrix writes one line for each row with every element followed by a tab, and matrices that print the same text are equal.", "quantifier": "all matrices of any sizes and all texts of elements that can be told apart and contain no tab and no end of line", "why_tests_cant": "All sizes and contents.", "anchors": ["linear_algebra.h: operator<<"]}
{"id": "C225", "title": "Stitching with infinities and NaN", "statement": "create_stitched_image with an execution policy returns a canvas whose bounds are the least and greatest coordinates of the first picture and of the projected corners of the second, or the empty picture when the homography has no inverse.", "quantifier": "all pictures, orders of the policy and homographies of doubles including infinities and NaN", "why_tests_cant": "A corner is projected to infinity and a degenerate estimate is NaN for particular homographies only.", "anchors": ["image_operations.h: create_stitched_image (with an execution policy)"]}
{"id": "C226", "title": "Sequences of volumes", "statement": "plus of vectors of volumes returns, at every position, the voxelwise sum of the volumes at that position, and divides of two vectors the voxelwise quotient; vectors of different lengths are rejected.", "quantifier": "all numbers and lengths of vectors, sizes and contents of volumes", "why_tests_cant": "The number of vectors, their lengths and the sizes of the volumes are unbounded, and a shorter vector is read past its end without a visible failure.", "anchors": ["cube_operations.h: plus, divides (vectors of volumes)", "basic_functions.h: recursive_transform"]}
{"id": "C227", "title": "The normal distributions are densities", "statement": "normalDistribution1D, normalDistribution2D and the surface drawn by gaussianFigure2D with parameters are probability densities: nowhere negative and with integral one, times the normalisation factor passed to gaussianFigure2D. normalDistribution1D of complex numbers that are real has the value for real numbers.", "quantifier": "all positive standard deviations, widths, centres, correlations between -1 and 1, factors and orders of the policy", "why_tests_cant": "An integral over the plane is not a finite number of samples.", "anchors": ["image_operations.h: normalDistribution1D, normalDistribution2D, gaussianFigure2D (with GaussianParameters2D)"]}
{"id": "C228", "title": "The depth of nested containers", "statement": "recursive_depth<T>() is the number of times the elements of T can be taken, with a target type the number of times until that type is reached, recursive_unwrap_type_t<n, T> is the type found n levels inside, and recursive_invocable<n, F, T...> holds exactly if F accepts what is found n levels inside all types.", "quantifier": "all types built from containers, texts and single values, all levels and functions", "why_tests_cant": "Types are nested without bound; a test instantiates a few.", "anchors": ["basic_functions.h: recursive_depth, is_recursive_invocable, recursive_invocable"]}
{"id": "C229", "title": "The type of the result of a function applied inside containers", "statement": "A function applied n levels inside nested containers gives a value of a type with the same n outer containers, inside of which is the type of the result of the function; there is such a type exactly if the function accepts what is found n levels inside.", "quantifier": "all types built from containers, texts and single values, all levels and functions", "why_tests_cant": "Types are nested without bound; a test instantiates a few.", "anchors": ["basic_functions.h: recursive_invoke_result_t, recursive_variadic_invoke_result_t, recursive_array_invoke_result_t"]}
{"id": "C230", "title": "Recognising whole numbers", "statement": "is_integer holds exactly for the values that are whole numbers.", "quantifier": "all doubles including infinities and NaN, all integers", "why_tests_cant": "The doubles are too many to try; the tests use a few small ones.", "anchors": ["basic_functions.h: is_integer"]}
{"id": "C231", "title": "Selecting one of several arguments", "statement": "With the index i counted from one, get_from_variadic_template<i> returns argument number i and get_from_variadic_template_t<i, ...> is its type; an index that is zero or greater than the number of arguments is rejected by both. first_of returns the first argument.", "quantifier": "all numbers of arguments and all indices", "why_tests_cant": "The number of arguments is unbounded; a test instantiates a few.", "anchors": ["basic_functions.h: get_from_variadic_template, get_from_variadic_template_t, first_of"]}
