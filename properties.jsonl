{"id": "C01", "title": "Shapes stay inside the fixed buffers in every history", "statement": "After any sequence of public vector and matrix calls, successful or failed, an object that reports being initialised has between 1 and 4 rows (and between 1 and 4 columns for a matrix), and the dimensions recorded in an uninitialised object never exceed 4 either.", "quantifier": "every finite history of public Vector/Matrix calls (with arbitrary u8 arguments and arbitrary other reachable objects as operands), every interpretation of f32 arithmetic in which the literals 0.0, 1.0 and 0.0001 are finite", "why_tests_cant": "A test fixes one call sequence; the claim is an invariant over unboundedly many histories, including those that go through failing calls.", "anchors": ["linalg/src/vector.rs::init", "linalg/src/vector.rs::reinit", "linalg/src/matrix.rs::init", "linalg/src/matrix.rs::reinit", "linalg/src/matrix.rs::set_rows", "linalg/src/matrix.rs::set_cols", "linalg/src/matrix.rs::add_row", "linalg/src/matrix.rs::add_col", "linalg/src/matrix.rs::del_row", "linalg/src/matrix.rs::transpose"]}
{"id": "C02", "title": "No stored element is ever NaN or infinite", "statement": "After any sequence of public vector, matrix and quaternion calls, successful or failed, every element stored in any f32 vector or matrix passes the library validity test (it is neither NaN nor infinite), so a value read with get_element is always valid.", "quantifier": "every finite history of public calls, every f32 argument including NaN and infinities, every interpretation of f32 arithmetic in which 0.0 and 1.0 are finite", "why_tests_cant": "NaN and overflow can be produced by any arithmetic step on any input; no finite set of inputs shows that none is ever stored, including on error paths that leave partial writes.", "anchors": ["linalg/src/vector.rs::set_element", "linalg/src/matrix.rs::set_element", "linalg/src/matrix.rs::set_cols", "utils/src/lib.rs::is_valid_value"]}
{"id": "C03", "title": "Which calls can panic", "statement": "Starting from freshly created objects, no public vector, matrix, decomposition or quaternion call panics in any history (no out-of-bounds index, no integer overflow), with exactly these exceptions in a build with overflow checks: add_row/add_col with insertion index 255, del_row and is_lower_triangular on an object whose row count is 0, and shifted eigen on a 1x1 matrix with a non-zero iteration count.", "quantifier": "every reachable operand, every u8/i8/u16/f32 argument, both with and without overflow checks, every interpretation of f32 arithmetic", "why_tests_cant": "Panics depend on extreme arguments (255, -128) combined with internal state reached by earlier failing calls; enumerating all of them by tests is not feasible.", "anchors": ["linalg/src/matrix.rs::add_row", "linalg/src/matrix.rs::add_col", "linalg/src/matrix.rs::del_row", "linalg/src/matrix.rs::is_lower_triangular", "linalg/src/matrix.rs::diag", "linalg/src/linalg.rs::eigen", "linalg/src/linalg.rs::lup"]}
{"id": "C04", "title": "Initialisation happens once", "statement": "init succeeds exactly on an uninitialised object with dimensions in 1..4, then reports the requested dimensions; on an initialised object it fails with AlreadyInit, and every failing init leaves the object unchanged, with the overflow error taking precedence over the null error and rows over columns.", "quantifier": "every reachable object and every u8 size", "why_tests_cant": "The claim covers all 65536 size pairs and every prior state.", "anchors": ["linalg/src/vector.rs::init", "linalg/src/matrix.rs::init", "linalg/src/vector.rs::get_rows", "linalg/src/matrix.rs::get_rows", "linalg/src/matrix.rs::get_cols"]}
{"id": "C05", "title": "Vector write/read round trip and frame", "statement": "For an f32 vector, set_element(i, v) succeeds exactly when the vector is initialised, v is finite and i is in range; then get_element(i) returns v bit for bit and all other elements, the size and the flag are unchanged. A failing set_element changes nothing and reports NotInit, then Nan/Inf, then InvalidRow, in that order of precedence.", "quantifier": "every vector state, every index, every f32 value", "why_tests_cant": "Must hold for every pair of indices and every value, including NaN payloads and infinities.", "anchors": ["linalg/src/vector.rs::set_element", "linalg/src/vector.rs::get_element"]}
{"id": "C06", "title": "Matrix write/read round trip, no aliasing between cells", "statement": "For a matrix of any shape, set_element(i, j, v) followed by get_element(i, j) returns v, and get_element at any other in-range position returns what it returned before; a failing set_element changes nothing and its error is determined by the first of: not initialised, non-finite value, row out of range, column out of range.", "quantifier": "every reachable matrix, every pair of positions, every value", "why_tests_cant": "Row-major index arithmetic could alias two cells for some shape; all shapes and pairs must be covered.", "anchors": ["linalg/src/matrix.rs::set_element", "linalg/src/matrix.rs::get_element"]}
{"id": "C07", "title": "reinit semantics, including failure", "statement": "reinit on an uninitialised object fails with NotInit and changes nothing; on an initialised object and with a valid size it succeeds, sets the new dimensions and keeps the stored buffer (so old contents reappear in the new row-major layout); reinit with an invalid size returns the size error and leaves the object uninitialised, after which every element access fails with NotInit until a successful init.", "quantifier": "every reachable object, every u8 size", "why_tests_cant": "History property: the effect of a failed call on all later calls.", "anchors": ["linalg/src/vector.rs::reinit", "linalg/src/matrix.rs::reinit"]}
{"id": "C08", "title": "Vector element-wise addition and subtraction", "statement": "add, add_in_place and add_new (and the sub family) on same-size initialised vectors compute exactly one f32 operation a[i]+b[i] (a[i]-b[i]) per element, succeed exactly when every such result is finite, agree with each other, and leave their operands unchanged; different sizes give NotSameSize without modification.", "quantifier": "all sizes, all element values, every interpretation of f32 arithmetic", "why_tests_cant": "Must hold for all values; variants could differ on some operand order or index.", "anchors": ["linalg/src/vector.rs::add", "linalg/src/vector.rs::add_in_place", "linalg/src/vector.rs::add_new", "linalg/src/vector.rs::sub", "linalg/src/vector.rs::sub_in_place", "linalg/src/vector.rs::sub_new"]}
{"id": "C09", "title": "Matrix element-wise addition and subtraction", "statement": "The same contract as for vectors holds for matrix add, add_in_place, add_new, sub, sub_in_place and sub_new, for every shape.", "quantifier": "all shapes, all element values, every interpretation of f32 arithmetic", "why_tests_cant": "All shapes (including non-square) and all values.", "anchors": ["linalg/src/matrix.rs::add", "linalg/src/matrix.rs::add_in_place", "linalg/src/matrix.rs::add_new", "linalg/src/matrix.rs::sub", "linalg/src/matrix.rs::sub_in_place", "linalg/src/matrix.rs::sub_new"]}
{"id": "C10", "title": "Scalar operations", "statement": "add_scalar, sub_scalar, mul_by_scalar and power_elements in all their variants apply exactly one f32 operation with the scalar to every element, succeed exactly when each result is finite, and the variants agree; applied in place to a never-initialised object they return Ok and change nothing.", "quantifier": "all shapes, all element and scalar values, every interpretation of f32 arithmetic", "why_tests_cant": "All values and all shapes; argument order matters for subtraction and power.", "anchors": ["linalg/src/vector.rs::add_scalar", "linalg/src/vector.rs::sub_scalar", "linalg/src/vector.rs::mul_by_scalar", "linalg/src/vector.rs::power_elements", "linalg/src/matrix.rs::add_scalar", "linalg/src/matrix.rs::sub_scalar", "linalg/src/matrix.rs::mul_by_scalar_in_place", "linalg/src/matrix.rs::power_elements"]}
{"id": "C11", "title": "What a failing element-wise operation leaves behind", "statement": "When an element-wise operation fails because some element result is NaN or infinite, exactly the elements that precede the first offending one (in row-major order) have been overwritten with their results; the offending element and all later ones, the dimensions and the flag are unchanged, and the reported error is Nan or Inf according to that first offending result.", "quantifier": "all shapes, all values, every position of the first offending element", "why_tests_cant": "The state after a fault must be characterised for every fault position.", "anchors": ["linalg/src/vector.rs::add", "linalg/src/vector.rs::mul_by_scalar_in_place", "linalg/src/matrix.rs::add", "linalg/src/matrix.rs::mul_by_scalar_in_place"]}
{"id": "C12", "title": "Matrix multiplication", "statement": "mul on conforming initialised operands writes at (i,j) the left-to-right accumulation 0.0 + a[i,0]*b[0,j] + a[i,1]*b[1,j] + ...; it succeeds exactly when all partial sums are finite; in exact arithmetic the result is the matrix product. A product that fails at (i,j) leaves the result in the cells before (i,j) in row order, the last finite partial sum in (i,j), and the other cells unchanged. Non-conforming dimensions give InvalidSize with no change; mul_new allocates the right shape and agrees with mul.", "quantifier": "all shapes, all values, every interpretation of f32 arithmetic (exact arithmetic for the product law)", "why_tests_cant": "All shapes and all values; index mix-ups show only on non-square shapes.", "anchors": ["linalg/src/matrix.rs::mul", "linalg/src/matrix.rs::mul_new"]}
{"id": "C13", "title": "Transposition", "statement": "transpose succeeds on every reachable initialised matrix of any shape, swaps the dimensions and moves element (i,j) to (j,i); applying it twice restores every element; transpose_new gives the same result and leaves the original unchanged.", "quantifier": "every reachable matrix of any shape, every interpretation of f32 arithmetic", "why_tests_cant": "The rectangular path re-lays out the buffer; all shapes and contents matter.", "anchors": ["linalg/src/matrix.rs::transpose", "linalg/src/matrix.rs::transpose_new"]}
{"id": "C14", "title": "Row and column views", "statement": "set_row then get_row (and set_col then get_col, row_to_vector, col_to_vector) returns the written vector, leaves every other row or column unchanged, and fails with InvalidSize exactly when the vector length differs; reading never changes the matrix.", "quantifier": "all shapes, all rows and columns, all contents", "why_tests_cant": "All shapes and positions.", "anchors": ["linalg/src/matrix.rs::set_row", "linalg/src/matrix.rs::get_row", "linalg/src/matrix.rs::set_col", "linalg/src/matrix.rs::get_col", "linalg/src/matrix.rs::row_to_vector", "linalg/src/matrix.rs::col_to_vector"]}
{"id": "C15", "title": "Row and column insertion", "statement": "add_row(v, r) with r <= rows < 4 and v of length cols yields a matrix with one more row whose row r is v, whose rows before r are unchanged and whose rows after r are the old rows shifted by one; add_col is the column counterpart, including re-layout of the row-major buffer.", "quantifier": "all shapes, all insertion positions, all contents", "why_tests_cant": "All combinations of shape, position and contents; overlapping moves are order dependent.", "anchors": ["linalg/src/matrix.rs::add_row", "linalg/src/matrix.rs::add_col", "linalg/src/matrix.rs::set_rows", "linalg/src/matrix.rs::set_cols"]}
{"id": "C16", "title": "Row deletion and its inverse", "statement": "del_row(r) on a matrix with at least two rows removes exactly row r and moves the following rows up without altering any element; del_row(r) after add_row(v, r) restores the original matrix; a failing del_row changes nothing.", "quantifier": "all shapes, all rows, all contents", "why_tests_cant": "All combinations of shape, position and contents.", "anchors": ["linalg/src/matrix.rs::del_row", "linalg/src/matrix.rs::add_row"]}
{"id": "C17", "title": "Failed insertion is not atomic", "statement": "add_row/add_col given an insertion index beyond the end, or a vector of the wrong length, report an error but leave the matrix with one more row or column than before: those from the insertion index on are shifted by one and the row or column at the index still shows its old contents; at the maximum size they fail with the overflow error and change nothing.", "quantifier": "all shapes, all positions, all vectors", "why_tests_cant": "Behaviour after failure for every cause of failure and every state.", "anchors": ["linalg/src/matrix.rs::add_row", "linalg/src/matrix.rs::add_col"]}
{"id": "C18", "title": "Diagonal extraction", "statement": "diag(k) returns, for each k in -128..127, the k-th diagonal of the matrix: for k >= 0 the elements (i, i+k), for k < 0 the elements (i-k, i); it fails with InvalidDiagonalLength exactly when that diagonal is empty, and never overflows the signed 8-bit arithmetic.", "quantifier": "every k: i8, every shape, all contents", "why_tests_cant": "256 offsets times all shapes and contents; signed overflow at the extremes.", "anchors": ["linalg/src/matrix.rs::diag"]}
{"id": "C19", "title": "Tolerance comparisons decide what they say", "statement": "is_equal_to returns true exactly when every pair of corresponding elements passes the closeness test, and Ok(false) when some pair fails it or the shapes differ; is_symmetric does so for the pairs (i,j),(j,i); both are read-only.", "quantifier": "all shapes, all values, every interpretation of f32 arithmetic", "why_tests_cant": "All values and shapes; early exits could skip pairs.", "anchors": ["linalg/src/vector.rs::is_equal_to", "linalg/src/matrix.rs::is_equal_to", "linalg/src/matrix.rs::is_symmetric"]}
{"id": "C20", "title": "Triangularity tests and their limits", "statement": "On square matrices is_upper_triangular (is_lower_triangular) returns true exactly when every element below (above) the diagonal is within tolerance of zero. On wide matrices is_lower_triangular ignores the last row, so it accepts matrices that are not lower triangular; on matrices with rows > cols+1 whose checked prefix is zero, is_upper_triangular fails with InvalidCol.", "quantifier": "all shapes, all contents", "why_tests_cant": "The boundary of the scanned index range is shape dependent.", "anchors": ["linalg/src/matrix.rs::is_upper_triangular", "linalg/src/matrix.rs::is_lower_triangular"]}
{"id": "C21", "title": "det_naive is the determinant", "statement": "In exact arithmetic det_naive of a square matrix equals its determinant (Leibniz formula), for every size the library supports, and it fails with NotSquare exactly on non-square matrices; on success the value is the accumulation over all permutations whatever the arithmetic. The table it walks through, which generate_permutations fills, holds every permutation of the columns once.", "quantifier": "all square matrices of sizes 1..4 over an arbitrary ordered field", "why_tests_cant": "All matrices; a wrong sign for one permutation is invisible on most inputs.", "anchors": ["linalg/src/matrix.rs::det_naive", "linalg/src/matrix.rs::generate_permutations", "linalg/src/matrix.rs::count_inversions"]}
{"id": "C22", "title": "LUP factorisation", "statement": "In exact arithmetic, whenever lup succeeds on a square matrix A it returns a permutation p and packed factors such that row p(i) of A equals row i of the product L*U, where L is unit lower triangular and U upper triangular, read through p; every checked pivot has magnitude at least EPSILON; non-square input never succeeds (beyond one row).", "quantifier": "all square matrices over an arbitrary ordered field", "why_tests_cant": "All matrices and all pivot orders.", "anchors": ["linalg/src/linalg.rs::lup"]}
{"id": "C23", "title": "Linear solve", "statement": "In exact arithmetic, if lup(A) succeeds with (LU, p) and solve(LU, b, p) succeeds with x then A*x = b; solve fails with Unsolvable exactly when some pivot has magnitude at most EPSILON.", "quantifier": "all square matrices and right-hand sides over an arbitrary ordered field", "why_tests_cant": "All matrices, all right-hand sides.", "anchors": ["linalg/src/linalg.rs::solve", "linalg/src/linalg.rs::lup"]}
{"id": "C24", "title": "Matrix inversion", "statement": "In exact arithmetic, if invert succeeds the result is the two-sided inverse of the original matrix; if it fails it fails with NotInversible (NotSquare for non-square) and the matrix is unchanged.", "quantifier": "all square matrices over an arbitrary ordered field", "why_tests_cant": "All matrices; the result is assembled through a transposition.", "anchors": ["linalg/src/matrix.rs::invert"]}
{"id": "C25", "title": "LU-based determinant", "statement": "In exact arithmetic, when det succeeds on a matrix of size up to 3 it equals the determinant; on 4x4 matrices its absolute value is right but its sign is wrong exactly when the pivot order exchanges two disjoint pairs of rows. det can fail with Singular on invertible matrices, because pivots are searched by signed value.", "quantifier": "all square matrices of sizes 1..4 over an arbitrary ordered field", "why_tests_cant": "The faulty sign shows only for 3 of 24 pivot orders.", "anchors": ["linalg/src/matrix.rs::det", "linalg/src/linalg.rs::lup"]}
{"id": "C26", "title": "LR factorisation", "statement": "In exact arithmetic lr returns L*R = A with L unit lower and R upper triangular for sizes 1 and 2. From size 3 on the product is the matrix below the diagonal, in the first row and at (1,1), but elsewhere a running sum is not reset: element (i,j), i <= j, of L*R is A(i,j) minus the sum over i <= p < j of sum(k < i) L(i,k) R(k,p), minus sum(k < i-1) L(n-1,k) R(k,i-1). For every size triangular factors with this defect and non-zero pivots are exactly what lr returns, and without them it fails with Nan or Inf. For size 3 with regular leading minors L*R = A if and only if A(0,1)*A(1,0) = 0 and A(0,1)*A(2,0) = 0. An upper triangular matrix is returned as R with L the identity. A zero at (0,0) fails with Nan, a matrix that is not square with NotSquare.", "quantifier": "all matrices of every size over an arbitrary ordered field", "why_tests_cant": "Correct on small sizes and on sparse examples, wrong in general.", "anchors": ["linalg/src/matrix.rs::lr"]}
{"id": "C27", "title": "Crout factorisation rejects regular matrices", "statement": "lu_crout fails with Singular on every square matrix of size at least 2 whose (0,0) element has magnitude above EPSILON. For size 1 it returns L = 1 and U = A. For size at least 2 with a zero (0,0) element it fails with UtilsError, Nan if the (1,0) element is zero as well and Inf otherwise. For size 2 with a (0,0) element that is non-zero but at most EPSILON in magnitude it succeeds, L is unit lower and U upper triangular, and L U = A. From size 3 on the product of what it returns can differ from the input: for a regular matrix with 0 at (1,2) the product has -1 there. For every size it returns factors exactly when every pivot before the last one is non-zero and at most EPSILON in magnitude, the defect of their product is given by the products left in the two running sums, and otherwise it fails with Singular, Nan or Inf.", "quantifier": "all matrices of every size over an arbitrary ordered field", "why_tests_cant": "A universally quantified negative: no success for any regular input.", "anchors": ["linalg/src/matrix.rs::lu_crout"]}
{"id": "C28", "title": "QR factorisation", "statement": "In exact arithmetic, for a square matrix whose orthogonalised columns all have norm above EPSILON, qr_decomp returns Q with orthonormal columns and upper triangular R with Q*R = A; on non-square matrices it always fails.", "quantifier": "all square real matrices of sizes 1..4", "why_tests_cant": "All matrices; orthogonality is a global property.", "anchors": ["linalg/src/matrix.rs::qr_decomp"]}
{"id": "C29", "title": "Cholesky factorisation", "statement": "In exact arithmetic, whenever chol succeeds on an exactly symmetric matrix A it returns a lower triangular L with L*transpose(L) = A; conversely, on a matrix M*transpose(M) with M lower triangular of positive diagonal that passes is_positive_definite, chol returns M. On a matrix that is symmetric only within tolerance it can return a factor that is not lower triangular.", "quantifier": "all exactly symmetric real matrices of sizes 1..4", "why_tests_cant": "All matrices; above-diagonal entries are computed and must cancel exactly.", "anchors": ["linalg/src/matrix.rs::chol", "linalg/src/matrix.rs::is_positive_definite"]}
{"id": "C30", "title": "Eigenvalue iteration", "statement": "eigen returns Ok with an all-zero eigenvalue vector whenever the iteration does not meet the convergence test within niter steps (in particular always for niter = 0); when it does converge the returned eigenvalues are the diagonal of a matrix orthogonally similar to the input (exact arithmetic, full-rank steps).", "quantifier": "every square matrix, every niter", "why_tests_cant": "Holds for every iteration count.", "anchors": ["linalg/src/linalg.rs::eigen"]}
{"id": "C31", "title": "Norm and normalisation", "statement": "In exact arithmetic calculate_norm is the Euclidean norm, cut to 0 when at most EPSILON; normalize yields a vector of norm exactly 1 pointing in the same direction when the norm exceeds EPSILON, and the zero vector otherwise.", "quantifier": "all real vectors of sizes 1..4", "why_tests_cant": "All vectors, including near the threshold.", "anchors": ["linalg/src/vector.rs::calculate_norm", "linalg/src/vector.rs::normalize"]}
{"id": "C32", "title": "Interpolation", "statement": "lerp and slerp reject exactly alpha outside [0,1] (and NaN) with InvalidAlpha before anything else; in exact arithmetic lerp returns (1-alpha)*a + alpha*b (so it does not keep unit length), slerp of unit vectors that are neither equal nor opposite has norm 1 and makes the angle alpha*theta with the first vector; the results for two values alpha and beta lie in the plane of the end points, the angle between them is (alpha-beta)*theta, so the speed is constant; alpha=0 and alpha=1 return the end points; slerp of a unit vector with itself or its opposite always fails and leaves the target unchanged.", "quantifier": "all real unit vectors of sizes 1..4, all alpha", "why_tests_cant": "All vectors and all alpha; singular configurations have measure zero.", "anchors": ["linalg/src/vector.rs::lerp", "linalg/src/vector.rs::slerp"]}
{"id": "C33", "title": "Products and reductions", "statement": "dot_product, outer_product, trace and the Frobenius norm compute their definitions with a fixed left-to-right accumulation; in exact arithmetic the outer product has element (i,j) = a_i*b_j and convert_to_matrix yields the column matrix.", "quantifier": "all sizes, all values", "why_tests_cant": "All values and sizes.", "anchors": ["linalg/src/vector.rs::dot_product", "linalg/src/vector.rs::outer_product", "linalg/src/vector.rs::convert_to_matrix", "linalg/src/matrix.rs::trace", "linalg/src/matrix.rs::calculate_frobenius_norm"]}
{"id": "C34", "title": "Quaternion product", "statement": "mul and mul_new agree for every arithmetic; in exact arithmetic they are the Hamilton product (hence associative, with multiplicative norm); operands that are not 4-vectors are rejected.", "quantifier": "all quaternions, every interpretation of f32 arithmetic (exact for the algebraic laws)", "why_tests_cant": "A single wrong sign passes many numeric tests; must hold for all quaternions.", "anchors": ["quaternion/src/quaternion.rs::mul", "quaternion/src/quaternion.rs::mul_new"]}
{"id": "C35", "title": "Conjugate and inverse", "statement": "conjugate negates exactly the vector part, in every arithmetic; in exact arithmetic it is an involution, reverses products, and q*invert(q) = invert(q)*q = 1 whenever the norm of q exceeds EPSILON; otherwise invert reports success and the quaternion becomes zero.", "quantifier": "all quaternions", "why_tests_cant": "All quaternions.", "anchors": ["quaternion/src/quaternion.rs::conjugate", "quaternion/src/quaternion.rs::conjugate_new", "quaternion/src/quaternion.rs::invert"]}
{"id": "C36", "title": "Rotation matrix of a unit quaternion", "statement": "In exact arithmetic convert_to_dcm of a unit quaternion is an orthogonal matrix of determinant 1 whose action equals q*v*conj(q); the map is multiplicative and q, -q give the same matrix.", "quantifier": "all real unit quaternions, all vectors", "why_tests_cant": "All quaternions and vectors.", "anchors": ["quaternion/src/quaternion.rs::convert_to_dcm"]}
{"id": "C37", "title": "Rotating a vector", "statement": "In exact arithmetic rotate and rotate_in_place by a unit quaternion agree, preserve the norm of the vector and satisfy rotate(q, rotate(p, v)) = rotate(q*p, v).", "quantifier": "all real unit quaternions and vectors", "why_tests_cant": "All inputs.", "anchors": ["quaternion/src/quaternion.rs::rotate", "quaternion/src/quaternion.rs::rotate_in_place"]}
{"id": "C38", "title": "Chiaverini extraction", "statement": "In exact arithmetic chiaverini(convert_to_dcm(q)) is q (or -q when the real part is negative) for every unit q with non-zero real part and vector components of magnitude at most 1/sqrt(2); it returns the zero quaternion, with success, for every half turn, and a unit quaternion of another rotation whenever a vector component exceeds 1/sqrt(2) and the real part is not zero.", "quantifier": "all real unit quaternions", "why_tests_cant": "The failure region is invisible on small-angle tests.", "anchors": ["quaternion/src/quaternion.rs::chiaverini", "quaternion/src/quaternion.rs::convert_to_dcm"]}
{"id": "C39", "title": "Hughes extraction has the opposite convention", "statement": "In exact arithmetic hughes(convert_to_dcm(q)) for a unit q is the conjugate of q up to sign (the round trip inverts the rotation) whenever |re q| and 4(1 - (re q)^2) exceed EPSILON; it is the identity when 4(1 - (re q)^2) is within EPSILON; and when |re q| is within EPSILON its components are the square roots of (re q)^2 plus the squares of the vector components, so their signs are lost.", "quantifier": "all real unit quaternions", "why_tests_cant": "Universal claim on the round trip.", "anchors": ["quaternion/src/quaternion.rs::hughes", "quaternion/src/quaternion.rs::convert_to_dcm"]}
{"id": "C40", "title": "Sarabandi extraction loses signs", "statement": "In exact arithmetic sarabandi(convert_to_dcm(q)), with no threshold given or any threshold below 3, returns the component-wise absolute value of the unit quaternion q; with a positive real part and some negative vector component that is another rotation.", "quantifier": "all real unit quaternions, all thresholds below 3", "why_tests_cant": "Universal claim on the round trip.", "anchors": ["quaternion/src/quaternion.rs::sarabandi", "quaternion/src/quaternion.rs::convert_to_dcm"]}
{"id": "C41", "title": "Quaternion exponential", "statement": "In exact arithmetic, when some vector component of q exceeds EPSILON in magnitude, exp_new returns exp(vector part) times e^(real part), the factor being left out when the real part is within EPSILON of zero, and exp does the same except that it leaves the factor out when the cosine of the norm of the vector part is within EPSILON of zero. On pure quaternions both are the quaternion exponential, a unit quaternion; in general they differ. When all vector components are within EPSILON both return 1 whatever the real part. (e is the constant E of the library.)", "quantifier": "all real quaternions", "why_tests_cant": "All quaternions.", "anchors": ["quaternion/src/quaternion.rs::exp", "quaternion/src/quaternion.rs::exp_new"]}
{"id": "C42", "title": "Sensor configuration round trip", "statement": "For each of gyrometer, accelerometer and magnetometer, after set_config(c) succeeds get_config returns exactly c, and set_config succeeds exactly when the sensor is initialised and all 12 parameters are finite; a configuration update does not touch measurements. A rejected set_config is half applied: the parameters before the first non-finite one are replaced, the others keep their former values.", "quantifier": "all configurations, every sensor state, every interpretation of f32 arithmetic", "why_tests_cant": "12 parameters can be permuted in ways that only particular values reveal.", "anchors": ["open_ahrs/src/gyrometer.rs::set_config", "open_ahrs/src/gyrometer.rs::get_config", "open_ahrs/src/accelerometer.rs::set_config", "open_ahrs/src/magnetometer.rs::set_config"]}
{"id": "C43", "title": "Sensor calibration formula", "statement": "For each sensor, a successful update stores the raw sample and computes corrected = C*(raw - bias), where C is assembled from the configuration; it succeeds exactly when the sample, the differences and all partial sums are finite, and keeps the configuration. In exact arithmetic the default configuration is the identity.", "quantifier": "all configurations, all samples", "why_tests_cant": "All configurations and samples.", "anchors": ["open_ahrs/src/gyrometer.rs::correct", "open_ahrs/src/gyrometer.rs::update", "open_ahrs/src/accelerometer.rs::correct", "open_ahrs/src/magnetometer.rs::correct"]}
{"id": "C44", "title": "Sensor life cycle", "statement": "For each sensor: every use before a successful init reports the not-initialised error and changes nothing; init succeeds at most once; a failed init leaves the sensor uninitialised and a later valid init yields the same sensor as a first valid init.", "quantifier": "every history of sensor calls", "why_tests_cant": "History property.", "anchors": ["open_ahrs/src/gyrometer.rs::init", "open_ahrs/src/accelerometer.rs::init", "open_ahrs/src/magnetometer.rs::init"]}
{"id": "C45", "title": "A rejected sample never reaches the corrected measurement", "statement": "If update is given a NaN or infinite sample it fails and the corrected measurements are unchanged, although raw components before the offending one have been overwritten. When the sample is finite but a difference raw - bias overflows, update fails; the corrected components before the first such one read raw - bias and the others are unchanged. When the differences are finite but the products or sums overflow, update fails and all corrected measurements read raw - bias.", "quantifier": "every sensor state and every sample", "why_tests_cant": "All samples, all fault positions.", "anchors": ["open_ahrs/src/gyrometer.rs::update", "open_ahrs/src/accelerometer.rs::update", "open_ahrs/src/magnetometer.rs::update"]}
{"id": "C46", "title": "AR filter: a failed initialisation can be permanent", "statement": "If AR init fails because an initial quaternion component is not finite (with a valid gyrometer configuration), every later init of that filter fails with GyrAlreadyInit and every update and get_attitude fails with ARFilterNotInit, whatever is tried. A first init succeeds exactly when all its configuration values and quaternion components are finite and then shows exactly that quaternion; a failure caused by the configuration can be repaired; a second init is always refused.", "quantifier": "every later history of calls on the filter", "why_tests_cant": "Statement about all continuations of a history.", "anchors": ["open_ahrs/src/ar.rs::init", "open_ahrs/src/ar.rs::update", "open_ahrs/src/ar.rs::get_attitude"]}
{"id": "C47", "title": "AR filter: no drift when stationary", "statement": "If the norm of the corrected angular rates is at most EPSILON, update returns Ok and leaves the attitude bit-for-bit unchanged, for every integration method, step and order.", "quantifier": "all filter states, all samples below threshold, all methods", "why_tests_cant": "All states and samples.", "anchors": ["open_ahrs/src/ar.rs::update"]}
{"id": "C48", "title": "AR filter: attitude stays a unit quaternion", "statement": "In exact arithmetic, starting from a unit quaternion, after any sequence of successful closed-form, Euler or first-order Taylor updates the attitude has norm exactly 1; for any order and any start it is a unit quaternion or zero after a successful moving update.", "quantifier": "every finite sequence of updates, all rates, all time steps", "why_tests_cant": "Induction over unboundedly many updates.", "anchors": ["open_ahrs/src/ar.rs::update"]}
{"id": "C49", "title": "AR filter: closed form is the exact constant-rate rotation", "statement": "In exact arithmetic a closed-form update multiplies the attitude on the right by the rotation quaternion of angle norm(w)*ts around w; two updates of half the step compose to one full step.", "quantifier": "all unit attitudes, all rates above threshold, all time steps", "why_tests_cant": "All inputs.", "anchors": ["open_ahrs/src/ar.rs::update", "open_ahrs/src/common.rs::calculate_omega_matrix"]}
{"id": "C50", "title": "AR filter: integration methods disagree on the frame", "statement": "In exact arithmetic the Euler update applies the rate on the left of the attitude quaternion while closed form and Taylor apply it on the right; AdamsBashforth and RungeKutta fail with ARMethodError exactly when the sensor is moving, leaving the attitude unchanged.", "quantifier": "all attitudes, rates and steps", "why_tests_cant": "All inputs; the difference vanishes for the identity attitude used in simple tests.", "anchors": ["open_ahrs/src/ar.rs::update"]}
{"id": "C51", "title": "Taylor order limits", "statement": "factorial(n) is n! exactly for n <= 20 and overflows for n >= 21, so a Taylor update of order at least 21 with a moving sensor panics in a build with overflow checks; without the checks factorial wraps modulo 2^64 and is 0 from 66 on. Up to order 20 the update applies the identity plus the sum of the element-wise (not matrix) powers of the half-step rate matrix over n!, and normalises.", "quantifier": "every order in 0..255, all states", "why_tests_cant": "All orders and states.", "anchors": ["utils/src/lib.rs::factorial", "open_ahrs/src/ar.rs::update"]}
{"id": "C52", "title": "AQUA: initialisation", "statement": "On a new AQUA filter init succeeds exactly when all sensor parameters are finite, a gyrometer configuration is given in MARG mode, and the initial quaternion is absent or complete and finite; the filter then shows that quaternion (by default the identity) and those configurations, and refuses another init with AquaFilterAlreadyInit. If init fails, every later init fails with LinalgError(AlreadyInit) and every update and get_attitude fails with AquaFilterNotInit.", "quantifier": "every argument; every later history of calls", "why_tests_cant": "Statement about all continuations.", "anchors": ["open_ahrs/src/aqua.rs::init"]}
{"id": "C53", "title": "AQUA: gyrometer arguments", "statement": "In MARG mode update fails with NoGyroRawMeasurements when no rate is given and InvalidGyroRawMeasurements when some but not all are given, without changing anything; in AM mode the rates and the previous attitude have no influence on the result.", "quantifier": "all states, all samples", "why_tests_cant": "All combinations and states.", "anchors": ["open_ahrs/src/aqua.rs::update"]}
{"id": "C54", "title": "AQUA: the attitude is a unit quaternion after every successful update", "statement": "In exact arithmetic each successful AM update leaves a unit quaternion. Each successful MARG update leaves a quaternion of norm 1 or 0; norm 1 if the filter was initialised with a quaternion of norm above EPSILON, whatever happened in between, updates that failed half way and new sensor configurations included. A MARG filter that shows the zero quaternion shows it after every successful update.", "quantifier": "every history of calls", "why_tests_cant": "Induction over histories.", "anchors": ["open_ahrs/src/aqua.rs::update"]}
{"id": "C55", "title": "AQUA: the adaptive gain is multiplied up and locks the filter", "statement": "With 0 < t1 < t2, each MARG sample with adaptive gain multiplies the stored gain by 1 when its relative error is at most t1, by the negative number (t1-e)/t1 when the error is strictly between, and by 0 when it is at least t2; the update fails with InvalidAlpha exactly when the product of the initial gain and all factors so far is outside [0,1], and then leaves the attitude unchanged. So from a positive gain one sample with an error between the thresholds makes that update and every later one with a small error fail.", "quantifier": "all lists of samples, all settings in range", "why_tests_cant": "Products over histories; no finite test shows the permanent lock.", "anchors": ["open_ahrs/src/aqua.rs::calculate_adaptative_gain", "open_ahrs/src/aqua.rs::interpolate", "open_ahrs/src/aqua.rs::update"]}
{"id": "C56", "title": "AQUA: the adaptive gain never recovers", "statement": "After one MARG sample whose relative error is at least t2 the accelerometer has no influence any more: two later samples with equal rates and field but different accelerations lead to the same attitude whenever both are accepted.", "quantifier": "every later list of samples", "why_tests_cant": "History property.", "anchors": ["open_ahrs/src/aqua.rs::update", "open_ahrs/src/aqua.rs::calculate_adaptative_gain"]}
{"id": "C57", "title": "Davenport update never succeeds", "statement": "In every history of calls on a Davenport filter, update fails (DavenportFilterNotInit before a successful init, AccNotInit afterwards), and an init that fails on its weights makes every later init fail.", "quantifier": "every history of calls", "why_tests_cant": "Universally quantified negative over histories.", "anchors": ["open_ahrs/src/davenport.rs::init", "open_ahrs/src/davenport.rs::update"]}
{"id": "C58", "title": "Complex numbers", "statement": "Complex::new ignores its arguments; in exact arithmetic add, sub, mul and div on stored values are the complex field operations, division failing exactly on a denominator both of whose components are within EPSILON of zero; neg, conjugate, calculate_module, expo and convert_from_polar are the mathematical functions, except that calculate_module and expo are cut to zero when the modulus is at most EPSILON.", "quantifier": "all values", "why_tests_cant": "All values.", "anchors": ["dsp/src/complex.rs::new", "dsp/src/complex.rs::mul", "dsp/src/complex.rs::div"]}
{"id": "C59", "title": "Bit reversal", "statement": "The FFT index permutation reverses the low b bits: for b in 0..8 bit i of the result is bit b-1-i of n and the bits above are zero, so applying it twice gives the low b bits back and it permutes the indices below 2^b; b > 8 is an error.", "quantifier": "all n: u8 and b: u8", "why_tests_cant": "65536 pairs; involution ties them together.", "anchors": ["dsp/src/fft.rs::bitrev"]}
{"id": "C60", "title": "Scalar helpers", "statement": "clip returns a value inside [lo,hi], the argument itself when inside, for lo <= hi in any total order; in_range, min, max and sign (also of integers) decide what they say, with NaN in no range; allclose fails exactly on NaN/Inf operands.", "quantifier": "all values, every interpretation of f32 comparison", "why_tests_cant": "All values including NaN.", "anchors": ["utils/src/lib.rs::clip", "utils/src/lib.rs::in_range", "utils/src/lib.rs::allclose", "utils/src/lib.rs::sign"]}
{"id": "C61", "title": "Random attitudes are constant", "statement": "generate_random_attitudes divides two integers before converting, so unless the generator draws exactly u64::MAX the three uniforms are 0 and the result is the same whatever the random source: attitude n is the rotation about y by (n+1)*PI/32. With any source the attitudes are unit quaternions, each at most PI/64 away (as 4-vectors) from the one before, and only 1 to 4 of them can be asked for.", "quantifier": "every sequence of 64-bit random draws", "why_tests_cant": "Probabilistic test output hides it; the claim is over all random sources.", "anchors": ["open_ahrs/src/common.rs::generate_random_attitudes"]}
{"id": "C62", "title": "Special orthogonal tests", "statement": "In exact arithmetic is_orthogonal fails only with Singular, exactly when det does; otherwise it returns true exactly when the absolute determinant is within tolerance of 1 and A*transpose(A) is the identity within tolerance entrywise. is_so_n returns true exactly when det succeeds with a value within tolerance of 1 and A*transpose(A) is the identity within tolerance. A quarter turn is reported as Singular, and a rotation of size 4 can be rejected.", "quantifier": "all square matrices", "why_tests_cant": "All matrices.", "anchors": ["linalg/src/matrix.rs::is_orthogonal", "linalg/src/matrix.rs::is_so_n"]}
{"id": "C63", "title": "Copies are faithful", "statement": "duplicate and copy_from of an initialised object give an object with equal dimensions and equal elements at every position; they never fail on a reachable initialised object of the same size.", "quantifier": "every reachable object", "why_tests_cant": "All states.", "anchors": ["linalg/src/vector.rs::duplicate", "linalg/src/vector.rs::copy_from", "linalg/src/matrix.rs::duplicate", "linalg/src/matrix.rs::copy_from"]}
{"id": "C64", "title": "Euler angles", "statement": "In exact arithmetic convert_to_euler of a unit quaternion away from gimbal lock returns roll, pitch and yaw whose composed elementary rotations (yaw after pitch after roll) equal convert_to_dcm of that quaternion. In gimbal lock roll and yaw are both 0 whatever the attitude. For a quaternion that is not a unit the pitch can be NaN with success reported.", "quantifier": "all real unit quaternions; for the last part all real quaternions with 2|wy - zx| > 1", "why_tests_cant": "All quaternions.", "anchors": ["quaternion/src/quaternion.rs::convert_to_euler", "quaternion/src/quaternion.rs::convert_to_dcm"]}
{"id": "C65", "title": "Positive definiteness test", "statement": "In exact arithmetic, up to size 3 and on a matrix symmetric within tolerance, is_positive_definite returns true only if every leading minor is non-negative and false only if some leading minor is negative, otherwise it fails with Singular. At size 1 it answers whether the element is non-negative. At size 2 it answers false if A00 < 0, otherwise fails with Singular if max(A00, A10) < EPSILON, otherwise answers whether the determinant is non-negative. At size 4 it can reject a positive definite matrix, so that chol fails on it; singular matrices can be accepted.", "quantifier": "all real square matrices; sizes 1..3 for the general part", "why_tests_cant": "All matrices; depends on the sign rule of det for every row permutation.", "anchors": ["linalg/src/matrix.rs::is_positive_definite", "linalg/src/matrix.rs::chol"]}
{"id": "C66", "title": "Sensor calls never panic and expose only finite values", "statement": "In every history of calls on a sensor no call panics, and once the sensor is initialised every configuration parameter and corrected component read from it is finite, also after failed calls.", "quantifier": "every history of sensor calls", "why_tests_cant": "History property.", "anchors": ["open_ahrs/src/gyrometer.rs::update", "open_ahrs/src/accelerometer.rs::update", "open_ahrs/src/magnetometer.rs::update"]}
{"id": "C67", "title": "Meaning of the cross-axis factor names", "statement": "For gyrometer and accelerometer the configuration factor named ab acts on corrected axis b only. For the magnetometer this is false: xz acts on y; there the factor carrying x into y is xz, x into z is yz, y into x is xy, y into z is zy, z into x is yx and z into y is zx.", "quantifier": "all configurations differing in one factor, all samples", "why_tests_cant": "Needs every pair of configurations.", "anchors": ["open_ahrs/src/gyrometer.rs::set_config", "open_ahrs/src/accelerometer.rs::set_config", "open_ahrs/src/magnetometer.rs::set_config"]}
{"id": "C68", "title": "The second-order Taylor series mistakes the rate", "statement": "In exact arithmetic a second-order Taylor update from the identity replaces each component t of half the rotation vector by t + t^2/2 and normalises: opposite rates never lead to inverse attitudes, and a rotation of -4 rad about the first axis is not seen at all.", "quantifier": "all rates above threshold, all time steps", "why_tests_cant": "All rates; invisible for small steps within a test tolerance.", "anchors": ["open_ahrs/src/ar.rs::update"]}
{"id": "C69", "title": "AQUA: an AM update is the exact alignment of both sensors", "statement": "In exact arithmetic an AM update with corrected acceleration a and corrected field m whose norms exceed EPSILON, not parallel to each other, succeeds and shows a unit quaternion Q with star(Q) a Q = (0, 0, -|a|) and star(Q) m Q = (x, 0, z), x > 0; that quaternion is unique up to sign. When the field is a multiple of the acceleration, or its norm is at most EPSILON, the update fails with Nan.", "quantifier": "all corrected samples, all started AM filters, whatever happened before", "why_tests_cant": "All real samples; both sign branches of both partial quaternions.", "anchors": ["open_ahrs/src/aqua.rs::update"]}
{"id": "C70", "title": "AQUA: what a MARG update computes", "statement": "In exact arithmetic without adaptive gain: the new attitude is the normalised product of the prediction (attitude plus half the step times attitude times rate, normalised), the interpolated correction of the acceleration and the interpolated correction of the field, and the update succeeds exactly when these exist. With both gains 0 it is the integration of the rate; an attitude at rest that agrees with both sensors (acceleration of norm at least 1) is kept, whatever the gains; with field gain 1 and the acceleration ignored or of norm 1, the horizontal part of the field lies along the positive first axis afterwards.", "quantifier": "all attitudes, samples, calibrations and gains in range", "why_tests_cant": "All real values.", "anchors": ["open_ahrs/src/aqua.rs::update", "open_ahrs/src/aqua.rs::interpolate"]}
{"id": "C71", "title": "AQUA: the MARG correction does not normalise the acceleration", "statement": "In exact arithmetic, at rest, with acceleration gain 1 and field gain 0, from a unit attitude that sees the corrected acceleration as (x, y, z) with z < 0 (and the threshold below the scalar part of the correction), a successful update sees the acceleration with horizontal part a positive multiple of (x, y)(1 - |a|^2): it is aligned only when |a| = 1 or it was aligned before, and a real gravity of 9.81 is overshot.", "quantifier": "all such attitudes, samples and calibrations", "why_tests_cant": "All real values; a test with a unit acceleration hides it.", "anchors": ["open_ahrs/src/aqua.rs::update"]}
{"id": "C72", "title": "Quaternion accessors", "statement": "On an initialised vector of size 4 the getters read elements 0 to 3 as w, x, y, z; a setter with a finite value replaces exactly its element, and refuses NaN (Nan) and infinities (Inf) without effect; fillq and fill_identity set all four; get_vector_part is the 3-vector of the last three. On an initialised vector of another size every accessor, predicate and conjugate fails with InvalidSize without effect, and before init with NotInit.", "quantifier": "all arithmetics, all vectors, all values", "why_tests_cant": "Every size and every value, including NaN and infinities.", "anchors": ["quaternion/src/quaternion.rs::get_qw", "quaternion/src/quaternion.rs::set_qw", "quaternion/src/quaternion.rs::fillq", "quaternion/src/quaternion.rs::fill_identity", "quaternion/src/quaternion.rs::get_vector_part", "quaternion/src/quaternion.rs::is_quaternion"]}
{"id": "C73", "title": "Quaternion predicates", "statement": "In exact arithmetic: is_real answers whether the three vector components are within 1e-4 of 0, is_pure whether the real part is, is_versor whether the norm is within 1e-4 of 1, and is_identity whether every component is within 1e-4 of the identity; none of them fails.", "quantifier": "all quaternions", "why_tests_cant": "All real values, at and around the threshold.", "anchors": ["quaternion/src/quaternion.rs::is_real", "quaternion/src/quaternion.rs::is_pure", "quaternion/src/quaternion.rs::is_versor", "quaternion/src/quaternion.rs::is_identity"]}
{"id": "C74", "title": "Matrix logarithm", "statement": "In exact arithmetic, for a square matrix A whose determinant can be computed, with t = (trace - 1)/2: when -1 < t < 1, log and log_in_place return arccos t / (2 sin(arccos t)) times A - transpose(A), rotation or not; otherwise both fail with Nan, and log_in_place leaves A - transpose(A). Hence for the rotation by an angle in (0, pi) about a unit vector the result is the angle times the cross-product matrix, and log of the identity fails. When det fails both fail with its error, without effect.", "quantifier": "all square matrices of size 1 to 4, all angles and axes", "why_tests_cant": "All real values; the identity and half turns are isolated points.", "anchors": ["linalg/src/matrix.rs::log", "linalg/src/matrix.rs::log_in_place"]}
{"id": "C75", "title": "Adjugate and Lyapunov stub", "statement": "In exact arithmetic, up to size 3 and when det does not fail, adjugate_in_place stores the determinant times the transpose; for an orthogonal matrix that is the adjugate, for others it is not (witness) although success is reported. dlyap tests squareness, then positive definiteness of its argument, then the sizes, with the matching errors, and otherwise returns zeros, which solve A X A^T - X + Q = 0 only for Q = 0.", "quantifier": "all matrices", "why_tests_cant": "All real values and all sizes.", "anchors": ["linalg/src/matrix.rs::adjugate_in_place", "linalg/src/matrix.rs::dlyap"]}
{"id": "C76", "title": "Accuracy of products in f32", "statement": "With IEEE binary32 rounding: for finite vectors of length n whose absolute products sum to at most 2^126, dot_product succeeds and differs from the exact scalar product by at most 3n/2^24 times the sum of the absolute products (plus 3n/2^150 for underflow). The same holds for every element of mul of two matrices.", "quantifier": "all finite binary32 vectors and matrices of every size, without cancellation conditions", "why_tests_cant": "Rounding depends on all bits of all operands; tests see a few values.", "anchors": ["linalg/src/vector.rs::dot_product", "linalg/src/matrix.rs::mul"]}
{"id": "C77", "title": "Norm and normalize in f32", "statement": "With IEEE binary32 rounding, on any finite vector: calculate_norm always answers; below 2^63 the answer is the Euclidean norm up to a relative 6e-7, or 0 below about 1e-4; above 1.001 * 2^64 it is infinity, with Ok. normalize always answers Ok; the result is exactly zero (norm at most 1.0001e-4, or so large that squares overflow), or has norm 1 up to 1e-6 with every component within 1e-6 of the exact unit vector.", "quantifier": "all finite binary32 vectors", "why_tests_cant": "The overflow and underflow regimes and every rounding pattern.", "anchors": ["linalg/src/vector.rs::calculate_norm", "linalg/src/vector.rs::normalize"]}
{"id": "C78", "title": "Versor test in f32", "statement": "With IEEE binary32 rounding, on any finite quaternion: is_versor answers true when the norm is within 0.98e-4 of 1, false when it is at least 1.02e-4 away (up to 2^63), and fails with Inf when the squares overflow. Every non-zero result of normalize passes is_versor; the zero result does not.", "quantifier": "all finite binary32 quaternions", "why_tests_cant": "All rounding patterns near the threshold.", "anchors": ["quaternion/src/quaternion.rs::is_versor", "linalg/src/vector.rs::normalize"]}
{"id": "C79", "title": "Accuracy of the quaternion product in f32", "statement": "With IEEE binary32 rounding: for finite quaternions whose norms multiply to at most 2^126, mul succeeds with a finite result, which differs from the exact Hamilton product in norm by at most 24/2^24 times the product of the norms (plus 24/2^150 for underflow).", "quantifier": "all finite binary32 quaternions", "why_tests_cant": "All rounding patterns and cancellations.", "anchors": ["quaternion/src/quaternion.rs::mul", "quaternion/src/quaternion.rs::mul_new"]}
{"id": "C80", "title": "AR filter in f32", "statement": "With IEEE binary32 rounding: a successful update leaves the attitude as it was, or makes its norm 1 up to 1e-6, or makes it exactly zero. With the closed form or the Taylor series, from a unit start, this holds after any sequence of calls, failed or not. A zero attitude is permanent under any further calls and any method, although the updates report success; a single oversized rate (2^100 rad/s with the Euler method) produces one.", "quantifier": "all binary32 samples, calibrations, time steps and call sequences", "why_tests_cant": "Unbounded call sequences; rounding at every operation.", "anchors": ["open_ahrs/src/ar.rs::update", "open_ahrs/src/ar.rs::get_attitude", "linalg/src/vector.rs::normalize"]}
{"id": "C81", "title": "Sensor calibration in f32", "statement": "With IEEE binary32 rounding: for a configured sensor and a finite sample that is within B of the biases, with calibration coefficients up to C, B <= 2^126, C <= 2^98 and C B <= 2^122, the update succeeds and each corrected component differs from the exact calibration formula by at most 11/2^24 times the sum of the absolute terms, plus (9 + 4C)/2^150. This holds for the gyrometer, the accelerometer and the magnetometer.", "quantifier": "all finite binary32 samples and configurations in that range", "why_tests_cant": "All rounding patterns and cancellations between the axes.", "anchors": ["open_ahrs/src/gyrometer.rs::update", "open_ahrs/src/accelerometer.rs::update", "open_ahrs/src/magnetometer.rs::update"]}
{"id": "C82", "title": "AR closed form in f32: one step", "statement": "With IEEE binary32 rounding and sinf/cosf within 2^-22 of the exact values: from an attitude A of norm between 1/2 and 2 with the closed form, when the gyrometer reads a rate w with 1.0001e-4 < |w| <= 2^63 and |w| |ts| <= 2000, update succeeds, and the new attitude has norm 1 up to 1e-6 and differs from the exact rotation A/|A| * exp(w ts/2) by at most 1.4e-5 + 6.3e-6 |w| |ts|/2.", "quantifier": "all binary32 attitudes, rates and time steps in that range", "why_tests_cant": "All rounding patterns.", "anchors": ["open_ahrs/src/ar.rs::update", "open_ahrs/src/common.rs::calculate_omega_matrix"]}
{"id": "C83", "title": "AR closed form in f32: tracking", "statement": "With IEEE binary32 rounding and sinf/cosf within 2^-22 of the exact values: a filter started within E of a unit quaternion and fed with any number k of finite raw samples within B of the biases (coefficients up to C, C B <= 2^60, C B |ts| <= 300, |ts| <= 1e6) accepts every one, keeps norm 1 up to 1e-6, and is after k samples within E + k (1.5e-5 + 5.1e-5 |ts| + 2e-5 C B |ts|) of the attitude obtained by turning exactly with the exactly calibrated rates, samples below the threshold included.", "quantifier": "all sequences of binary32 samples, of any length", "why_tests_cant": "Unbounded sequences; accumulated rounding.", "anchors": ["open_ahrs/src/ar.rs::update", "open_ahrs/src/gyrometer.rs::update", "open_ahrs/src/ar.rs::get_attitude"]}
{"id": "C84", "title": "Shifted eigenvalue iteration", "statement": "In exact arithmetic, eigen(a, niter, true) on a symmetric 2x2 matrix whose eigenvalues are more than 4 EPSILON apart succeeds for every niter, returns an orthogonal matrix V, and returns either all-zero eigenvalues or the diagonal of V^T A V. The same holds for every size from 2 on when the shift never brings a matrix orthogonally similar to A within EPSILON of a singular one.", "quantifier": "all such real matrices, every niter", "why_tests_cant": "All matrices and iteration counts; the shift depends on every earlier step.", "anchors": ["linalg/src/linalg.rs::eigen"]}
{"id": "C85", "title": "eigen on orthogonal matrices", "statement": "In exact arithmetic, eigen(a, niter, false) with niter >= 2 on an orthogonal matrix with diagonal of norm above EPSILON returns Ok with the diagonal of the matrix as eigenvalues and the square of the matrix as eigenvectors. For [[3/5,4/5],[4/5,-3/5]], which has eigenvalues 1 and -1, it reports 3/5 and -3/5.", "quantifier": "all orthogonal matrices of sizes 1..4, every niter >= 2", "why_tests_cant": "All orthogonal matrices; a test shows one.", "anchors": ["linalg/src/linalg.rs::eigen"]}
{"id": "C86", "title": "Uninitialised objects", "statement": "A vector or matrix that is not initialised has zero dimensions (after new) or its old dimensions (after a failed reinit). Element and dimension getters, comparisons, sums, scalar and outer products, lup, solve, eigen, lr, lu_crout, determinants, inverse, logarithm and the tests built on them return NotInit, whichever side of a binary operation the object is on; every write (set_element, reinit, copy_from, add, sub, transpose, invert, the quaternion methods) returns NotInit and changes nothing. The element loops (fill, *_scalar_in_place, power_elements, normalize) return NotInit when the object still has elements and Ok after new, changing nothing. With old dimensions also duplicate, transpose_new, qr_decomp, calculate_frobenius_norm, row and column views, diag, mul, del_row (of an existing row that is not the only one) and add_row/add_col (unless there are already 4) return NotInit and change nothing; a triangularity test answers true if it has no element to look at and NotInit otherwise. After new: duplicate, transpose_new, qr_decomp and the views to vectors return RowsNumberNull, diag InvalidDiagonalLength, calculate_frobenius_norm Ok, is_upper_triangular Ok(true), add_row and add_col NotInit; del_row and is_lower_triangular panic with overflow checks, and without them return InvalidRow and Ok(true).", "quantifier": "all objects whose is_initialized is false, all operands and arguments, any arithmetic", "why_tests_cant": "A test covers the fresh object, not every state with the flag off, nor every method.", "anchors": ["linalg/src/vector.rs::get_rows", "linalg/src/vector.rs::fill", "linalg/src/vector.rs::normalize", "linalg/src/matrix.rs::get_cols", "linalg/src/matrix.rs::fill", "linalg/src/matrix.rs::is_square", "linalg/src/matrix.rs::duplicate", "linalg/src/matrix.rs::qr_decomp", "linalg/src/matrix.rs::calculate_frobenius_norm", "linalg/src/matrix.rs::is_upper_triangular", "linalg/src/matrix.rs::is_lower_triangular", "linalg/src/matrix.rs::diag", "linalg/src/matrix.rs::mul", "linalg/src/matrix.rs::del_row", "quaternion/src/quaternion.rs::fillq", "quaternion/src/quaternion.rs::conjugate", "quaternion/src/quaternion.rs::rotate"]}
{"id": "C87", "title": "Operands of the wrong shape", "statement": "On initialised objects: element-wise operations between different shapes fail with NotSameSize (is_same_size_as and is_equal_to answer false), also when only the second operand of a three-operand operation differs; mul and mul_new with non-matching dimensions, row and column exchange with a vector of another length, the quaternion methods on a vector without exactly four rows (either side of mul) and rotate on a vector without three rows fail with InvalidSize; trace, det, det_naive, lr, lu_crout, dlyap, solve, eigen, is_orthogonal, is_so_n, log, invert, fill_identity and adjugate_in_place on a non-square matrix fail with NotSquare, is_positive_definite and chol with NotSymetric. Nothing changes in any of these cases.", "quantifier": "all initialised vectors and matrices with the stated mismatch, all other arguments, any arithmetic", "why_tests_cant": "Tests try a few shapes; a test per pair of shapes and method is not feasible.", "anchors": ["linalg/src/vector.rs::add", "linalg/src/vector.rs::lerp", "linalg/src/vector.rs::dot_product", "linalg/src/matrix.rs::add", "linalg/src/matrix.rs::mul", "linalg/src/matrix.rs::set_row", "linalg/src/matrix.rs::get_col", "linalg/src/matrix.rs::trace", "linalg/src/matrix.rs::det", "linalg/src/linalg.rs::solve", "linalg/src/linalg.rs::eigen", "quaternion/src/quaternion.rs::mul", "quaternion/src/quaternion.rs::rotate"]}
{"id": "C88", "title": "Direction cosine matrix and rotation in binary32", "statement": "In binary32, for a quaternion with finite components and norm up to 2^60 convert_to_dcm succeeds and each of the nine entries differs from the exact one by at most 9/2^24 times one plus the squared norm. For a quaternion whose norm is 1 up to one in a million and a vector of norm up to 2^100, rotate and rotate_in_place succeed with the same vector, which differs from q v q* by at most 1e-5 of the norm of v (plus 2^-140).", "quantifier": "every quaternion and vector of binary32 numbers in those ranges", "why_tests_cant": "the bound covers every rounding of a dozen operations over all admissible operands; a test compares a handful of rotations", "anchors": ["quaternion/src/quaternion.rs::convert_to_dcm", "quaternion/src/quaternion.rs::rotate", "quaternion/src/quaternion.rs::rotate_in_place"]}
{"id": "C89", "title": "Alignment by the AM mode in binary32", "statement": "In binary32, when the calibrated readings of accelerometer and magnetometer have norms between 1.0001e-4 and 2^63 and the sine of the angle between them is at least 1e-4, an AM update of an initialised filter succeeds whatever its history. The attitude is then a unit quaternion up to one in a million, it takes the measured acceleration to the negative third axis up to 3e-5 of its norm, and the measured field to the half plane of the first and third axes, on the side of the positive first axis, up to 5e-5 of its norm.", "quantifier": "every history, calibration and pair of samples in those ranges", "why_tests_cant": "the guarantee combines two normalisations, four square roots, a rotation, a product and a case split on signs, near whose boundary tests seldom sample", "anchors": ["open_ahrs/src/aqua.rs::update", "open_ahrs/src/aqua.rs::get_attitude"]}
{"id": "C90", "title": "Loss of the attitude in binary32", "statement": "In binary32 every successful AQUA update, in either mode and after any history, leaves a quaternion whose norm is 1 up to one in a million, or the zero quaternion. In the MARG mode with a finite sampling time a zero attitude is permanent: no later call changes it, whatever its arguments and its result. Both happen: a MARG filter that starts at the identity and is given a rate of 2^120 about one axis, gravity straight down and a horizontal field accepts the update and reads zero from then on.", "quantifier": "every history, mode, configuration and sample", "why_tests_cant": "the loss needs an overflow in the integration of the rate that the checks for NaN and infinity do not see, and permanence is a statement about unbounded sequences of calls", "anchors": ["open_ahrs/src/aqua.rs::update", "open_ahrs/src/aqua.rs::get_attitude", "open_ahrs/src/aqua.rs::init"]}
{"id": "C91", "title": "Complex numbers of the temp/dsp prototype", "statement": "new accepts exactly finite parts, and the getters return exactly finite parts. add, sub, mul and their in-place forms, div, neg, conjugate, copy_from, duplicate, swap, calculate_module, convert_from_polar and expo of finite numbers compute, in exact arithmetic, the complex operation of their name; the modulus and the exponential are replaced by zero when their size is at most EPSILON, and div fails exactly when both parts of the divisor are at most EPSILON in size. When they fail, mul, div, conjugate, copy_from and expo change nothing; convert_from_polar of a NaN or infinite radius or angle reports which and changes nothing, but add, sub, add_in_place, sub_in_place and swap may already have replaced the real part. add_in_place and sub_in_place never look at the receiver, and expo never looks at the imaginary part, so each can succeed and leave a number that cannot be read.", "quantifier": "every pair of operands, including NaN and infinity, every receiver", "why_tests_cant": "half-written receivers appear only when one part is invalid and the other is not; the algebraic identities are over a continuum of operands", "anchors": ["temp/dsp/src/main.rs::new", "temp/dsp/src/main.rs::get_real_part", "temp/dsp/src/main.rs::add", "temp/dsp/src/main.rs::sub", "temp/dsp/src/main.rs::add_in_place", "temp/dsp/src/main.rs::sub_in_place", "temp/dsp/src/main.rs::mul", "temp/dsp/src/main.rs::mul_in_place", "temp/dsp/src/main.rs::div", "temp/dsp/src/main.rs::swap", "temp/dsp/src/main.rs::expo", "temp/dsp/src/main.rs::calculate_module", "temp/dsp/src/main.rs::convert_from_polar", "temp/dsp/src/main.rs::neg", "temp/dsp/src/main.rs::conjugate", "temp/dsp/src/main.rs::copy_from", "temp/dsp/src/main.rs::duplicate"]}
{"id": "C92", "title": "Discrete Fourier transform of temp/dsp", "statement": "A call of dft_naive that succeeds was given finite samples, and every result can be read. In exact arithmetic it succeeds for all finite samples, and result k is the sum of the samples times exp(-2 i p k n / 16), where p is the constant PI of the program; it differs from the discrete Fourier transform by at most 7e-15 of the sum of the moduli of the samples. Applied twice it gives sixteen times the samples in reversed order, up to 3e-13 of that sum.", "quantifier": "every array of sixteen complex samples", "why_tests_cant": "the statement identifies the whole linear map, which finitely many signals only probe, and bounds the effect of the truncated constant", "anchors": ["temp/dsp/src/main.rs::dft_naive"]}
{"id": "C93", "title": "The transform of temp/dsp in binary32", "statement": "In binary32, with a sine and a cosine good to 2^-22, dft_naive succeeds for finite samples whose absolute values sum to at most 2^90, and both parts of every result are within 3e-5 of that sum of the true transform. main then never panics and does not print the message of a failure: it prints sixteen numbered finite results, each part within 0.002 of the true transform of 1, 2, 3, 4 repeated, which is 40 at 0, -8+8i at 4, -8 at 8, -8-8i at 12 and zero elsewhere.", "quantifier": "every array of sixteen binary32 samples in that range, every sine and cosine of that quality", "why_tests_cant": "the bound covers angle, sine, cosine, product and summation error for all signals and all such libraries", "anchors": ["temp/dsp/src/main.rs::dft_naive", "temp/dsp/src/main.rs::main"]}
{"id": "C94", "title": "LUP factorisation, linear solve and inversion in binary32", "statement": "In binary32 lup, solve and invert have no hidden error: whenever they succeed, on a matrix of any finite or non-finite content, every stored value is finite and the residuals are bounded componentwise. The permuted argument differs from L U by at most n 2^-24 |L||U| plus a few multiples of 2^-150; a solution x of A x = b has a residual of at most 12 2^-24 |L||U||x| plus such multiples; the product of A and the inverse V differs from the identity by at most 12 2^-24 |L||U||V| plus such multiples. |L||U| cannot be replaced by |A|: for one system of two equations with coefficients at most 2, determinant at least 1 and solution at most 2, a residual of 1/2100 remains, because the pivot search compares signed values.", "quantifier": "every square matrix and right-hand side, no bound on the size of the numbers; a concrete system for the last part", "why_tests_cant": "the bound holds for every matrix and every rounding pattern; tests use a few benign matrices and a tolerance", "anchors": ["linalg/src/linalg.rs::lup", "linalg/src/linalg.rs::solve", "linalg/src/matrix.rs::Matrix::invert"]}
{"id": "C95", "title": "Simulated sensors of the open_ahrs test", "statement": "The simulation in the test of open_ahrs succeeds for every table of finite attitudes, every pair of global vectors and every non-zero sampling period. Column n of the simulated gyrometer is the vector part of (2 / ts) conj(q[n]) q[n+1], columns n of the accelerometer and the magnetometer are the global vectors conjugated by q[n], in exact arithmetic; the three methods for the angular rate agree, also for quaternions of any norm. For unit attitudes successive accelerometer columns differ by the rotation q[n+1] conj(q[n]), and the gyrometer reports that same rotation rate brought into another frame, not the opposite rate that a sensor fixed to the body would report.", "quantifier": "every number of steps, every table of attitudes, every sampling period", "why_tests_cant": "the identities are over all attitudes; the test only generates rotations about one axis, for which the frames coincide", "anchors": ["open_ahrs/src/lib.rs::ar_series_method_test"]}
{"id": "C96", "title": "What the open_ahrs test prints", "statement": "Whatever the random generator draws, except the word u64::MAX, the test of open_ahrs ends without a panic and prints the same tables, in exact arithmetic: attitudes of pitch 2(n+1)d with d = PI/64 and no roll or yaw, a constant rate of 200 sin d about y, the readings of these attitudes, AR estimates of pitch 2(d + (n+1) arctan(sin d)), and AQUA estimates strictly between the pitch before the step and the AR estimate. The AR estimate is more than 0.0021(n+1) degrees below the attitude it should reach.", "quantifier": "every sequence of draws below u64::MAX", "why_tests_cant": "the test has no assertion; what it prints is the same for all those sequences, which running it a few times cannot show", "anchors": ["open_ahrs/src/lib.rs::ar_series_method_test", "open_ahrs/src/common.rs::generate_random_attitudes"]}
{"id": "C97", "title": "Convergence of the eigenvalue iteration", "statement": "Unshifted eigen on a symmetric matrix whose quadratic form is between l > EPSILON and L on unit vectors, in exact arithmetic: it returns an orthogonal matrix, and either zeros, after fewer than (n-1)sqrt(2n)/EPSILON + 2 iterations, or numbers between l and L such that every column is an eigenvector up to a residual of squared length 2 EPSILON L max(1, 2L), every number is as near to an eigenvalue, and every eigenvalue is within the root of 6 EPSILON L max(1, 2L) of a number. Up to size 3, 48991 iterations always suffice. In binary32, on [[1, 7/1024], [7/1024, 1]] it stops after two iterations with numbers at least 6/1024 from both eigenvalues.", "quantifier": "every such matrix of size 1 to 4 and every number of iterations; one matrix in binary32 for the last sentence", "why_tests_cant": "the number of iterations needed grows without a visible bound as eigenvalues approach each other, and the results of a run look converged when they are not", "anchors": ["linalg/src/linalg.rs::eigen", "linalg/src/matrix.rs::qr_decomp"]}
{"id": "C98", "title": "Measurements written by the generator", "statement": "In exact arithmetic generate_raw_measurements.py ends without an exception and each number in build/raw_measurements.csv is the nearest number with three decimals to what it computes. For every attitude outside gimbal lock, the readings are the fields (0, 0, -9.81) and (48, 0, 0) as rotate turns them for a unit quaternion with the same Euler angles, so they keep their magnitude; they are not turned to the sensor frame, and in the first quadrant of roll, pitch and yaw the first component of the acceleration has the wrong sign. The rates are the rates of turn in the sensor frame at the end of a period during which the angles change evenly, whenever the pitch is not a right angle.", "quantifier": "every roll, pitch and yaw, every earlier attitude and every period other than zero; all 54 numbers of the file", "why_tests_cant": "the file has six rows, and the frames agree on the first one", "anchors": ["generate_raw_measurements.py::GenerateRawMeasurements", "generate_raw_measurements.py::main", "quaternion/src/quaternion.rs::rotate", "quaternion/src/quaternion.rs::convert_to_euler"]}
{"id": "C99", "title": "Determinants in binary32", "statement": "A finite result of det_naive in binary32 on a matrix of size n differs from the determinant by at most (n!+n+2) 2^-24 times the sum, over all permutations, of the products of the magnitudes, plus multiples of 2^-150. A finite result of det is, up to (n+1) 2^-24 of itself and multiples of 2^-150, plus or minus the determinant of a matrix that differs from the argument by at most the error of lup; the sign is wrong exactly when the row order found by lup exchanges two disjoint pairs of four rows.", "quantifier": "every square matrix of size 1 to 4 of binary32 numbers for which the call succeeds with a finite result", "why_tests_cant": "the bound holds for every matrix and every rounding pattern, including underflow; tests compare a few determinants of small integers, for which nothing is rounded", "anchors": ["linalg/src/matrix.rs::det_naive", "linalg/src/matrix.rs::det", "linalg/src/linalg.rs::lup"]}
{"id": "C100", "title": "Cholesky factorisation in binary32", "statement": "Whenever chol succeeds in binary32, the diagonal of the result is not negative and, on and below the diagonal, the argument differs from the product of the lower part of the result and its transpose by at most 5 2^-24 of the product of the magnitudes, hence by at most 6 2^-24 sqrt(a_ii a_jj), plus multiples of 2^-150. But what stands above the diagonal is not zero, because it is a rounding error divided by EPSILON: for rows (3, 1) and (1, 3) the result fails is_lower_triangular, and for a symmetric 4x4 matrix with elements up to 4 and eigenvalues of at least 1 the result has an element above 11900.", "quantifier": "every square matrix of binary32 numbers on which chol succeeds; concrete matrices for the last part", "why_tests_cant": "the bound holds for every matrix and rounding pattern; a test with a matrix whose factor has no rounding, as with small integers, sees zeros above the diagonal", "anchors": ["linalg/src/matrix.rs::chol"]}
{"id": "C101", "title": "QR factorisation in binary32", "statement": "For a square matrix of binary32 numbers up to 2^60 qr_decomp succeeds. R is the transpose of Q times the matrix up to 12 2^-24 of the product of the magnitudes. Each processed column of the matrix is a combination of the columns of Q up to that one, with positive last coefficient, up to 12 2^-24 of its length; those columns of Q have length 1 up to 12 2^-24, and their scalar products are bounded by 55 2^-24 times the length of the column over its last coefficient plus the scalar products between; a column is left unprocessed only if it is within about EPSILON of a combination of the earlier ones. If the sine of the angle between the first two columns is d, at least 1000 2^-24, the first two columns of Q have a scalar product of at most 60 2^-24/d and R has below the diagonal at most 100 2^-24/d times the first length. For nearly dependent columns the claims one expects fail: for rows (4000, 4001) and (3999, 4000), determinant 1, the columns of Q make 45 degrees and the product of the factors is off by 3999; proportional columns need not be noticed; and above 2^64 the lengths overflow and a column of Q is zero, with success.", "quantifier": "every square matrix of size 1 to 4 with elements up to 2^60; concrete matrices for the failures", "why_tests_cant": "Orthogonality is lost only for nearly dependent columns, which tests with small integers do not have; the bound covers every matrix and every rounding pattern.", "anchors": ["linalg/src/matrix.rs::qr_decomp"]}
{"id": "C102", "title": "Merge step of the Fourier transform", "statement": "FFT::dftmerge ends for every object of at most 255 elements and every slice, after at most eight rounds. With fewer than two elements it succeeds. Otherwise it panics if the slice is shorter than the least power of two that is at least the number n of elements. If the slice is long enough it succeeds for n below 128, whatever the samples are (also NaN), and leaves them as they were; for n from 128 on it fails: the u8 counter overflows, which is a panic with overflow checks and the error Inf without.", "quantifier": "Every number of elements in 0..=255, every slice of samples of any length and values, both settings of the overflow checks, any arithmetic in which exp 0 and the angles are finite", "why_tests_cant": "The function is private and has no test; the reads past n and the overflow of the counter appear only for element counts that no caller can set today.", "anchors": ["dsp/src/fft.rs::dftmerge"]}
{"id": "C103", "title": "Quaternion from a rotation matrix in binary32", "statement": "Let m be the matrix that convert_to_dcm computes for a finite binary32 quaternion q of norm 1 up to 10^-6. sarabandi with its default threshold gives the magnitude of each component of q up to 10^-5. hughes gives exactly (1, 0, 0, 0) if 4(1 - w^2) is at most 8 10^-5; if it is at least 12 10^-5 and |w| is at least 1/100 it gives the conjugate of whichever of q and -q has the positive real part, each component up to 3 10^-6/w^2. chiaverini, if |w| is at least 1/100 and no vector component exceeds 1/sqrt 2, gives a quaternion of norm 1 up to 10^-6 within 1/200 of q or of -q. For the normalised half turn (0, 1, 1, 1) hughes succeeds with a quaternion of length 0.0002 and chiaverini with the identity, and chiaverini returns a component 2^-18 more than 100 times too large.", "quantifier": "All binary32 quaternions in the stated ranges, all prior contents of the result", "why_tests_cant": "The bounds concern accumulated rounding over the whole sphere, and each method has its own bad region: small angles, half turns, large vector components.", "anchors": ["quaternion/src/quaternion.rs::hughes", "quaternion/src/quaternion.rs::chiaverini", "quaternion/src/quaternion.rs::sarabandi", "quaternion/src/quaternion.rs::convert_to_dcm"]}
{"id": "C104", "title": "Euler angles in binary32", "statement": "For a finite binary32 quaternion q of norm 1 up to 10^-6 with |2(wy - zx)| at most 0.99999 convert_to_euler succeeds with finite angles: there are a roll, pitch and yaw for which the rotation of q is yaw after pitch after roll, with the pitch in [-pi/2, pi/2] and its cosine at least 0.003, and each returned angle is within 15 10^-6 divided by that cosine of the exact one. If the computed 2(wy - zx) exceeds 1, convert_to_euler still answers Ok and the pitch is NaN; this happens for the result of normalize on (3, 0, 3, 0), a pitch of a quarter turn.", "quantifier": "All binary32 quaternions in the stated range; any asinf and atan2f that are accurate to 2^-21 and give NaN outside [-1, 1]", "why_tests_cant": "The tests compare a few angles; how the error grows towards gimbal lock, and that rounding alone takes the argument of asin beyond 1, is a statement about all quaternions of norm near 1.", "anchors": ["quaternion/src/quaternion.rs::convert_to_euler"]}
{"id": "C105", "title": "lerp and slerp in binary32", "statement": "In IEEE binary32, lerp of finite components up to 2^120 with alpha in [0,1] succeeds and each component is within 4/2^24 ((1-alpha)|x| + alpha|y|) (plus underflow) of (1-alpha)x + alpha y. With sinf and cosf within 2^-22 and acosf within 2^-21, slerp of two finite vectors of norm 1 up to 10^-6 with S = sqrt(1 - d^2) at least 1/50, d being their exact scalar product and theta = arccos d, succeeds and each component is within 16 10^-6 / S^3 of (sin((1-alpha)theta)x + sin(alpha theta)y)/sin theta, and within 16 10^-6 / S^2 when d >= 0. The result v of normalize on (3, 0, 3) cannot be interpolated with itself: for every alpha in [0,1], slerp of v with v fails with UtilsError Nan, whatever the mathematical library, provided acosf is NaN above 1.", "quantifier": "All binary32 vectors, steps and mathematical libraries in the stated range", "why_tests_cant": "How the error grows as the two vectors approach each other, and that rounding alone makes a unit vector impossible to interpolate with itself, is about all vectors, not about sampled ones.", "anchors": ["linalg/src/vector.rs::lerp", "linalg/src/vector.rs::slerp", "linalg/src/vector.rs::normalize"]}
{"id": "C106", "title": "AR with Euler's method in binary32", "statement": "In IEEE binary32: from an attitude A of norm between 1/2 and 2 with the Euler method, when the gyrometer reads a rate w with 1.0001e-4 < |w| <= 2^63, |w| |ts| <= 2^60 and |ts| <= 2^100, update succeeds and the new attitude has norm 1 up to 10^-6 and is within 6 10^-6 of Y/|Y|, Y = A + (ts/2) w A. A filter started within E of a quaternion and fed with any number k of finite raw samples within B of the biases (coefficients up to C, C B <= 2^60, C B |ts| <= 2^57, |ts| <= 2^57) accepts every one, keeps norm 1 up to 10^-6, and is after k samples within E + k (7e-6 + 1.01e-4 |ts| + 5e-6 C B |ts|) of what the exact normalised Euler steps with the exactly calibrated rates give. Those exact steps stay within k h^3/3 of the rotations exp(w ts/2) applied on the left, when every |w ts/2| <= h.", "quantifier": "all sequences of binary32 samples, of any length", "why_tests_cant": "Unbounded sequences; accumulated rounding; the size of the error of the method itself.", "anchors": ["open_ahrs/src/ar.rs::update", "open_ahrs/src/gyrometer.rs::update", "open_ahrs/src/ar.rs::get_attitude"]}
{"id": "C107", "title": "When lup, det and invert succeed", "statement": "In exact arithmetic. Size 1: lup succeeds, det is the element, invert succeeds exactly when its magnitude exceeds EPSILON. Size 2, with m = max(A00, A10) taken with sign: lup and det succeed exactly when |m| >= EPSILON, invert exactly when |m| > EPSILON and |det A| > EPSILON |m|. Size 3, with q the first row having the largest element of column 0 with sign, i and j the other rows in the order left by exchanging rows 0 and q, and p the element of column 1 left in row j by the elimination if it exceeds A[i,0]/A[q,0], otherwise the one left in row i: lup and det succeed exactly when |A[q,0]| and |p| are at least EPSILON, invert exactly when both exceed it and |det A| > EPSILON |A[q,0] p|. Size 2 and above: a matrix whose first column has no element >= EPSILON but has one > -EPSILON is refused (so minus the identity is never inverted); an upper triangular matrix is factorised exactly when A00 >= EPSILON and |Akk| >= EPSILON for 0 < k < n-1, the factors are the matrix itself and det is the product of the diagonal, and invert succeeds exactly when A00 > EPSILON and all other |Akk| > EPSILON. The positive definite, diagonally dominant matrix (2,-1,0; -1,2,0; 0,0,2) makes det, invert, is_positive_definite and chol fail, as does every 3x3 matrix with first column (p,-r,0), p, r > 0, and last row (0,0,c). In binary32, none of lup, det and invert succeeds on a finite matrix of size at least 2 whose first column has no element >= EPSILON but one > -EPSILON, nor on a 3x3 matrix with first column (p,-r,0), p > 0, r >= p/2^100, last row (0,0,c) and |A01| <= 2^40.", "quantifier": "all square matrices over an arbitrary ordered field, and all binary32 matrices for the last part; sizes 1 to 4 for the last two general parts", "why_tests_cant": "Tests try matrices on which the pivot search happens to work; which matrices are refused is a statement about all of them.", "anchors": ["linalg/src/linalg.rs::lup", "linalg/src/matrix.rs::det", "linalg/src/matrix.rs::invert", "linalg/src/matrix.rs::is_positive_definite"]}
{"id": "C108", "title": "Rotations that det refuses", "statement": "In exact arithmetic, for c^2 + s^2 = 1: det of the plane rotation (c,-s; s,c) is 1 when |max(c, s)| >= EPSILON; det of the rotation about the third axis is 1 when c >= 0 and s >= 0, that is between 0 and a quarter turn; about the second axis when c >= EPSILON or -s >= EPSILON; about the first axis when s >= EPSILON, or s <= 0 and |c| >= EPSILON. In all other cases det fails with Singular. is_so_n and is_orthogonal answer true in the first cases and fail with Singular in the others. log of the rotation by an angle about the third axis is the angle times the cross-product matrix for angles in (0, pi/2], and fails with Singular for angles in (-pi, 0) and (pi/2, pi].", "quantifier": "all angles", "why_tests_cant": "The angles are a continuum; three of four quadrants of a yaw rotation are refused, which a test at one angle does not show.", "anchors": ["linalg/src/matrix.rs::det", "linalg/src/matrix.rs::is_so_n", "linalg/src/matrix.rs::is_orthogonal", "linalg/src/matrix.rs::log"]}
{"id": "C109", "title": "What is printed", "statement": "print of a vector writes each element with three decimals on a line of its own, of a matrix each row on a line with a tabulator after each element, and an empty line at the end; where it fails (NotInit, on an object that is not initialised and has elements) nothing is written, and a new object gives an empty line with Ok. For finite binary32 elements the text determines the dimensions, and every element up to 0.001 and its sign (0 and numbers of the other sign are never confused, -0.0004 is written -0.000). print_attitude writes the result of get_attitude, or fails as that does and writes nothing. In binary32 with a sine and cosine good to 2^-22 the text of the program in temp/dsp is fixed up to the signs of zeros: 40.00, -8.00 + 8.00i, -8.00 and -8.00 + -8.00i at 0, 4, 8 and 12, and 0.00 elsewhere. The test of open_ahrs labels all readings as angular rates, and the three estimates of the AQUA filter with 0 to 2, those of the AR filter for the same attitudes with 1 to 3.", "quantifier": "all vectors, matrices, reachable AR filters, texts written before; every formatting that is correct to the last decimal", "why_tests_cant": "The text is read by people only; that distinct contents give distinct texts is a statement about all pairs of matrices.", "anchors": ["linalg/src/vector.rs::print", "linalg/src/matrix.rs::print", "open_ahrs/src/ar.rs::print_attitude", "temp/dsp/src/main.rs::main"]}
{"id": "C110", "title": "AQUA: a MARG filter at rest settles", "statement": "In exact arithmetic, for an initialised MARG filter without adaptive gain whose gyrometer reads zero. From a unit attitude that sees the acceleration, of norm n, as (p, q, r) with r < 0 and the acceleration threshold below l = sqrt((1 - r)/2), a successful update gives a unit attitude that sees it with a tilt n + r of (n + r)(d - w(n - r))^2/(d^2 + w^2(n^2 - r^2)), d = 1 - alpha + alpha l, w = alpha/(2 l), whatever the field is. So any number of successful updates level the attitude: the tilt shrinks at least by the factor 1 - 2 alpha n/((1 + max(1, n))^2 (1 + alpha^2 n^2)) each time. If both gains are positive and both thresholds are below what an aligned attitude gives, there is a neighbourhood of the aligned attitudes from which every one of any number of updates with the same readings succeeds and the tilt and the heading error vanish geometrically.", "quantifier": "all settings without adaptive gain, all calibrations, all readings at rest, all numbers of updates", "why_tests_cant": "Convergence is about unboundedly many updates from every nearby attitude, and success of each of them has to be shown too.", "anchors": ["open_ahrs/src/aqua.rs::update", "open_ahrs/src/aqua.rs::get_attitude"]}
{"id": "C111", "title": "AQUA: one MARG update in binary32", "statement": "In binary32, for a MARG filter without adaptive gain with an attitude of norm between 1/2 and 2, finite readings within the stated ranges (rate up to 2^63, acceleration norm n between 1.0001e-4 and 2^61, field norm between 1.0001e-4 and 2^63), thresholds and gains in [0,1]: if the predicted attitude sees the acceleration with a third component of at most -n/2 and the acceleration threshold is 1e-4 below l, the real part of the acceleration correction, and the field direction after it has a component ahead of at least h >= 1/100, with the field threshold 24e-5/h below the real part of the field correction, then update succeeds, the new attitude has norm 1 up to 1e-6, and it is within 2e-5 + 1e-4 alpha l/(1 - alpha + alpha l) + 37e-5 beta/h of the attitude that the update gives in exact arithmetic from the same numbers.", "quantifier": "all binary32 attitudes, settings and readings in the stated ranges, any mathematical library", "why_tests_cant": "The bound covers the whole chain of some two hundred rounded operations for every attitude and every reading.", "anchors": ["open_ahrs/src/aqua.rs::update", "open_ahrs/src/aqua.rs::get_attitude"]}
{"id": "C112", "title": "AQUA: a MARG filter at rest in binary32", "statement": "In binary32, for a MARG filter without adaptive gain fed again and again with the same readings, a rate of zero, an acceleration and a field. If a tilt bound delta and a heading bound epsilon reproduce themselves under one exact update and its rounding error E, and the first attitude has norm 1 up to 1e-6 and is aligned within delta0 <= delta and epsilon0 <= epsilon, then after any number j of updates the next one succeeds, the attitude has norm 1 up to 1e-6 and is aligned within delta and epsilon; the tilt is at most T^j delta0 + 2.01 E/(1 - T) and the heading error at most W^j epsilon0 plus a constant, T and W being the contraction factors of the acceleration and of the field correction. For gains 1/2, thresholds 7/8, the acceleration (0, 0, -1) and the field (1596, 160, 1203), which the first attitude sees about a tenth of a radian off its heading, this holds with delta = 0.01 and a heading error of at most 0.15 0.71^j + 0.04.", "quantifier": "all numbers of updates, all settings, calibrations and readings for which the bounds close", "why_tests_cant": "Rounding errors could accumulate over unboundedly many updates, or make one of them fail; no number of tested updates excludes that.", "anchors": ["open_ahrs/src/aqua.rs::update", "open_ahrs/src/aqua.rs::get_attitude"]}
{"id": "C113", "title": "AR: what shaking does to an attitude of the Taylor series", "statement": "For the AR filter with exact arithmetic. With the Taylor series of order 2 to 20, samples that alternate between the rates p and -p about the first axis, started at the identity, with t = p tau/2 between 0 and 1: every update succeeds, and after k pairs the attitude is a turn about that axis by an angle theta_k that converges geometrically to arctan(2/(f(t) - f(-t))), f being the series without its first term; this is a quarter turn up to t + t^2, although the rates cancel. With the closed form, with Euler's method and with the series of order 1 a sample with the opposite rate undoes a sample exactly, from every unit attitude and about every axis. From the identity an update of order at most 20 gives the normalised quaternion (1, f(a), f(b), f(c)) where (a, b, c) is half of the rotation vector, and for order 2 to 20 opposite rates never give inverse attitudes.", "quantifier": "all orders from 2 to 20 (and the other methods for the second part), all calibrations, rates, time steps and numbers of samples", "why_tests_cant": "The drift only appears after many samples that cancel on average; a test with a constant rate and a small tolerance accepts the filter.", "anchors": ["open_ahrs/src/ar.rs::update"]}
{"id": "C114", "title": "AR: the Taylor series in binary32", "statement": "In binary32 with a powf that is accurate to two units in the last place, the AR filter with the Taylor series of order N from 1 to 20. One update from an attitude of norm between 1/2 and 2, with a rate above 1.0001e-4 and a turn of at most 1 rad, succeeds, and the attitude has norm 1 up to 1e-6 and is within 6.6e-6 + 3.8e-7 N + (2.9e-5 + 1.4e-6 N) h, h being half of the angle turned, of the exact one, the normalised product of the attitude with the series taken entry by entry. Over any list of k finite samples within B of the biases (coefficients up to C) whose half turns are at most h <= 0.49 every update succeeds, and the attitude has norm 1 up to 1e-6 and is within E + k (8e-6 + 4e-7 N + 6e-5 h + 5.1e-5 |tau| + 9e-6 C B |tau| + 2.88 h^2 + 0.34 h^3) of the product of the exact rotations, E being the first distance; for N = 1 the term in h^2 is absent.", "quantifier": "all orders from 1 to 20, all calibrations, attitudes, samples in range and lengths", "why_tests_cant": "Rounding in the powers, the factorials, the scaled matrix, its product and the norm depends on every bit of the inputs, and long runs accumulate it.", "anchors": ["open_ahrs/src/ar.rs::update", "open_ahrs/src/ar.rs::get_attitude"]}
{"id": "C115", "title": "AR: following a continuous motion", "statement": "Let a sensor turn so that its unit attitude q satisfies q' = q w / 2 for a body rate w with Lipschitz constant L, and let the AR filter read, every tau seconds, a rate within eta of w at some time of the step. With the closed form and exact arithmetic every update succeeds, the attitude keeps norm 1 and after k samples is farther from q than at the start by at most k (L tau^2/4 + eta tau/2 + 1e-4 tau/2), the last term being the rates that the filter ignores; so with N exact samples in a duration D the error tends to at most 1e-4 D/2. The Taylor series of order 1 to 20 adds h^3/3 per sample, h being half of the turn of a step, and from order 2 on also 2.88 h^2. In binary32 both hold with the rounding terms of C83 and C114 added. Euler's method turns about the fixed axes instead: N equal samples give exp(N tau w/2) A up to N h^3/3, so for a constant rate, sampled N times in half a turn for any N >= 2, the attitude ends at least 1 away from both q and -q.", "quantifier": "all motions with a Lipschitz rate, calibrations, samples within the stated error, lengths and periods", "why_tests_cant": "A test samples one motion at one period; it can show neither that the error is linear in the period for every motion, nor that no period makes Euler follow.", "anchors": ["open_ahrs/src/ar.rs::update", "open_ahrs/src/ar.rs::get_attitude"]}
{"id": "C116", "title": "AQUA: what a turn does to the heading", "statement": "A level sensor turns about the vertical axis with the constant body rate W; the fixed field and the vertical are read exactly. The corrections of AQUA (MARG mode, constant gain beta) draw the heading to the one that takes the fixed field to its reading, but the prediction adds the rate with the opposite sign. Started at the true heading, with W >= 0, sampling time tau and rate r read, every update succeeds and after N of them the heading is behind by exactly e_N, where e_0 = 0, e_(N+1) = p(e_N + d), d = W tau + 2 arctan(r tau/2) and p(x) = 2 arctan((1-beta) sin(x/2) / (beta + (1-beta) cos(x/2))), as long as d is at most the part x - p(x) of some x < pi whose half has a cosine above the threshold. The lag grows to the limit where x - p(x) = d; for beta <= 1/2 it is at least d (1-beta)(1-(1-beta)^N)/beta, with equality for beta = 1/2. So for W > 0 and beta < 1 a gyrometer that reads the true rate gives, after every number of updates, a strictly larger error than one that reads zero. With both gains 0 the attitude instead follows the inverse one, from the sensor to the fixed frame, within L tau^2/4 + eta tau/2 + h^3/3 per update for every motion with a Lipschitz rate.", "quantifier": "all rates, gains, sampling times, thresholds, field and gravity magnitudes, calibrations and numbers of updates within the stated bounds", "why_tests_cant": "A test with one slow turn shows a small error and no reason; that the rate makes it worse for every turn, gain and time, and where it ends, is a statement about all of them.", "anchors": ["open_ahrs/src/aqua.rs::update", "open_ahrs/src/aqua.rs::get_attitude"]}
{"id": "C117", "title": "QR and the eigenvalue iteration in binary32", "statement": "Let a finite n by n matrix A stretch every vector at least sigma and at most M times. In binary32 qr_decomp, when sigma >= 11e-5, M <= 2^60, M <= r sigma and r (1+1.03 r)^(n-1) <= 10^4, succeeds with finite factors, never stops at the threshold, the columns of Q have length 1 and are orthogonal to each other up to 56/2^24 r (1+1.03 r)^(n-2), and R is the transpose of Q times A up to 13/2^24 M. The unshifted eigen, when sigma >= 12e-5, M <= 2^59, 1.03 M <= r sigma, r (1+1.03 r)^(n-1) <= 10^4 and N K <= 1/200 for K = (224 r (1+1.03 r)^(n-2) + 100)/2^24, succeeds for N iterations; the returned matrix V is finite and its columns are orthonormal up to 1.01 N K; the eigenvalues are all zero (not converged), or finite and equal to the diagonal of the transpose of V times A times V up to 200 N/2^24 M, and their sum is the trace of A up to 8 N K M.", "quantifier": "every finite matrix of size 1 to 4 and every number of iterations within the stated bounds, every arithmetic with the rounding laws of binary32", "why_tests_cant": "Errors of the Gram-Schmidt loop grow with the conditioning and with the iterations; tests on a few matrices show neither the growth nor that the loop cannot stop early for any matrix in the range.", "anchors": ["linalg/src/matrix.rs::qr_decomp", "linalg/src/linalg.rs::eigen"]}
{"id": "C118", "title": "Quaternion inverse and exponential in binary32", "statement": "On a finite quaternion q in binary32: conjugate and conjugate_new are exact. invert returns Ok; for a norm from 1.0001e-4 to 2^62 it leaves the inverse of q up to 26/2^24 of its norm, so that both products with q, computed by mul_new, are 1 up to 51/2^24; for a norm below 0.9999e-4 it leaves zeros, and also for a norm above 1.001 times 2^64, where the inverse is still a normal number. With sinf and cosf accurate to 2^-22, and powf returning a finite number p up to 2^126: when some vector component exceeds 1.001e-4 and |q| <= 2^62, exp_new is c exp(vector part) up to |c| (4e-6 + 9e-7 theta) + 2^-149, theta the norm of the vector part, with c = 1 only if the real part is at most 1.001e-4 in magnitude and c = p only if it is at least 0.999e-4; exp likewise with the cosine of theta in place of the real part, up to 2e-6 + 6e-7 theta more. Hence exp_new of a pure quaternion is its exponential up to 5e-6 + 9e-7 |q|, and of one with a real part as accurate as powf. When all vector components are below 0.999e-4 both store exactly 1.", "quantifier": "every finite quaternion with a norm in the stated ranges, every arithmetic with the rounding laws of binary32", "why_tests_cant": "Every bit pattern of four floats, including those where the squares overflow or the cosine is near zero.", "anchors": ["quaternion/src/quaternion.rs::conjugate", "quaternion/src/quaternion.rs::conjugate_new", "quaternion/src/quaternion.rs::invert", "quaternion/src/quaternion.rs::exp", "quaternion/src/quaternion.rs::exp_new"]}
{"id": "C119", "title": "AQUA: the tilt of a MARG filter under noise and motion", "statement": "In exact arithmetic, for an initialised MARG filter without adaptive gain and with a positive alpha. The tilt of an attitude in a vector is the norm of the vector plus the third coordinate the attitude sees it with; it is 0 when the vector is seen straight along the negative third axis. One successful update with any rates w, any field and an acceleration of norm n gives a unit attitude whose tilt is at most (1 - 2 alpha n/((1 + max(1, n))^2 (1 + alpha^2 n^2))) T, T the tilt before plus n |tau| |w|, provided T < n and the acceleration threshold is below sqrt((1 + n - T)/2); if the field threshold is below 1 it succeeds exactly when the field is not then seen straight backwards, up or down. Hence for a motion in which the acceleration read is within eps of gravity and has a norm from n1 to n2, gravity moves by at most delta between updates and the rates read are at most g: with rho = 1 - 2 alpha n1/((1 + max(1, n2))^2 (1 + alpha^2 n2^2)) and c = 2 eps + n2 |tau| g, if the first tilt is at most an M with rho (M + c) + 2 eps + 2 delta <= M, M + c < n1 and the threshold below sqrt((1 + n1 - M - c)/2), then as long as the updates succeed the tilt in gravity stays at most M and after N of them is at most rho^N times the first plus (rho c + 2 eps + 2 delta)/(1 - rho).", "quantifier": "all settings without adaptive gain, all calibrations, all sequences of readings within the stated bounds, all numbers of updates", "why_tests_cant": "A test feeds one recorded or simulated motion; that errors of every shape and duration are attenuated to a bounded tilt is a statement about all of them.", "anchors": ["open_ahrs/src/aqua.rs::update", "open_ahrs/src/aqua.rs::get_attitude"]}
{"id": "C120", "title": "AQUA: a MARG filter under noise and motion in binary32", "statement": "In binary32, for a MARG filter without adaptive gain, fed with any sequence of readings: rates, accelerations and fields. From one update to the next the direction of the acceleration changes by at most nu - |tau| |w| and the direction of the field by at most mu - |tau| |w|, w the rate read and tau the period, whether by motion or by noise. If the first attitude has norm 1 up to 1e-6 and is aligned within delta0 <= delta (tilt) and epsilon0 <= epsilon (heading) with a first pair of directions, and the bounds delta and epsilon reproduce themselves, T (delta + nu) + 2.01 E <= delta and W (epsilon + mu/h + 2 alpha N (delta + nu)/h) + 2.01 E/h <= epsilon, with T and W the contraction factors of the corrections, N a bound of the accelerations, h a lower bound of the horizontal part of the field and E the rounding error of an update, then every update succeeds, and after each the attitude has norm 1 up to 1e-6 and is aligned within delta and epsilon with what was just read; the first errors are forgotten like T^j and W^j. It is then aligned with the true vertical and field up to the same bounds plus the errors of the last readings. For gains 1/2, thresholds 7/8, a period of 1/128, a rate of 1/8, the acceleration (0, 0, -1) and a field that jumps between (1596, 160, 1203) and (1600, 160, 1203), this holds with delta = 0.02 and epsilon = 0.15 for ever.", "quantifier": "all numbers of updates, all settings without adaptive gain, calibrations and sequences of readings for which the bounds close", "why_tests_cant": "Neither the shapes of motion and noise nor the accumulation of rounding errors over unboundedly many updates can be enumerated.", "anchors": ["open_ahrs/src/aqua.rs::update", "open_ahrs/src/aqua.rs::get_attitude"]}
{"id": "C121", "title": "Complex numbers in binary32", "statement": "For the complex numbers of dsp and of temp/dsp, with finite parts, in binary32. Sum and difference are within 2^-24 |result| + 2 rho and the product within 3/2^24 |z1||z2| + 6 rho of the exact ones, rho = 2^-150, as long as the result, or the product of the sizes, is at most 2^127 or 2^126; in temp/dsp the forms in place store the same. neg and conjugate are exact. div, for sizes up to 2^63: either it fails (Nan in dsp, Inf in temp/dsp), leaves the receiver as it was, and both parts of the divisor are at most 1.001e-4, or some part is at least 0.999e-4 and what is stored is within 8/2^24 |z1/z2| + 2^-120 of the quotient. A divisor of size up to 2^126 with a part of 2^65 or more gives exactly zero, whatever the dividend is, while |z1||z2| <= 2^126; and 2^65 divided by 2^65 is stored as not-a-number with success. calculate_module, for sizes up to 2^63: 0 and a modulus of at most 1.002e-4, or a number within 3/2^24 of the modulus and a modulus of at least 0.998e-4; with a part of 2^65 or more it fails with Inf. With sinf and cosf accurate to 2^-22, convert_from_polar is within 8/2^24 |r| + 2 rho of r exp(i theta) for |r| <= 2^99, and expo, when expf has relative error kappa <= 1/100 and |exp z| <= 2^98, is zero, with |exp z| (1 - kappa) <= 1.001e-4, or within (kappa + 8/2^24 (1 + kappa)) |exp z| + 2 rho of exp z.", "quantifier": "all pairs of finite numbers in the stated ranges and all receivers, every arithmetic with the rounding laws of binary32", "why_tests_cant": "Four floats per operation; the failing ranges begin far from the values anyone would try.", "anchors": ["dsp/src/complex.rs::add", "dsp/src/complex.rs::sub", "dsp/src/complex.rs::mul", "dsp/src/complex.rs::div", "dsp/src/complex.rs::calculate_module", "dsp/src/complex.rs::expo", "dsp/src/complex.rs::convert_from_polar", "temp/dsp/src/main.rs::div", "temp/dsp/src/main.rs::mul_in_place"]}
{"id": "C122", "title": "Orthogonality tests in binary32", "statement": "In binary32, for a square matrix of finite elements of size at most 2^60: if is_orthogonal or is_so_n answers true then A A^T is the identity within 1.01e-4 entry by entry, at every size; at size 3 a true from is_so_n also means that the determinant is within 1.6e-4 of 1, so it is never a reflection. det of a 3x3 matrix with elements up to 1.001: with a = the largest element of the first column, it fails with Singular only if |a| <= 1.00001e-4 or a minor of the first two columns with the row of a is at most 1.01e-4, and otherwise returns the determinant within 80/2^24/|a|. If A A^T is the identity within 4e-5 and |a| >= 1/8, then either both tests fail with Singular, which takes an element of at most 4e-4 in the third column outside the row of a, or is_orthogonal answers true and is_so_n answers whether the determinant is positive. adjugate_in_place fails with Singular and changes nothing, or stores det(A) A^T within 90/2^24/|a|. The matrix of a quaternion of norm 1 within 1e-6 satisfies A A^T = I within 2e-5 and has a positive determinant, so with |a| >= 1/8 is_so_n answers true or fails with Singular; without that there are unit quaternions for whose matrix is_so_n answers false (a small pivot spoils the determinant), and others for which it fails.", "quantifier": "all matrices and quaternions in the stated ranges, every arithmetic with the rounding laws of binary32; the refused quaternions are concrete", "why_tests_cant": "The pivot is chosen by signed value, so a pivot of 1e-4 divides rotations of everyday size; 2 of 400000 random rotations are answered false.", "anchors": ["linalg/src/matrix.rs::det", "linalg/src/matrix.rs::is_orthogonal", "linalg/src/matrix.rs::is_so_n", "linalg/src/matrix.rs::adjugate_in_place", "quaternion/src/quaternion.rs::convert_to_dcm", "linalg/src/matrix.rs::lup"]}
{"id": "C123", "title": "Matrix logarithm in binary32", "statement": "In binary32 with sinf within 2^-22 and acosf within 2^-21, log and log_in_place of a 3x3 matrix with elements up to 1.001, with T = (trace - 1)/2 and S = sqrt(1 - T^2) >= 1/50: either det fails with Singular and both fail the same way, log_in_place without effect, or both give arccos(T)/(2 S) times A - A^T with an error of at most 8e-6/S^3 times the element of A - A^T (plus 1e-40). So for a matrix within e <= 1e-5 of the rotation by t about a unit vector u, with sin t >= 1/20, the result is t times the matrix of the cross product with u within (13 e + 1.7e-5)/sin^2 t; and for a quaternion within 1e-6 of that of this rotation, log of convert_to_dcm is so within 1.4e-4/sin^2 t. Near the identity, unless det fails with Singular, the logarithm fails: if the diagonal is exactly 1.0, 1.0, 1.0, as for every rotation by less than about 2.4e-4, the angle is zero and both fail with Nan; and if rounding makes (trace - 1)/2 exceed 1, acosf is NaN and both fail with Nan, which happens for a quaternion of norm 1 within 1e-6.", "quantifier": "all matrices, rotations and quaternions in the stated ranges, every arithmetic with the rounding laws of binary32; the failures for every mathematical library with acosf(1) = 0, sinf(0) = 0, and acosf NaN above 1", "why_tests_cant": "The accuracy degrades continuously with the angle and the failures sit in a neighbourhood of the identity that no list of test rotations contains.", "anchors": ["linalg/src/matrix.rs::log", "linalg/src/matrix.rs::log_in_place", "linalg/src/matrix.rs::trace", "quaternion/src/quaternion.rs::convert_to_dcm"]}
{"id": "C124", "title": "AR: the Euler angles read from the filter", "statement": "Let the AR filter in binary32 follow a motion with the closed form or the Taylor series, delta being the bound of C115 for the distance of its attitude from the true one after k samples, at most 3/25, and let the true attitude then be yaw after pitch after roll with a pitch theta in [-pi/2, pi/2] and |sin theta| + 2 delta at most 0.99998. Then every update succeeds and convert_to_euler of get_attitude succeeds with three finite numbers: roll and yaw are within (3.5e-5 + 4.45 delta)/cos theta of the true ones up to full turns, and the pitch within 3.4e-5/cos theta + 3.15 delta. The same holds for any finite quaternion of norm 1 up to 1e-6 within delta of a unit quaternion.", "quantifier": "all motions, calibrations, samples, lengths and periods of C115 and all attitudes away from gimbal lock; sinf, cosf, powf, asinf and atan2f with the accuracy of C83, C114 and C104", "why_tests_cant": "A test reads the angles at a few attitudes; how the drift of the filter is magnified near gimbal lock, for every motion and duration, cannot be enumerated.", "anchors": ["open_ahrs/src/ar.rs::update", "open_ahrs/src/ar.rs::get_attitude", "quaternion/src/quaternion.rs::convert_to_euler"]}
{"id": "C125", "title": "AQUA: distance to the true attitude and Euler angles", "statement": "Let the true attitude Q turn the vertical g into (0, 0, -1) and the field b into (h, 0, c) with h > 0. If the attitude of AQUA is aligned (C120) with g up to delta (tilt) and with b up to epsilon (heading), delta (1 + |c|/h) <= 1/10 and epsilon <= 1/4, then its conjugate is within D = 0.54 delta (1 + |c|/h) + 0.59 epsilon of Q or of -Q. In binary32, for an attitude of norm 1 up to 1e-6, get_attitude, conjugate_new and convert_to_euler then succeed and give the roll, pitch and yaw of Q with the bounds of C124, with D + 1e-6 for delta. This also holds when the attitude is aligned up to delta and epsilon with an acceleration and a field read with errors nu and mu in direction, which C120 proves after every update, with delta + nu and epsilon + mu/l in place of delta and epsilon, l a lower bound of the horizontal part of the field.", "quantifier": "all attitudes, fields with a horizontal part, errors and filter states within the stated bounds; asinf and atan2f with the accuracy of C104", "why_tests_cant": "Which errors of tilt and heading lead to which errors of the attitude and its angles is a statement about all pairs of attitudes.", "anchors": ["open_ahrs/src/aqua.rs::get_attitude", "open_ahrs/src/aqua.rs::update", "quaternion/src/quaternion.rs::convert_to_euler", "quaternion/src/quaternion.rs::conjugate_new"]}
{"id": "C126", "title": "AM mode of AQUA: Euler angles from noisy samples in binary32", "statement": "Let the true attitude Q turn the vertical g into (0, 0, -1) and the field b into (x, 0, z) with x > 0. In binary32, one AM update of an initialised filter with calibrated readings that differ in direction from g and b by at most nu and mu succeeds whatever its history. The attitude is aligned (C120) with the readings up to 33e-6 in tilt and 75e-6/l in heading, l >= 1/1000 a lower bound of the horizontal part of the field. get_attitude, conjugate_new and convert_to_euler then succeed and give the roll, pitch and yaw of Q with the bounds of C124 for D = 0.54 (33e-6 + nu) (1 + |z|/x) + 0.59 (75e-6 + mu)/l + 1e-6, when D <= 3/25, |sin pitch| + 2 D <= 0.99998, (33e-6 + nu) (1 + |z|/x) <= 1/10 and (75e-6 + mu)/l <= 1/4.", "quantifier": "every history, calibration and pair of samples with norms between 1.0001e-4 and 2^63, all true attitudes and noise within the stated bounds; asinf and atan2f with the accuracy of C104", "why_tests_cant": "The error of the angles for all attitudes and all errors of the samples cannot be sampled, and the loss near vertical fields and near the pitch of 90 degrees must be bounded.", "anchors": ["open_ahrs/src/aqua.rs::update", "open_ahrs/src/aqua.rs::get_attitude", "quaternion/src/quaternion.rs::convert_to_euler", "quaternion/src/quaternion.rs::conjugate_new"]}
{"id": "C127", "title": "AQUA: the adaptive gain in binary32", "statement": "Take a MARG filter initialised with adaptive gain. Let e be the relative deviation of the norm N of a calibrated acceleration from the reference G, as computed. (1) While every e is at most t1 < t2, each update gives the same answer and each get_attitude the same attitude as those of a filter initialised with the same arguments but a constant gain and fed with the same readings, valid or not, in every arithmetic; in binary32 |N - G| + (N + G)/1e6 <= t1 G suffices, so that the bounds of C120 and C125 hold for it. (2) If the first e reaches t2 and that update succeeds, the same holds with the constant gain 0 as long as no e lies between t1 and t2: the tilt is never corrected. In binary32 t2 G + (N + G)/1e6 <= |N - G| suffices. (3) In binary32, if the gain is positive and, after any number of samples with e at most t1, one has t1 G + 2 (N + G)/1e6 <= |N - G| and |N - G| + (N + G)/1e6 < t2 G, with an acceleration that the prediction puts at most 60 degrees from the vertical, that update fails with InvalidAlpha, and all later updates with e at most t1 fail and leave the attitude as it was.", "quantifier": "(1) and (2): every arithmetic, all arguments and sequences of readings; (3): binary32, all calibrations, gains and thresholds from 1e-6 to 1, references from 1e-3 to 2^60, accelerations and fields within the range of C120", "why_tests_cant": "The state has a long history, the comparison with a second filter is over unboundedly many updates, and the thresholds of binary32 must be bounded for all norms.", "anchors": ["open_ahrs/src/aqua.rs::update", "open_ahrs/src/aqua.rs::init", "open_ahrs/src/aqua.rs::calculate_adaptative_gain", "open_ahrs/src/aqua.rs::get_attitude"]}
{"id": "C128", "title": "What the tolerance tests decide in binary32", "statement": "For binary32 numbers x and y (values with 24 significant bits, down to 2^-149) and a tolerance d, the test |x - y| <= d made with rounded arithmetic relates to the exact difference as follows. Every pair with exact |x - y| <= d passes. A pair that passes has |x - y| <= d + d/2^23 + 2^-149, and there are pairs that pass with |x - y| > d. If |x| >= 3 d the test is exact. So is_equal_to of matrices and vectors returns Ok(true) when all exact differences are at most d, and then only when they are at most d + d/2^23 + 2^-149 (at most d when the elements of one operand are at least 3 d); is_symmetric, with tolerance 0.0001, accepts only matrices with |a_ij - a_ji| <= 0.000100001 and is exact for the stored tolerance 13743895/2^37 when the elements off the diagonal are at least 0.0004. The triangularity tests of square matrices and is_real, is_pure and is_identity are exact for the stored tolerance. From 1024 on the tolerance has no effect: neighbouring numbers are at least 2^-13 apart, so is_equal_to with the tolerance of the library and is_symmetric accept such elements exactly when they are equal, and a difference of one unit in the last place is refused.", "quantifier": "all shapes, all elements that are binary32 numbers, all tolerances that are", "why_tests_cant": "The boundary between accepting and refusing lies at single roundings; a test would have to hit it, and the loss of the tolerance from 1024 on does not show for the usual small elements.", "anchors": ["linalg/src/vector.rs::is_equal_to", "linalg/src/matrix.rs::is_equal_to", "linalg/src/matrix.rs::is_symmetric", "linalg/src/matrix.rs::is_upper_triangular", "linalg/src/matrix.rs::is_lower_triangular", "quaternion/src/quaternion.rs::is_real", "quaternion/src/quaternion.rs::is_pure", "quaternion/src/quaternion.rs::is_identity"]}
{"id": "C129", "title": "The test for positive definite matrices and the success of chol in binary32", "statement": "For a symmetric 2x2 matrix of binary32 numbers up to 2^40, is_positive_definite returns Ok(false) if a00 < 0; Err(Singular) if a00 >= 0 and both a00 and a10 are below EPSILON; otherwise Ok(true) if the exact determinant is at least 7/2^24 (|a00 a11| + |a01 a10|) + 2^-60, and Ok(false) if it is below minus that. det of any such matrix, symmetric or not, is Err(Singular) exactly when max(a00, a10) is below EPSILON in absolute value, and is otherwise within that bound of the exact determinant. If also a00 >= EPSILON and the determinant exceeds a00 a11/2^20 + 2^-40, then chol succeeds. For every size from 2 to 4, a finite matrix with |a00| < EPSILON and a10 < EPSILON never passes the test and has no Cholesky factor, so the covariance 0.00001 times the identity is refused; and for sizes 3 and 4 neither does one whose leading block has rows (p, -r, 0), (-r, s, 0), (0, 0, c) with p > 0 and r between p/2^100 and 2^40.", "quantifier": "all binary32 matrices of the shapes and ranges stated", "why_tests_cant": "Whether a matrix passes depends on signs, on an absolute threshold and on rounding at once; a test tries a few matrices of ordinary size, for which all is well.", "anchors": ["linalg/src/matrix.rs::is_positive_definite", "linalg/src/matrix.rs::chol", "linalg/src/matrix.rs::det", "linalg/src/linalg.rs::lup"]}
{"id": "C130", "title": "LR and Crout factorisation in binary32", "statement": "When lr succeeds on a matrix of binary32 elements, L is lower triangular with ones on the diagonal and R is upper triangular. Below the diagonal L R equals the matrix within 7/2^24 times the sum of |L||R| plus an underflow term. On and above the diagonal L R equals the matrix minus the products left over in the sum that the code does not reset, within 7/2^24 times the absolute values of all the products. For sizes 1 and 2 nothing is left over and L R is the matrix up to that rounding error. An upper triangular matrix of binary32 numbers without zeros on the diagonal (from size 2 on the last place may be zero) comes back unchanged as R, with the identity as L. From size 3 on the defect is no matter of rounding: for the rows (1,1,1), (1,2,3), (1,3,6), determinant 1, L R has 2 where the matrix has 3. lu_crout answers Err(Singular) on every matrix of binary32 numbers of size 2 to 4 whose first element exceeds EPSILON in absolute value.", "quantifier": "all square matrices of binary32 elements", "why_tests_cant": "Rounding is bounded for all matrices at once; the left-over products vanish for the small or triangular matrices that a test would try first.", "anchors": ["linalg/src/matrix.rs::lr", "linalg/src/matrix.rs::lu_crout"]}
{"id": "C131", "title": "Random attitudes in binary32", "statement": "In binary32, with library functions sinf and cosf accurate to 2^-22 and acosf to 2^-21, generate_random_attitudes succeeds for 1 to 4 attitudes and for every random source that does not draw u64::MAX, and attitude n is (cos, 0, sin, 0) of (n+1) PI/64 with an error of at most 1.6e-6 (3.5^(n+1) - 1) in each component, hence below 1/4000; the squared length is within 1/1000 of 1.", "quantifier": "every sequence of 64-bit random draws below u64::MAX, 1 to 4 attitudes, all library functions of the stated accuracy", "why_tests_cant": "The claim is over all random sources and all accurate elementary functions; a test sees one seed and one libm.", "anchors": ["open_ahrs/src/common.rs::generate_random_attitudes", "linalg/src/vector.rs::slerp"]}
{"id": "C132", "title": "Simulated sensors in binary32", "statement": "In binary32 the simulation in the test of open_ahrs succeeds for every table of finite attitudes of norm at most 2, every sampling period between 2^-20 and 2^20 in magnitude and all global vectors up to 2^40. Column n of the gyrometer is the vector part of (2 / ts) conj(q[n]) q[n+1] within 30/2^24 of (2 / |ts|) |q[n]| |q[n+1] - q[n]|, and columns n of the accelerometer and the magnetometer are the global vectors conjugated by q[n] within 49/2^24 of |q[n]|^2 |g| (plus a term of the order of the subnormal spacing). Of the three methods for the rate the second and third have that error, relative to the difference of the attitudes; the first is only within 15/2^24 of (2 / |ts|) |q[n]| |q[n+1]|, and it does return exactly zero for two attitudes one unit in the last place apart whose rate the other two return exactly. With the attitudes the test generates, for all draws other than u64::MAX, the rate is (0, 200 sin(PI/64), 0) within 1/4 rad/s and the fields are within 1/500 of their magnitude.", "quantifier": "every table of attitudes of norm at most 2, every period and global vectors in the stated ranges, every sequence of draws below u64::MAX, all library functions of the stated accuracy", "why_tests_cant": "rounding error bounds over all binary32 inputs; the test prints one table and compares nothing", "anchors": ["open_ahrs/src/lib.rs::ar_series_method_test", "open_ahrs/src/common.rs::generate_random_attitudes"]}
{"id": "C133", "title": "Test of open_ahrs in binary32", "statement": "In binary32, with library functions of the stated accuracy, the test ar_series_method_test of open_ahrs ends without an error or a panic for every sequence of draws other than u64::MAX, and the numbers it prints are those of C96 up to stated errors. The true attitudes are a pitch of 2 (n + 1) PI/64 in degrees, the gyrometer columns are (0, 200 sin(PI/64), 0), the accelerometer and magnetometer columns are gravity and the field turned by the attitude, and the AR filter shows the pitch 2 (PI/64 + (n + 1) arctan(sin(PI/64))) after reading n. The AQUA filter shows a pitch between those of the attitude before the step and of the AR filter. Roll and yaw are zero within the same errors. The readings are within 0.0105, 0.0003 and 0.00151 times (7/2)^n of the stated ones; the angles of the attitudes are within 0.0009184 ((7/2)^(n+1) - 1) + 0.0002 degrees, those of the AR filter within 0.01435 (7/2)^(n+1) + 0.0002 and those of the AQUA filter within 0.04592 (7/2)^(n+1) + 0.0002 degrees.", "quantifier": "every sequence of draws below u64::MAX, all library functions of the stated accuracy", "why_tests_cant": "the test prints its tables and compares nothing; the claim bounds the rounding errors of a whole run for every draw", "anchors": ["open_ahrs/src/lib.rs::ar_series_method_test", "open_ahrs/src/common.rs::generate_random_attitudes"]}
{"id": "C134", "title": "Which headings pass the rotation tests in binary32", "statement": "In binary32, for a 3x3 matrix A of elements up to 1.001 in size: let q be the first row with the largest element of column 0, that element being at least 1.00001e-4, and i, j the other rows in the order left by exchanging rows 0 and q (1, 2 for q = 0; 0, 2 for q = 1; 1, 0 for q = 2). Write N(s) for A[q,0] A[s,1] - A[q,1] A[s,0]. The program goes on with row s = j if A[i,0] + 1e-6 <= N(j), and with row s = i if N(j) + 1e-6 <= A[i,0]. Then det fails with Singular if |N(s)| + 1e-6 <= 9.999e-5 A[q,0], and returns the determinant within 80/2^24/A[q,0] if |N(s)| >= 1.02e-4. Turns about the vertical: for a quaternion (w, 0, 0, z) of norm 1 within 1e-6, convert_to_dcm succeeds; if w^2 - z^2 <= -1e-5 or 2wz <= -1e-5, then det, is_so_n, is_orthogonal, log, log_in_place and adjugate_in_place on its matrix all fail with Singular, the last two leaving the matrix as it was; if w^2 - z^2 >= 1e-5 and 2wz >= 1e-5, then is_so_n and is_orthogonal answer true. So for a quaternion within 1e-7 of that of the heading t, is_so_n answers true when cos t and sin t are both at least 2e-5, and fails with Singular when one of them is at most -2e-5: three of the four quarters of the compass are refused.", "quantifier": "all matrices and quaternions in the stated ranges, every heading, every arithmetic with the rounding laws of binary32", "why_tests_cant": "The second pivot search compares an element that is already a quotient with one that is still to be eliminated; a test with headings between 0 and 90 degrees passes.", "anchors": ["linalg/src/matrix.rs::lup", "linalg/src/matrix.rs::det", "linalg/src/matrix.rs::is_so_n", "linalg/src/matrix.rs::is_orthogonal", "linalg/src/matrix.rs::log", "linalg/src/matrix.rs::log_in_place", "linalg/src/matrix.rs::adjugate_in_place", "quaternion/src/quaternion.rs::convert_to_dcm"]}
{"id": "C135", "title": "Which attitudes pass the rotation tests in binary32", "statement": "In binary32, take a quaternion within 1e-7 of a unit quaternion with rotation matrix R. Let q be the row of the largest element of the first column of R, larger than the other two by 4e-6 and at least 1/7; i, j the other rows in the order left by exchanging rows 0 and q; and c the sign -1 for q = 0, +1 otherwise. Let t = i if R[i,0] + 1.2e-5 <= c R[i,2], and t = j if c R[i,2] + 1.2e-5 <= R[i,0]. Then convert_to_dcm succeeds; if |R[t,2]| + 1e-5 <= 9.99e-5 R[q,0], det, is_so_n, is_orthogonal, log, log_in_place and adjugate_in_place on its matrix fail with Singular, the last two leaving the matrix as it was; if |R[t,2]| >= 1.12e-4, is_so_n and is_orthogonal answer true. Rolls by t about the first axis: is_so_n fails with Singular when 1.2e-5 <= sin t <= 8.98e-5, and when sin t <= -1.2e-5 and |cos t| <= 8.98e-5; it answers true when sin t >= 1.12e-4, and when sin t <= -1.2e-5 and |cos t| >= 1.12e-4. Pitches by t about the second axis, for a quaternion (w, 0, y, 0): is_so_n answers true when cos t >= 1/7 or sin t <= -1/7, and fails with Singular when cos t <= 9e-5 and sin t >= -9e-5, so for every pitch from 90 to 180 degrees.", "quantifier": "every attitude in the stated ranges, every arithmetic with the rounding laws of binary32 (for pitches also that results are multiples of 2^-149)", "why_tests_cant": "The attitudes that fail are a thin set for some axes and a quarter of the circle for others; the identity passes and a roll of 6e-5 does not.", "anchors": ["linalg/src/matrix.rs::lup", "linalg/src/matrix.rs::det", "linalg/src/matrix.rs::is_so_n", "linalg/src/matrix.rs::is_orthogonal", "linalg/src/matrix.rs::log", "linalg/src/matrix.rs::log_in_place", "linalg/src/matrix.rs::adjugate_in_place", "quaternion/src/quaternion.rs::convert_to_dcm"]}
{"id": "C136", "title": "Upper triangular and diagonal matrices in binary32", "statement": "In IEEE binary32, for numbers of any size. An upper triangular matrix of size 2 to 4 is factorised by lup exactly when A00 >= EPSILON and |Akk| >= EPSILON for 0 < k < n-1; the factors are then the matrix itself without any rounding error, in the original row order, and a finite det is the product of the diagonal up to (n+1)/2^24 and underflow. Otherwise lup and det fail with Singular and invert fails with NotInversible, leaving the matrix as it was. A diagonal matrix of size 2 to 4 is inverted exactly when A00 > EPSILON and |Akk| > EPSILON for 0 < k < n; the result is diagonal with the correctly rounded inverses; otherwise invert fails with NotInversible and leaves the matrix as it was. The same condition decides the inversion of an upper triangular matrix of size 2 to 4 with elements of at most 256 in magnitude: nothing overflows, and the result has exact zeros below its diagonal and the correctly rounded inverses on it. For a diagonal matrix of size 1 to 4 whose elements before the last are at least EPSILON and whose last one is not negative, is_positive_definite answers true and chol returns the diagonal matrix of the correctly rounded square roots, even if the determinants overflow. If the first k elements are at least EPSILON: with 0 <= Akk < EPSILON and k not the last place, is_positive_definite and chol fail with Singular; with Akk <= -2^-80, is_positive_definite answers false and chol fails with NotPositiveDefinite. diag(1/1000, -2^-149) is declared positive definite and chol then fails.", "quantifier": "every matrix of finite binary32 numbers of the stated form", "why_tests_cant": "The diagonal of a covariance covers many orders of magnitude, and each element has its own thresholds, overflow and underflow; tests use a few matrices with elements near 1.", "anchors": ["linalg/src/linalg.rs::lup", "linalg/src/linalg.rs::solve", "linalg/src/matrix.rs::det", "linalg/src/matrix.rs::invert", "linalg/src/matrix.rs::is_positive_definite", "linalg/src/matrix.rs::chol"]}
{"id": "C137", "title": "AR in binary32: motions that are undone", "statement": "In binary32, for sequences of samples in which every rotation is undone by a later one with the opposite exactly calibrated rate, nested like brackets (shaking about an axis, a motion followed by itself backwards, and sequences and nestings of these), of any length k, within B of the biases (coefficients up to C). Every update succeeds, the attitude keeps norm 1 up to 1e-6, and if it was within E of A it is afterwards within E + k (1.5e-5 + 5.1e-5 |tau| + 2e-5 C B |tau|) of A with the closed form, within E + k (7e-6 + 1.01e-4 |tau| + 5e-6 C B |tau|) with Euler's method, and within E + k (8.4e-6 + 6e-5 h + 5.1e-5 |tau| + 9e-6 C B |tau| + 0.34 h^3) with the Taylor series of order 1 and half turns of at most h <= 0.49. With the series of order 2 to 20 this fails after two samples: from the identity, rates read as P and -P about the first axis with t = P tau/2 between 1/50 and 1/2 leave a second component of at least t^2/3 - 1e-4, which is positive.", "quantifier": "all orders, calibrations, time steps, sample sequences in range and lengths", "why_tests_cant": "The drift only shows for motions that cancel, and rounding depends on every bit of the inputs.", "anchors": ["open_ahrs/src/ar.rs::update", "open_ahrs/src/ar.rs::get_attitude"]}
{"id": "C138", "title": "Trace, Frobenius norm and outer product in binary32", "statement": "In binary32: the trace of a square matrix whose absolute diagonal elements sum to S <= 2^126 succeeds and differs from the exact trace by at most 8/2^24 S + 2^-147. The Frobenius norm of a finite matrix of any size with exact norm N <= 2^62 succeeds with a finite result within 36/2^24 N + 2^-71 of N, also for tiny matrices (there is no cut-off as in normalize). For all finite matrices it succeeds with a finite number or positive infinity, never NaN, and one element of at least 2^65 in absolute value makes it infinite although the norm is far from overflow. The outer product of finite vectors whose products are at most 2^127 succeeds, and every element is the exact product up to 1/2^24 of it and 2^-150.", "quantifier": "all finite binary32 matrices and vectors of every size", "why_tests_cant": "Up to 16 rounded squares are summed; overflow and underflow depend on all elements.", "anchors": ["linalg/src/matrix.rs::trace", "linalg/src/matrix.rs::calculate_frobenius_norm", "linalg/src/vector.rs::outer_product"]}
{"id": "C139", "title": "Exact laws of the element-wise operations in binary32", "statement": "In binary32, without any rounding error (zeros are not distinguished by sign): add_new of vectors and of matrices gives the same outcome and elements in either order; a sub_new that succeeds consists of zeros exactly when the operands are equal (nothing is lost by underflow); if each element of w differs from that of v by at most half of the latter, v - w succeeds and is exact, and w + (v - w) is v, also for matrices; doubling a matrix with elements below 2^127 is exact and halving it afterwards gives it back; products with the identity matrix or with the quaternion 1 on either side return the operand. In general (v + w) - w succeeds for |v| + |w| <= 2^126 and returns v only up to 3/2^24 (|v| + |w|) + 2^-148 per element: for 2^-25 and 1 it returns 0.", "quantifier": "all binary32 numbers, vector and matrix sizes", "why_tests_cant": "Exactness must hold for every bit pattern, subnormal numbers included.", "anchors": ["linalg/src/vector.rs::add_new", "linalg/src/vector.rs::sub_new", "linalg/src/matrix.rs::add_new", "linalg/src/matrix.rs::sub_new", "linalg/src/matrix.rs::mul_by_scalar_in_place", "linalg/src/matrix.rs::mul", "quaternion/src/quaternion.rs::mul_new"]}
{"id": "C140", "title": "Sensors without rounding errors in binary32", "statement": "In binary32, for a gyrometer, accelerometer or magnetometer in any reachable state. If the configured scales are 1 and the cross coefficients 0, an update with finite readings whose differences to the biases do not overflow succeeds, and the getters return reading minus bias, rounded once (error at most 1/2^24 of it and 2^-150): exactly when reading and bias differ by at most half of the reading, and the reading itself, bit for bit, when the bias is 0, up to the largest number. Whatever the twelve parameters are, an update with readings equal to the biases succeeds and all three getters return exactly 0.", "quantifier": "all reachable states, parameters and readings", "why_tests_cant": "The corrections are sums of three products; that none of them rounds must hold for every bit pattern.", "anchors": ["open_ahrs/src/gyrometer.rs::update", "open_ahrs/src/accelerometer.rs::update", "open_ahrs/src/magnetometer.rs::update"]}
{"id": "C141", "title": "A resting filter does not drift, in binary32", "statement": "In binary32, for the angular rate filter after a successful init and any calls, with any method, order, step, attitude and gyrometer parameters: an update with readings equal to the biases succeeds and leaves the attitude unchanged bit for bit; so do any number of such updates, also after any list of accepted samples.", "quantifier": "all filters, parameters, attitudes and numbers of samples", "why_tests_cant": "A drift of one unit in the last place for each sample shows only after long rests, and only for some parameters and attitudes.", "anchors": ["open_ahrs/src/ar.rs::update", "open_ahrs/src/gyrometer.rs::update"]}
